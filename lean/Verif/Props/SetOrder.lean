import Verif.Spec.SetOrder
import Verif.Props.Pps
/-! # C138: the order in which parameter sets are given -/
namespace Ouro
open Spec

/-- A picture parameter set is read in the same way with two stores that have the same set under the identifier it names. -/
theorem ppsBits_agree (inf : Nat) (f g : Nat → Option SPSInfo) (buf : Bytes) (h : ∀ k, namedSps buf = some k → f k = g k) :
    parsePpsBits inf f (newBitReader buf) = parsePpsBits inf g (newBitReader buf) := by
  unfold namedSps at h
  unfold parsePpsBits
  simp only [bind, BR.andThen] at h ⊢
  cases h1 : readUnsignedGolomb (newBitReader buf) with
  | error p => rfl
  | ok x =>
    obtain ⟨x, r⟩ := x
    rw [h1] at h
    cases x with
    | error e => rfl
    | ok a =>
      dsimp only at h ⊢
      cases h2 : readUnsignedGolomb r with
      | error p => rfl
      | ok y =>
        obtain ⟨y, r2⟩ := y
        rw [h2] at h
        cases y with
        | error e => rfl
        | ok k =>
          dsimp only at h ⊢
          rw [h k rfl]

/-- What a call does, given the sequence parameter sets: a panic, an error, a sequence set stored, a picture set stored, or nothing. -/
inductive SetLaw (inf : Nat) (op : SetOp) (f : Nat → Option SPSInfo) : Prop
  | panic (p : Panic) (h : ∀ pp, op.run inf ⟨f, pp⟩ = .error p)
  | idle (e : Option H264Err) (h : ∀ pp, op.run inf ⟨f, pp⟩ = .ok (e, ⟨f, pp⟩))
  | sps (hn : names op = none) (i : SPSInfo) (h : ∀ f' pp, op.run inf ⟨f', pp⟩ = .ok (none, ⟨fun id => if id = i.spsID then some i else f' id, pp⟩))
  | pps (i : PPSInfo) (h : ∀ pp, op.run inf ⟨f, pp⟩ = .ok (none, ⟨f, fun id => if id = i.ppsID then some i else pp id⟩))

/-- The kind of call, with its name. -/
theorem op_kind (inf : Nat) (op : SetOp) : (names op = none ∧ ∃ buf, ∀ s, op.run inf s = parseSPS s buf) ∨ (∃ buf, names op = namedSps buf ∧ ∀ s, op.run inf s = parsePPS inf s buf) ∨
    (names op = none ∧ ∀ s, op.run inf s = .ok (none, s)) := by
  cases op with
  | sps buf => exact .inl ⟨rfl, buf, fun _ => rfl⟩
  | pps buf => exact .inr (.inl ⟨buf, rfl, fun _ => rfl⟩)
  | sprop buf =>
    cases buf with
    | nil => exact .inr (.inr ⟨rfl, fun _ => rfl⟩)
    | cons h buf =>
      by_cases h8 : h.toNat % 32 = 8
      · exact .inr (.inl ⟨buf, by simp only [names, if_pos h8], fun s => (C34_dispatch inf s h buf).2.2.1 h8⟩)
      · have hn : names (.sprop (h :: buf)) = none := by simp only [names, if_neg h8]
        by_cases h7 : h.toNat % 32 = 7
        · exact .inl ⟨hn, buf, fun s => (C34_dispatch inf s h buf).2.1 h7⟩
        · exact .inr (.inr ⟨hn, fun s => (C34_dispatch inf s h buf).2.2.2 h7 h8⟩)

theorem setLaw (inf : Nat) (op : SetOp) (f : Nat → Option SPSInfo) : SetLaw inf op f := by
  rcases op_kind inf op with ⟨hn, buf, hk⟩ | ⟨buf, -, hk⟩ | ⟨-, hk⟩
  · rcases parseSPS_cases buf with ⟨e, hc⟩ | ⟨i, hc⟩
    · exact .idle (some e) fun pp => by rw [hk, hc]
    · exact .sps hn i fun f' pp => by rw [hk, hc]
  · rcases parsePPS_cases inf ⟨f, fun _ => none⟩ buf with ⟨p, hc⟩ | ⟨e, hc⟩ | ⟨i, hc⟩
    · exact .panic p fun pp => by rw [hk]; exact hc pp
    · exact .idle (some e) fun pp => by rw [hk]; exact hc pp
    · exact .pps i fun pp => by rw [hk]; exact hc pp
  · exact .idle none fun pp => by rw [hk]

/-- The error a call returns when the known sequence sets are `f`. -/
def errorOf (inf : Nat) (f : Nat → Option SPSInfo) (op : SetOp) : Option H264Err :=
  match op.run inf ⟨f, fun _ => none⟩ with
  | .ok (e, _) => e
  | .error _ => none

/-- With sequence sets that agree on the one it names, a call does the same. -/
theorem run_agree (inf : Nat) (op : SetOp) (s : ParameterSets) (f : Nat → Option SPSInfo) (h : ∀ k, names op = some k → s.spset k = f k) :
    ((∃ p, op.run inf s = .error p) ∧ ∃ p, op.run inf ⟨f, fun _ => none⟩ = .error p) ∨
    ∃ t t', op.run inf s = .ok (errorOf inf f op, t) ∧ op.run inf ⟨f, fun _ => none⟩ = .ok (errorOf inf f op, t') ∧
      ∀ id, (∃ i, StoresPPS inf ⟨f, fun _ => none⟩ op id i ∧ t.getPPS id = some i) ∨ ((¬ ∃ i, StoresPPS inf ⟨f, fun _ => none⟩ op id i) ∧ t.getPPS id = s.getPPS id) := by
  have same : (∃ p, op.run inf s = .error p ∧ op.run inf ⟨f, s.ppset⟩ = .error p) ∨ ∃ e t t', op.run inf s = .ok (e, t) ∧ op.run inf ⟨f, s.ppset⟩ = .ok (e, t') ∧ t.ppset = t'.ppset := by
    rcases op_kind inf op with ⟨-, buf, hk⟩ | ⟨buf, hb, hk⟩ | ⟨-, hk⟩
    · rcases parseSPS_cases buf with ⟨e, hc⟩ | ⟨i, hc⟩
      · exact .inr ⟨_, _, _, (hk _).trans (hc _), (hk _).trans (hc _), rfl⟩
      · exact .inr ⟨_, _, _, (hk _).trans (hc _), (hk _).trans (hc _), rfl⟩
    · have hp := ppsBits_agree inf s.spset f buf (by rw [← hb]; exact h)
      rw [hk, hk]
      unfold parsePPS
      dsimp only
      rw [hp]
      cases parsePpsBits inf f (newBitReader buf) with
      | error p => exact .inl ⟨p, rfl, rfl⟩
      | ok x =>
        obtain ⟨x, r⟩ := x
        cases x with
        | error e => exact .inr ⟨_, _, _, rfl, rfl, rfl⟩
        | ok i => exact .inr ⟨_, _, _, rfl, rfl, rfl⟩
    · exact .inr ⟨_, _, _, hk _, hk _, rfl⟩
  have hpp : ∀ t' e, op.run inf ⟨f, s.ppset⟩ = .ok (e, t') → e = errorOf inf f op ∧ ∃ u, op.run inf ⟨f, fun _ => none⟩ = .ok (e, u) := by
    intro t' e ht
    unfold errorOf
    cases setLaw inf op f with
    | panic p hl => rw [hl] at ht; cases ht
    | idle e' hl => rw [hl] at ht ⊢; injection ht with ht; injection ht with ht _; exact ⟨ht.symm, _, by rw [ht]⟩
    | sps _ i hl => rw [hl] at ht ⊢; injection ht with ht; injection ht with ht _; exact ⟨ht.symm, _, by rw [ht]⟩
    | pps i hl => rw [hl] at ht ⊢; injection ht with ht; injection ht with ht _; exact ⟨ht.symm, _, by rw [ht]⟩
  rcases same with ⟨p, h1, h2⟩ | ⟨e, t, t', h1, h2, h3⟩
  · refine .inl ⟨⟨p, h1⟩, p, ?_⟩
    cases setLaw inf op f with
    | panic q hl => rw [hl] at h2 ⊢; exact h2
    | idle e' hl => rw [hl] at h2; cases h2
    | sps _ i hl => rw [hl] at h2; cases h2
    | pps i hl => rw [hl] at h2; cases h2
  · obtain ⟨he, u, hu⟩ := hpp t' e h2
    subst he
    refine .inr ⟨t, u, h1, hu, fun id => ?_⟩
    have hst := setOp_pps inf op ⟨f, s.ppset⟩ t' _ h2 id
    have hg : t.getPPS id = t'.getPPS id := by unfold ParameterSets.getPPS; rw [h3]
    rcases hst with ⟨i, a, b⟩ | ⟨a, b⟩
    · exact .inl ⟨i, a, by rw [hg, b]⟩
    · exact .inr ⟨a, by rw [hg, b]; rfl⟩

/-- The sequence sets after calls. -/
theorem spset_after (inf : Nat) (ops : List SetOp) : ∀ (st s : ParameterSets) (r : List (SetOp × Option H264Err)), setResults inf ops st = .ok (r, s) → ∀ id,
    (∃ o ∈ ops, ∃ i, StoresSPS inf o id i ∧ s.getSPS id = some i) ∨ ((∀ o ∈ ops, ¬ ∃ i, StoresSPS inf o id i) ∧ s.getSPS id = st.getSPS id) := by
  induction ops with
  | nil =>
    intro st s r h id
    injection h with h; injection h with _ h; subst h
    exact .inr ⟨fun o ho => (by cases ho), rfl⟩
  | cons op ops ih =>
    intro st s r h id
    rw [setResults] at h
    cases h1 : op.run inf st with
    | error p => rw [h1] at h; cases h
    | ok x =>
      obtain ⟨e, s1⟩ := x
      rw [h1] at h
      dsimp only at h
      cases h2 : setResults inf ops s1 with
      | error p => rw [h2] at h; cases h
      | ok y =>
        obtain ⟨r', t⟩ := y
        rw [h2] at h
        injection h with h; injection h with _ h; subst h
        rcases ih s1 t r' h2 id with ⟨o, ho, i, a, b⟩ | ⟨a, b⟩
        · exact .inl ⟨o, List.mem_cons_of_mem _ ho, i, a, b⟩
        · rcases setOp_sps inf op st s1 e h1 id with ⟨i, c, d⟩ | ⟨c, d⟩
          · exact .inl ⟨op, List.mem_cons_self .., i, c, by rw [b, d]⟩
          · refine .inr ⟨fun o ho => ?_, by rw [b, d]⟩
            rcases List.mem_cons.mp ho with rfl | ho
            · exact c
            · exact a o ho

/-- Calls of which each sees the sequence set it names as it is in `f`. -/
theorem walk (inf : Nat) (f : Nat → Option SPSInfo) (ops : List SetOp) : ∀ st : ParameterSets,
    (∀ pre op post, ops = pre ++ op :: post → ∀ r s, setResults inf pre st = .ok (r, s) → ∀ k, names op = some k → s.spset k = f k) →
    ((∃ p, setResults inf ops st = .error p) ∧ ∃ o ∈ ops, ∃ p, o.run inf ⟨f, fun _ => none⟩ = .error p) ∨
    ∃ s, setResults inf ops st = .ok (ops.map (fun o => (o, errorOf inf f o)), s) ∧ (∀ o ∈ ops, ∃ u, o.run inf ⟨f, fun _ => none⟩ = .ok u) ∧
      ∀ id, (∃ o ∈ ops, ∃ i, StoresPPS inf ⟨f, fun _ => none⟩ o id i ∧ s.getPPS id = some i) ∨
        ((∀ o ∈ ops, ¬ ∃ i, StoresPPS inf ⟨f, fun _ => none⟩ o id i) ∧ s.getPPS id = st.getPPS id) := by
  induction ops with
  | nil => intro st _; exact .inr ⟨st, rfl, fun o ho => (by cases ho), fun id => .inr ⟨fun o ho => (by cases ho), rfl⟩⟩
  | cons op ops ih =>
    intro st h
    rw [setResults]
    rcases run_agree inf op st f (h [] op ops rfl _ _ rfl) with ⟨⟨p, h1⟩, q, h2⟩ | ⟨t, t', h1, h2, h3⟩
    · exact .inl ⟨⟨p, by rw [h1]⟩, op, List.mem_cons_self .., q, h2⟩
    · rw [h1]
      dsimp only
      rcases ih t (fun pre o post e r s hr k hk => h (op :: pre) o post (by rw [e]; rfl) _ s (by rw [setResults, h1]; dsimp only; rw [hr]) k hk) with
        ⟨⟨p, h4⟩, o, ho, q, h5⟩ | ⟨s, h4, h5, h6⟩
      · exact .inl ⟨⟨p, by rw [h4]⟩, o, List.mem_cons_of_mem _ ho, q, h5⟩
      · refine .inr ⟨s, by rw [h4]; rfl, fun o ho => ?_, fun id => ?_⟩
        · rcases List.mem_cons.mp ho with rfl | ho
          · exact ⟨_, h2⟩
          · exact h5 o ho
        · rcases h6 id with ⟨o, ho, i, a, b⟩ | ⟨a, b⟩
          · exact .inl ⟨o, List.mem_cons_of_mem _ ho, i, a, b⟩
          · rcases h3 id with ⟨i, c, d⟩ | ⟨c, d⟩
            · exact .inl ⟨op, List.mem_cons_self .., i, c, by rw [b, d]⟩
            · refine .inr ⟨fun o ho => ?_, by rw [b, d]⟩
              rcases List.mem_cons.mp ho with rfl | ho
              · exact c
              · exact a o ho

/-- A call about a picture set stores no sequence set. -/
theorem named_no_sps (inf : Nat) (op : SetOp) (k : Nat) (h : names op = some k) (id : Nat) : ¬ ∃ i, StoresSPS inf op id i := by
  rintro ⟨i, s', h1, h2⟩
  have hl := setLaw inf op newParameterSets.spset
  have e : (⟨newParameterSets.spset, newParameterSets.ppset⟩ : ParameterSets) = newParameterSets := rfl
  cases hl with
  | panic p hl => have := hl newParameterSets.ppset; rw [e, h1] at this; cases this
  | idle e' hl =>
    have := hl newParameterSets.ppset
    rw [e, h1] at this
    injection this with this; injection this with _ this; subst this
    cases h2
  | sps hn i hl => rw [hn] at h; cases h
  | pps i hl =>
    have := hl newParameterSets.ppset
    rw [e, h1] at this
    injection this with this; injection this with _ this; subst this
    cases h2

/-- At its place each call sees the sequence set it names as it is at the end. -/
theorem sees (inf : Nat) (st : ParameterSets) (ops ops' : List SetOp) (hm : ∀ o, o ∈ ops ↔ o ∈ ops') (h1 : OneSps inf ops) (hf : SpsFirst inf ops')
    (r : List (SetOp × Option H264Err)) (s : ParameterSets) (hr : setResults inf ops st = .ok (r, s)) :
    ∀ pre op post, ops' = pre ++ op :: post → ∀ r' s', setResults inf pre st = .ok (r', s') → ∀ k, names op = some k → s'.spset k = s.spset k := by
  intro pre op post e r' s' hp k hk
  have hmem : ∀ o ∈ pre, o ∈ ops := fun o ho => (hm o).mpr (by rw [e]; exact List.mem_append_left _ ho)
  rcases spset_after inf pre st s' r' hp k with ⟨o, ho, i, a, b⟩ | ⟨a, b⟩
  · rcases spset_after inf ops st s r hr k with ⟨o2, ho2, j, c, d⟩ | ⟨c, _⟩
    · rw [h1 o (hmem o ho) o2 ho2 k i j a c] at b
      exact b.trans d.symm
    · exact absurd ⟨i, a⟩ (c o (hmem o ho))
  · rcases spset_after inf ops st s r hr k with ⟨o2, ho2, j, c, d⟩ | ⟨_, d⟩
    · exfalso
      have ho2' := (hm o2).mp ho2
      rw [e, List.mem_append, List.mem_cons] at ho2'
      rcases ho2' with h | rfl | h
      · exact a o2 h ⟨j, c⟩
      · exact named_no_sps inf _ k hk k ⟨j, c⟩
      · obtain ⟨o3, ho3, hj⟩ := hf pre op post e k hk ⟨o2, h, j, c⟩
        exact a o3 ho3 hj
    · exact b.trans d.symm

/-- C138 for sets of which each picture set comes after the sequence set it names: in whatever order, and however often, the same sets are given, each call returns
the same error, and the same sets are known at the end. The sets need not be correct. -/
theorem C138_order_partial (inf : Nat) (st : ParameterSets) (ops ops' : List SetOp) (hm : ∀ o, o ∈ ops ↔ o ∈ ops') (h1 : OneSps inf ops)
    (hf : SpsFirst inf ops) (hf' : SpsFirst inf ops') (r : List (SetOp × Option H264Err)) (s : ParameterSets) (hr : setResults inf ops st = .ok (r, s)) (h2 : OnePps inf s ops) :
    ∃ r' s', setResults inf ops' st = .ok (r', s') ∧ (∀ x, x ∈ r ↔ x ∈ r') ∧ (∀ id, s'.getSPS id = s.getSPS id) ∧ ∀ id, s'.getPPS id = s.getPPS id := by
  have w := walk inf s.spset ops st (sees inf st ops ops (fun _ => Iff.rfl) h1 hf r s hr)
  have w' := walk inf s.spset ops' st (sees inf st ops ops' hm h1 hf' r s hr)
  rcases w with ⟨⟨p, hp⟩, _⟩ | ⟨s0, hs0, hok, hpp⟩
  · rw [hr] at hp; cases hp
  · rw [hr] at hs0
    injection hs0 with hs0; injection hs0 with hr0 hs0; subst hs0; subst hr0
    rcases w' with ⟨_, o, ho, p, hp⟩ | ⟨s', hs', _, hpp'⟩
    · obtain ⟨u, hu⟩ := hok o ((hm o).mpr ho)
      rw [hu] at hp; cases hp
    · refine ⟨_, s', hs', fun x => ?_, fun id => ?_, fun id => ?_⟩
      · simp only [List.mem_map]
        exact ⟨fun ⟨o, ho, e⟩ => ⟨o, (hm o).mp ho, e⟩, fun ⟨o, ho, e⟩ => ⟨o, (hm o).mpr ho, e⟩⟩
      · rcases spset_after inf ops st s _ hr id with ⟨o, ho, i, a, b⟩ | ⟨a, b⟩ <;>
          rcases spset_after inf ops' st s' _ hs' id with ⟨o', ho', j, c, d⟩ | ⟨c, d⟩
        · rw [b, d, h1 o ho o' ((hm o').mpr ho') id i j a c]
        · exact absurd ⟨i, a⟩ (c o ((hm o).mp ho))
        · exact absurd ⟨j, c⟩ (a o' ((hm o').mpr ho'))
        · rw [b, d]
      · have cast : ∀ o i, StoresPPS inf ⟨s.spset, fun _ => none⟩ o id i ↔ StoresPPS inf s o id i := fun _ _ => Iff.rfl
        rcases hpp id with ⟨o, ho, i, a, b⟩ | ⟨a, b⟩ <;> rcases hpp' id with ⟨o', ho', j, c, d⟩ | ⟨c, d⟩
        · rw [b, d, h2 o ho o' ((hm o').mpr ho') id i j a c]
        · exact absurd ⟨i, a⟩ (c o ((hm o).mp ho))
        · exact absurd ⟨j, c⟩ (a o' ((hm o').mpr ho'))
        · rw [b, d]

/-- A sequence parameter set (High, 4:2:0, identifier 1) and a picture parameter set that names it and has a scaling matrix for 8x8 blocks. -/
def setHigh : SetOp := .sprop [0x67, 100, 0, 40, 0x4B, 0x3A, 0x79]
def setMatrix : SetOp := .sprop [0x68, 34, 155, 48, 160, 168, 32, 116, 121, 102, 145, 132, 192, 17]

/-- C138 fails in general: a picture set with a scaling matrix that comes first is refused. -/
theorem C138_refuted :
    ((setResults 0 [setHigh, setMatrix] newParameterSets).toOption.map fun x => (x.1.map (·.2), (x.2.getSPS 1).isSome, (x.2.getPPS 3).isSome)) = some ([none, none], true, true) ∧
    ((setResults 0 [setMatrix, setHigh] newParameterSets).toOption.map fun x => (x.1.map (·.2), (x.2.getSPS 1).isSome, (x.2.getPPS 3).isSome)) =
      some ([some .unexpectedEOF, none], true, false) := by
  constructor <;> decide +kernel

/-! ## A case -/

/-- A call stores one set under one identifier. -/
theorem stores_once (inf : Nat) (op : SetOp) (a b : Nat) (i j : SPSInfo) (h1 : StoresSPS inf op a i) (h2 : StoresSPS inf op b j) : a = b ∧ i = j := by
  obtain ⟨s, r1, g1⟩ := h1
  obtain ⟨t, r2, g2⟩ := h2
  rw [r1] at r2
  injection r2 with r2; injection r2 with _ r2; subst r2
  have e : (⟨newParameterSets.spset, newParameterSets.ppset⟩ : ParameterSets) = newParameterSets := rfl
  cases setLaw inf op newParameterSets.spset with
  | panic p hl => have := hl newParameterSets.ppset; rw [e, r1] at this; cases this
  | idle e' hl =>
    have := hl newParameterSets.ppset
    rw [e, r1] at this
    injection this with this; injection this with _ this; subst this
    cases g1
  | sps _ k hl =>
    have := hl newParameterSets.spset newParameterSets.ppset
    rw [e, r1] at this
    injection this with this; injection this with _ this; subst this
    simp only [ParameterSets.getSPS, newParameterSets] at g1 g2
    split at g1
    · split at g2
      · injection g1 with g1; injection g2 with g2
        exact ⟨by omega, g1.symm.trans g2⟩
      · cases g2
    · cases g1
  | pps k hl =>
    have := hl newParameterSets.ppset
    rw [e, r1] at this
    injection this with this; injection this with _ this; subst this
    cases g1

/-- Another sequence parameter set, with identifier 0. -/
def setLow : SetOp := .sprop [0x67, 66, 0xC0, 40, 237, 0, 240, 4, 79, 202, 128]

theorem high_at (id : Nat) (i : SPSInfo) (h : StoresSPS 0 setHigh id i) : id = 1 := by
  have hs : ((setHigh.run 0 newParameterSets).toOption.map fun x => (x.1, (x.2.getSPS 1).isSome)) = some (none, true) := by decide +kernel
  cases hr : setHigh.run 0 newParameterSets with
  | error p => rw [hr] at hs; cases hs
  | ok x =>
    obtain ⟨e, s⟩ := x
    rw [hr] at hs
    simp only [Except.toOption, Option.map_some, Option.some.injEq, Prod.mk.injEq] at hs
    obtain ⟨j, hj⟩ := Option.isSome_iff_exists.mp hs.2
    exact (stores_once 0 setHigh id 1 i j h ⟨s, by rw [hr, hs.1], hj⟩).1

theorem low_at (id : Nat) (i : SPSInfo) (h : StoresSPS 0 setLow id i) : id = 0 := by
  have hs : ((setLow.run 0 newParameterSets).toOption.map fun x => (x.1, (x.2.getSPS 0).isSome)) = some (none, true) := by decide +kernel
  cases hr : setLow.run 0 newParameterSets with
  | error p => rw [hr] at hs; cases hs
  | ok x =>
    obtain ⟨e, s⟩ := x
    rw [hr] at hs
    simp only [Except.toOption, Option.map_some, Option.some.injEq, Prod.mk.injEq] at hs
    obtain ⟨j, hj⟩ := Option.isSome_iff_exists.mp hs.2
    exact (stores_once 0 setLow id 0 i j h ⟨s, by rw [hr, hs.1], hj⟩).1

theorem matrix_names : names setMatrix = some 1 := by decide +kernel

-- two sequence sets and a picture set in two orders, one of them twice: the hypotheses of `C138_order_partial` hold
example : (∀ o, o ∈ [setHigh, setMatrix, setLow] ↔ o ∈ [setLow, setHigh, setLow, setMatrix]) ∧ OneSps 0 [setHigh, setMatrix, setLow] ∧
    (∀ s, OnePps 0 s [setMatrix]) ∧ SpsFirst 0 [setHigh, setMatrix, setLow] ∧
    ((setResults 0 [setHigh, setMatrix, setLow] newParameterSets).toOption.map fun x => (x.1.map (·.2), (x.2.getSPS 0).isSome, (x.2.getSPS 1).isSome, (x.2.getPPS 3).isSome)) =
      some ([none, none, none], true, true, true) := by
  refine ⟨?_, ?_, ?_, ?_, by decide +kernel⟩
  · intro o
    simp only [List.mem_cons, List.not_mem_nil, or_false]
    constructor
    · rintro (rfl | rfl | rfl) <;> simp
    · rintro (rfl | rfl | rfl | rfl) <;> simp
  · have hm : ∀ id i, ¬ StoresSPS 0 setMatrix id i := fun id i h => named_no_sps 0 setMatrix 1 matrix_names id ⟨i, h⟩
    intro a ha b hb id i j h1 h2
    simp only [List.mem_cons, List.not_mem_nil, or_false] at ha hb
    rcases ha with rfl | rfl | rfl <;> rcases hb with rfl | rfl | rfl
    · exact (stores_once 0 _ id id i j h1 h2).2
    · exact absurd h2 (hm _ _)
    · have := high_at id i h1; have := low_at id j h2; omega
    · exact absurd h1 (hm _ _)
    · exact absurd h1 (hm _ _)
    · exact absurd h1 (hm _ _)
    · have := low_at id i h1; have := high_at id j h2; omega
    · exact absurd h2 (hm _ _)
    · exact (stores_once 0 _ id id i j h1 h2).2
  · intro s a ha b hb id i j h1 h2
    rw [List.mem_singleton] at ha hb
    subst ha; subst hb
    obtain ⟨s1, r1, g1⟩ := h1
    obtain ⟨s2, r2, g2⟩ := h2
    rw [r1] at r2
    injection r2 with r2; injection r2 with _ r2; subst r2
    rw [g1] at g2
    injection g2
  · intro pre op post e k hk hp
    obtain ⟨o, ho, j, hj⟩ := hp
    rcases pre with _ | ⟨x, _ | ⟨y, _ | ⟨z, _ | ⟨_, _⟩⟩⟩⟩
    · simp only [List.nil_append, List.cons.injEq] at e
      obtain ⟨rfl, rfl⟩ := e
      rw [show names setHigh = none by decide +kernel] at hk
      cases hk
    · simp only [List.cons_append, List.nil_append, List.cons.injEq] at e
      obtain ⟨rfl, rfl, rfl⟩ := e
      rw [matrix_names] at hk
      injection hk with hk
      rw [List.mem_singleton] at ho
      subst ho
      have := low_at k j hj
      omega
    · simp only [List.cons_append, List.nil_append, List.cons.injEq] at e
      obtain ⟨rfl, rfl, rfl, rfl⟩ := e
      cases ho
    · simp at e
    · simp at e

end Ouro
