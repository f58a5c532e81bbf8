import Verif.Lemmas.Sps
/-!
# C28–C31, C34: the parameter set store, sequence parameter sets, sprop dispatch

`inf` is the (implementation defined) value of Go's `uint(math.Inf(-1))`; nothing below depends on it.
-/
namespace Ouro
open Spec

/-! ## C28 -/

/-- The calls that change a `ParameterSets`. -/
inductive SetOp
  | sps (buf : Bytes)
  | pps (buf : Bytes)
  | sprop (buf : Bytes)

/-- Run one call; its error result is ignored. -/
def SetOp.run (inf : Nat) (s : ParameterSets) : SetOp → Go (Option H264Err × ParameterSets)
  | .sps buf => parseSPS s buf
  | .pps buf => parsePPS inf s buf
  | .sprop buf => parseSprop inf s buf

/-- Run a sequence of calls on a store; a panic ends it. -/
def runSets (inf : Nat) : List SetOp → ParameterSets → Go ParameterSets
  | [], s => .ok s
  | op :: ops, s =>
    match op.run inf s with
    | .error p => .error p
    | .ok (_, s') => runSets inf ops s'

/-- Executed on a store that holds no sets of its kind, the call succeeds and afterwards `GetSPS(id)` gives `i`. -/
def StoresSPS (inf : Nat) (op : SetOp) (id : Nat) (i : SPSInfo) : Prop :=
  ∃ s', op.run inf newParameterSets = .ok (none, s') ∧ s'.getSPS id = some i

/-- The call, made when the known sequence parameter sets are those of `s`, makes `GetPPS(id)` give `i`. -/
def StoresPPS (inf : Nat) (s : ParameterSets) (op : SetOp) (id : Nat) (i : PPSInfo) : Prop :=
  ∃ s', op.run inf { s with ppset := fun _ => none } = .ok (none, s') ∧ s'.getPPS id = some i

theorem parseSPS_cases (buf : Bytes) :
    (∃ e, ∀ s : ParameterSets, parseSPS s buf = .ok (some e, s)) ∨
    (∃ i : SPSInfo, ∀ s : ParameterSets,
      parseSPS s buf = .ok (none, { s with spset := fun id => if id = i.spsID then some i else s.spset id })) := by
  obtain ⟨x, r', h, _⟩ := parseSpsBits_safe _ (newBitReader_inv buf)
  cases x with
  | error e => exact .inl ⟨e, fun s => by simp [parseSPS, h]⟩
  | ok i => exact .inr ⟨i, fun s => by simp [parseSPS, h]⟩

theorem parsePPS_cases (inf : Nat) (s : ParameterSets) (buf : Bytes) :
    (∃ p, ∀ pp, parsePPS inf ⟨s.spset, pp⟩ buf = .error p) ∨
    (∃ e, ∀ pp, parsePPS inf ⟨s.spset, pp⟩ buf = .ok (some e, ⟨s.spset, pp⟩)) ∨
    (∃ i : PPSInfo, ∀ pp,
      parsePPS inf ⟨s.spset, pp⟩ buf = .ok (none, ⟨s.spset, fun id => if id = i.ppsID then some i else pp id⟩)) := by
  cases h : parsePpsBits inf s.spset (newBitReader buf) with
  | error p => exact .inl ⟨p, fun s => by simp [parsePPS, h]⟩
  | ok x =>
    obtain ⟨x, r⟩ := x
    cases x with
    | error e => exact .inr (.inl ⟨e, fun s => by simp [parsePPS, h]⟩)
    | ok i => exact .inr (.inr ⟨i, fun s => by simp [parsePPS, h]⟩)

/-- `ParseSprop` is `ParseSPS`, `ParsePPS` or nothing. -/
theorem sprop_cases (inf : Nat) (buf : Bytes) :
    (∃ rest, ∀ s, parseSprop inf s buf = parseSPS s rest) ∨ (∃ rest, ∀ s, parseSprop inf s buf = parsePPS inf s rest) ∨
    (∀ s, parseSprop inf s buf = .ok (none, s)) := by
  cases buf with
  | nil => exact .inr (.inr fun s => rfl)
  | cons b0 rest =>
    by_cases h7 : b0 &&& 0x1F = 7
    · exact .inl ⟨rest, fun s => by simp [parseSprop, h7]⟩
    · by_cases h8 : b0 &&& 0x1F = 8
      · exact .inr (.inl ⟨rest, fun s => by simp [parseSprop, h8]⟩)
      · exact .inr (.inr fun s => by simp [parseSprop, h7, h8])

theorem setOp_kind (inf : Nat) (op : SetOp) :
    (∃ buf, ∀ s, op.run inf s = parseSPS s buf) ∨ (∃ buf, ∀ s, op.run inf s = parsePPS inf s buf) ∨
    (∀ s, op.run inf s = .ok (none, s)) := by
  cases op with
  | sps buf => exact .inl ⟨buf, fun _ => rfl⟩
  | pps buf => exact .inr (.inl ⟨buf, fun _ => rfl⟩)
  | sprop buf => exact sprop_cases inf buf

theorem setOp_sps (inf : Nat) (op : SetOp) (s s' : ParameterSets) (e : Option H264Err)
    (h : op.run inf s = .ok (e, s')) (id : Nat) :
    (∃ i, StoresSPS inf op id i ∧ s'.getSPS id = some i) ∨
    ((¬ ∃ j, StoresSPS inf op id j) ∧ s'.getSPS id = s.getSPS id) := by
  rcases setOp_kind inf op with ⟨buf, hk⟩ | ⟨buf, hk⟩ | hk
  · rcases parseSPS_cases buf with ⟨e', hc⟩ | ⟨i, hc⟩
    · rw [hk, hc] at h
      injection h with h; injection h with _ h; subst h
      refine .inr ⟨?_, rfl⟩
      rintro ⟨j, t, ht, _⟩
      rw [hk, hc] at ht; simp at ht
    · rw [hk, hc] at h
      injection h with h; injection h with _ h; subst h
      by_cases hid : id = i.spsID
      · refine .inl ⟨i, ⟨_, by rw [hk, hc], ?_⟩, ?_⟩ <;> simp [ParameterSets.getSPS, hid]
      · refine .inr ⟨?_, by simp [ParameterSets.getSPS, hid]⟩
        rintro ⟨j, t, ht, hj⟩
        rw [hk, hc] at ht
        injection ht with ht; injection ht with _ ht; subst ht
        simp [ParameterSets.getSPS, hid, newParameterSets] at hj
  · have hno : ¬ ∃ j, StoresSPS inf op id j := by
      rintro ⟨j, t, ht, hj⟩
      rw [hk] at ht
      rcases parsePPS_cases inf newParameterSets buf with ⟨p, hc⟩ | ⟨e', hc⟩ | ⟨i, hc⟩
      · have := hc newParameterSets.ppset; rw [show (⟨newParameterSets.spset, newParameterSets.ppset⟩ : ParameterSets) = newParameterSets from rfl, ht] at this; cases this
      · have := hc newParameterSets.ppset; rw [show (⟨newParameterSets.spset, newParameterSets.ppset⟩ : ParameterSets) = newParameterSets from rfl, ht] at this; simp at this
      · have := hc newParameterSets.ppset; rw [show (⟨newParameterSets.spset, newParameterSets.ppset⟩ : ParameterSets) = newParameterSets from rfl, ht] at this
        injection this with this; injection this with _ this; subst this
        simp [ParameterSets.getSPS, newParameterSets] at hj
    refine .inr ⟨hno, ?_⟩
    rw [hk] at h
    rcases parsePPS_cases inf s buf with ⟨p, hc⟩ | ⟨e', hc⟩ | ⟨i, hc⟩
    · have := hc s.ppset; rw [show (⟨s.spset, s.ppset⟩ : ParameterSets) = s from rfl, h] at this; cases this
    · have := hc s.ppset; rw [show (⟨s.spset, s.ppset⟩ : ParameterSets) = s from rfl, h] at this
      injection this with this; injection this with _ this; subst this; rfl
    · have := hc s.ppset; rw [show (⟨s.spset, s.ppset⟩ : ParameterSets) = s from rfl, h] at this
      injection this with this; injection this with _ this; subst this; rfl
  · rw [hk] at h
    injection h with h; injection h with _ h; subst h
    refine .inr ⟨?_, rfl⟩
    rintro ⟨j, t, ht, hj⟩
    rw [hk] at ht
    injection ht with ht; injection ht with _ ht; subst ht
    simp [ParameterSets.getSPS, newParameterSets] at hj

theorem setOp_pps (inf : Nat) (op : SetOp) (s s' : ParameterSets) (e : Option H264Err)
    (h : op.run inf s = .ok (e, s')) (id : Nat) :
    (∃ i, StoresPPS inf s op id i ∧ s'.getPPS id = some i) ∨
    ((¬ ∃ j, StoresPPS inf s op id j) ∧ s'.getPPS id = s.getPPS id) := by
  rcases setOp_kind inf op with ⟨buf, hk⟩ | ⟨buf, hk⟩ | hk
  · rcases parseSPS_cases buf with ⟨e', hc⟩ | ⟨i, hc⟩
    · rw [hk, hc] at h
      injection h with h; injection h with _ h; subst h
      refine .inr ⟨?_, rfl⟩
      rintro ⟨j, t, ht, _⟩
      rw [hk, hc] at ht; simp at ht
    · rw [hk, hc] at h
      injection h with h; injection h with _ h; subst h
      refine .inr ⟨?_, rfl⟩
      rintro ⟨j, t, ht, hj⟩
      rw [hk, hc] at ht
      injection ht with ht; injection ht with _ ht; subst ht
      simp [ParameterSets.getPPS] at hj
  · rw [hk] at h
    have hs : (⟨s.spset, s.ppset⟩ : ParameterSets) = s := rfl
    rcases parsePPS_cases inf s buf with ⟨p, hc⟩ | ⟨e', hc⟩ | ⟨i, hc⟩
    · have := hc s.ppset; rw [hs, h] at this; cases this
    · have := hc s.ppset; rw [hs, h] at this
      injection this with this; injection this with _ this; subst this
      refine .inr ⟨?_, rfl⟩
      rintro ⟨j, t, ht, _⟩
      rw [hk, hc] at ht; simp at ht
    · have := hc s.ppset; rw [hs, h] at this
      injection this with this; injection this with _ this; subst this
      by_cases hid : id = i.ppsID
      · refine .inl ⟨i, ⟨_, by rw [hk, hc], ?_⟩, ?_⟩ <;> simp [ParameterSets.getPPS, hid]
      · refine .inr ⟨?_, by simp [ParameterSets.getPPS, hid]⟩
        rintro ⟨j, t, ht, hj⟩
        rw [hk, hc] at ht
        injection ht with ht; injection ht with _ ht; subst ht
        simp [ParameterSets.getPPS, hid] at hj
  · rw [hk] at h
    injection h with h; injection h with _ h; subst h
    refine .inr ⟨?_, rfl⟩
    rintro ⟨j, t, ht, hj⟩
    rw [hk] at ht
    injection ht with ht; injection ht with _ ht; subst ht
    simp [ParameterSets.getPPS] at hj

theorem runSets_snoc (inf : Nat) (op : SetOp) (ops : List SetOp) : ∀ s s', runSets inf (ops ++ [op]) s = .ok s' ↔
    ∃ s1 e, runSets inf ops s = .ok s1 ∧ op.run inf s1 = .ok (e, s') := by
  induction ops with
  | nil =>
    intro s s'
    simp only [List.nil_append, runSets]
    cases h : op.run inf s with
    | error p => simp [h]
    | ok x => obtain ⟨e, t⟩ := x; simp [h]
  | cons o ops ih =>
    intro s s'
    simp only [List.cons_append, runSets]
    cases h : o.run inf s with
    | error p => simp
    | ok x => obtain ⟨e, t⟩ := x; simpa using ih t s'

theorem snoc_split {α : Type} {ops pre post : List α} {x y : α} (h : ops ++ [x] = pre ++ y :: post) :
    (post = [] ∧ ops = pre ∧ x = y) ∨ ∃ post', post = post' ++ [x] ∧ ops = pre ++ y :: post' := by
  rcases List.eq_nil_or_concat post with rfl | ⟨post', z, rfl⟩
  · obtain ⟨h1, h2⟩ := List.append_inj' h rfl
    injection h2 with h2
    exact .inl ⟨rfl, h1, h2⟩
  · rw [show pre ++ y :: (post'.concat z) = (pre ++ y :: post') ++ [z] by simp] at h
    obtain ⟨h1, h2⟩ := List.append_inj' h rfl
    injection h2 with h2
    exact .inr ⟨post', by simp [h2], h1⟩

/-- C28, sequence parameter sets: after any history that did not panic, `GetSPS(id)` is what the most recent call that
stores a set with this id stored. -/
theorem C28_sps_latest (inf : Nat) (ops : List SetOp) (s : ParameterSets)
    (hist : runSets inf ops newParameterSets = .ok s) (id : Nat) (i : SPSInfo) :
    s.getSPS id = some i ↔ ∃ pre op post, ops = pre ++ op :: post ∧ StoresSPS inf op id i ∧
      ∀ op' ∈ post, ¬ ∃ j, StoresSPS inf op' id j := by
  rw [← List.reverse_reverse ops] at *
  generalize ops.reverse = rops at *
  induction rops generalizing s with
  | nil =>
    simp only [List.reverse_nil, runSets, Except.ok.injEq] at hist
    subst hist
    simp [newParameterSets, ParameterSets.getSPS]
  | cons x rops ih =>
    rw [List.reverse_cons] at hist ⊢
    obtain ⟨s1, e, h1, h2⟩ := (runSets_snoc _ _ _ _ _).1 hist
    rcases setOp_sps inf x s1 s e h2 id with ⟨i', g1, g2⟩ | ⟨g1, g2⟩
    · rw [g2]
      constructor
      · rintro hi
        injection hi with hi; subst hi
        exact ⟨_, x, [], rfl, g1, by simp⟩
      · rintro ⟨pre, op, post, hs, hst, hpost⟩
        rcases snoc_split hs with ⟨rfl, _, rfl⟩ | ⟨post', rfl, _⟩
        · obtain ⟨t1, k1, k2⟩ := g1
          obtain ⟨t2, k3, k4⟩ := hst
          rw [k1] at k3; injection k3 with k3; injection k3 with _ k3; subst k3
          rw [← k2, k4]
        · exact absurd ⟨i', g1⟩ (hpost x (by simp))
    · rw [g2, ih s1 h1]
      constructor
      · rintro ⟨pre, op, post, hs, hst, hpost⟩
        refine ⟨pre, op, post ++ [x], by rw [hs]; simp, hst, ?_⟩
        intro o ho
        rcases List.mem_append.1 ho with ho | ho
        · exact hpost o ho
        · rw [List.mem_singleton.1 ho]; exact g1
      · rintro ⟨pre, op, post, hs, hst, hpost⟩
        rcases snoc_split hs with ⟨rfl, _, rfl⟩ | ⟨post', rfl, hs'⟩
        · exact absurd ⟨i, hst⟩ g1
        · exact ⟨pre, op, post', hs', hst, fun o ho => hpost o (by simp [ho])⟩

/-- C28, picture parameter sets: `GetPPS(id)` is what the most recent call that stores a set with this id stored, given
the sequence parameter sets known at that moment. -/
theorem C28_pps_latest (inf : Nat) (ops : List SetOp) (s : ParameterSets)
    (hist : runSets inf ops newParameterSets = .ok s) (id : Nat) (i : PPSInfo) :
    s.getPPS id = some i ↔ ∃ pre op post s1, ops = pre ++ op :: post ∧
      runSets inf pre newParameterSets = .ok s1 ∧ StoresPPS inf s1 op id i ∧
      ∀ mid op' post' s2, post = mid ++ op' :: post' → runSets inf (pre ++ op :: mid) newParameterSets = .ok s2 →
        ¬ ∃ j, StoresPPS inf s2 op' id j := by
  rw [← List.reverse_reverse ops] at *
  generalize ops.reverse = rops at *
  induction rops generalizing s with
  | nil =>
    simp only [List.reverse_nil, runSets, Except.ok.injEq] at hist
    subst hist
    simp [newParameterSets, ParameterSets.getPPS]
  | cons x rops ih =>
    rw [List.reverse_cons] at hist ⊢
    obtain ⟨s1, e, h1, h2⟩ := (runSets_snoc _ _ _ _ _).1 hist
    rcases setOp_pps inf x s1 s e h2 id with ⟨i', g1, g2⟩ | ⟨g1, g2⟩
    · rw [g2]
      constructor
      · rintro hi
        injection hi with hi; subst hi
        exact ⟨_, x, [], s1, rfl, h1, g1, by simp⟩
      · rintro ⟨pre, op, post, t, hs, hpre, hst, hpost⟩
        rcases snoc_split hs with ⟨rfl, rfl, rfl⟩ | ⟨post', rfl, hs'⟩
        · rw [h1] at hpre; injection hpre with hpre; subst hpre
          obtain ⟨t1, k1, k2⟩ := g1
          obtain ⟨t2, k3, k4⟩ := hst
          rw [k1] at k3; injection k3 with k3; injection k3 with _ k3; subst k3
          rw [← k2, k4]
        · exact absurd ⟨i', g1⟩ (hpost post' x [] s1 rfl (by rw [← hs']; exact h1))
    · rw [g2, ih s1 h1]
      constructor
      · rintro ⟨pre, op, post, t, hs, hpre, hst, hpost⟩
        refine ⟨pre, op, post ++ [x], t, by rw [hs]; simp, hpre, hst, ?_⟩
        intro mid op' post' s2 hsplit hrun
        rcases snoc_split hsplit with ⟨rfl, rfl, rfl⟩ | ⟨post'', rfl, hs'⟩
        · rw [← hs, h1] at hrun; injection hrun with hrun; subst hrun
          exact g1
        · exact hpost mid op' post'' s2 hs' hrun
      · rintro ⟨pre, op, post, t, hs, hpre, hst, hpost⟩
        rcases snoc_split hs with ⟨rfl, rfl, rfl⟩ | ⟨post', rfl, hs'⟩
        · rw [h1] at hpre; injection hpre with hpre; subst hpre
          exact absurd ⟨i, hst⟩ g1
        · exact ⟨pre, op, post', t, hs', hpre, hst,
            fun mid o post'' s2 hh hr => hpost mid o (post'' ++ [x]) s2 (by rw [hh]; simp) hr⟩

/-- C28: a call that returns an error leaves the store as it was. -/
theorem C28_failed_parse (inf : Nat) (op : SetOp) (s s' : ParameterSets) (e : H264Err)
    (h : op.run inf s = .ok (some e, s')) : s' = s := by
  rcases setOp_kind inf op with ⟨buf, hk⟩ | ⟨buf, hk⟩ | hk
  · rcases parseSPS_cases buf with ⟨e', hc⟩ | ⟨i, hc⟩ <;> rw [hk, hc] at h
    · injection h with h; injection h with _ h; exact h.symm
    · simp at h
  · rw [hk] at h
    rcases parsePPS_cases inf s buf with ⟨p, hc⟩ | ⟨e', hc⟩ | ⟨i, hc⟩ <;>
      have := (hc s.ppset).symm.trans h
    · cases this
    · injection this with this; injection this with _ this; exact this.symm
    · simp at this
  · rw [hk] at h; simp at h

/-! ## C34 -/

/-- C34: an empty value and a value whose header is neither of type 7 nor of type 8 change nothing; type 7 is parsed as a
sequence and type 8 as a picture parameter set, without the header byte. -/
theorem C34_dispatch (inf : Nat) (s : ParameterSets) (header : UInt8) (payload : Bytes) :
    parseSprop inf s [] = .ok (none, s) ∧
    (header.toNat % 32 = 7 → parseSprop inf s (header :: payload) = parseSPS s payload) ∧
    (header.toNat % 32 = 8 → parseSprop inf s (header :: payload) = parsePPS inf s payload) ∧
    (header.toNat % 32 ≠ 7 → header.toNat % 32 ≠ 8 → parseSprop inf s (header :: payload) = .ok (none, s)) := by
  have key : (header &&& 0x1F).toNat = header.toNat % 32 := by
    rw [UInt8.toNat_and]; exact Nat.and_two_pow_sub_one_eq_mod _ 5
  have h7 : header &&& 0x1F = 7 ↔ header.toNat % 32 = 7 := by
    rw [← key]; exact ⟨fun h => by rw [h]; rfl, fun h => UInt8.toNat_inj.1 h⟩
  have h8 : header &&& 0x1F = 8 ↔ header.toNat % 32 = 8 := by
    rw [← key]; exact ⟨fun h => by rw [h]; rfl, fun h => UInt8.toNat_inj.1 h⟩
  refine ⟨rfl, ?_, ?_, ?_⟩
  · intro h; simp only [parseSprop]; rw [if_pos (h7.2 h)]
  · intro h; simp only [parseSprop]; rw [if_neg (by rw [h7]; omega), if_pos (h8.2 h)]
  · intro h g; simp only [parseSprop]; rw [if_neg (by rw [h7]; exact h), if_neg (by rw [h8]; exact g)]

example : (0x67 : UInt8).toNat % 32 = 7 ∧ (0x68 : UInt8).toNat % 32 = 8 ∧ (0x06 : UInt8).toNat % 32 = 6 := by decide

/-! ## C31 -/

/-- C31: `ParseSPS` returns for every buffer. -/
theorem C31_total (s : ParameterSets) (buf : Bytes) : ∃ e s', parseSPS s buf = .ok (e, s') := by
  rcases parseSPS_cases buf with ⟨e, h⟩ | ⟨i, h⟩
  · exact ⟨_, _, h s⟩
  · exact ⟨_, _, h s⟩

end Ouro
