import Verif.Spec.SetExchange
import Verif.Props.SetOrder
import Mathlib.Data.List.Perm.Basic
/-! # C138: exactly when parameter sets may be given in any order -/
namespace Ouro
open Spec

def updS (f : Nat → Option SPSInfo) (i : SPSInfo) : Nat → Option SPSInfo := fun id => if id = i.spsID then some i else f id

def updP (f : Nat → Option PPSInfo) : Option PPSInfo → Nat → Option PPSInfo
  | none => f
  | some i => fun id => if id = i.ppsID then some i else f id

def actN (x : Go (Option H264Err × Option PPSInfo)) (s : ParameterSets) : Go (Option H264Err × ParameterSets) :=
  match x with
  | .error p => .error p
  | .ok (e, i) => .ok (e, ⟨s.spset, updP s.ppset i⟩)

/-- A call stores a sequence set, whatever the store is, or it does something that depends on at most one sequence set. -/
inductive OpKind (inf : Nat) (op : SetOp) : Prop
  | seq (i : SPSInfo) (h : ∀ s, op.run inf s = .ok (none, ⟨updS s.spset i, s.ppset⟩))
  | other (o : (Nat → Option SPSInfo) → Go (Option H264Err × Option PPSInfo)) (K : Option Nat)
      (loc : ∀ f g, (∀ k, K = some k → f k = g k) → o f = o g)
      (ids : ∀ f g e x y, o f = .ok (e, x) → o g = .ok (e, y) → x.map (·.ppsID) = y.map (·.ppsID))
      (h : ∀ s, op.run inf s = actN (o s.spset) s)

theorem bind_inv {α β} {m : BR α} {k : α → BR β} {r r' : BitReader} {v : β} (h : (m >>= k) r = .ok (.ok v, r')) :
    ∃ a r1, m r = .ok (.ok a, r1) ∧ k a r1 = .ok (.ok v, r') := by
  simp only [bind, BR.andThen] at h
  cases hm : m r with
  | error p => rw [hm] at h; cases h
  | ok x =>
    obtain ⟨x, r1⟩ := x
    rw [hm] at h
    cases x with
    | error e => cases h
    | ok a => exact ⟨a, r1, rfl, h⟩

/-- The identifier of a picture set does not depend on the sequence sets. -/
theorem ppsBits_id (inf : Nat) (f g : Nat → Option SPSInfo) (buf : Bytes) (i j : PPSInfo) (r r' : BitReader)
    (h1 : parsePpsBits inf f (newBitReader buf) = .ok (.ok i, r)) (h2 : parsePpsBits inf g (newBitReader buf) = .ok (.ok j, r')) : i.ppsID = j.ppsID := by
  have key : ∀ (f : Nat → Option SPSInfo) (i : PPSInfo) (r : BitReader), parsePpsBits inf f (newBitReader buf) = .ok (.ok i, r) →
      ∃ r1, readUnsignedGolomb (newBitReader buf) = .ok (.ok i.ppsID, r1) := by
    intro f i r h
    unfold parsePpsBits at h
    obtain ⟨a, r1, e, h⟩ := bind_inv h
    refine ⟨r1, e.trans ?_⟩
    iterate 15 (obtain ⟨_, _, _, h⟩ := bind_inv h)
    obtain ⟨_, _, _, h⟩ := bind_inv h
    injection h with h; injection h with h _; injection h with h; subst h; rfl
  obtain ⟨_, e1⟩ := key f i r h1
  obtain ⟨_, e2⟩ := key g j r' h2
  rw [e1] at e2
  injection e2 with e2; injection e2 with e2 _; injection e2

def ppsOut (inf : Nat) (buf : Bytes) (f : Nat → Option SPSInfo) : Go (Option H264Err × Option PPSInfo) :=
  match parsePpsBits inf f (newBitReader buf) with
  | .error p => .error p
  | .ok (.error e, _) => .ok (some e, none)
  | .ok (.ok i, _) => .ok (none, some i)

theorem opKind (inf : Nat) (op : SetOp) : OpKind inf op := by
  have idle : ∀ e : Option H264Err, (∀ s, op.run inf s = .ok (e, s)) → OpKind inf op := fun e h =>
    .other (fun _ => .ok (e, none)) none (fun _ _ _ => rfl) (fun _ _ _ _ _ h1 h2 => by
      injection h1 with h1; injection h1 with _ h1; injection h2 with h2; injection h2 with _ h2; rw [← h1, ← h2]) fun s => h s
  rcases op_kind inf op with ⟨-, buf, hk⟩ | ⟨buf, -, hk⟩ | ⟨-, hk⟩
  · rcases parseSPS_cases buf with ⟨e, hc⟩ | ⟨i, hc⟩
    · exact idle (some e) fun s => (hk s).trans (hc s)
    · exact .seq i fun s => (hk s).trans (hc s)
  · refine .other (ppsOut inf buf) (namedSps buf) (fun f g h => ?_) (fun f g e x y h1 h2 => ?_) fun s => ?_
    · unfold ppsOut; rw [ppsBits_agree inf f g buf h]
    · unfold ppsOut at h1 h2
      cases e1 : parsePpsBits inf f (newBitReader buf) with
      | error p => rw [e1] at h1; cases h1
      | ok a =>
        obtain ⟨a, ra⟩ := a
        cases e2 : parsePpsBits inf g (newBitReader buf) with
        | error p => rw [e2] at h2; cases h2
        | ok b =>
          obtain ⟨b, rb⟩ := b
          rw [e1] at h1; rw [e2] at h2
          cases a with
          | error ea =>
            cases b with
            | error eb =>
              injection h1 with h1; injection h1 with _ h1; injection h2 with h2; injection h2 with _ h2; rw [← h1, ← h2]
            | ok j => injection h1 with h1; injection h1 with h1 _; injection h2 with h2; injection h2 with h2 _; rw [← h2] at h1; cases h1
          | ok i =>
            cases b with
            | error eb => injection h1 with h1; injection h1 with h1 _; injection h2 with h2; injection h2 with h2 _; rw [← h2] at h1; cases h1
            | ok j =>
              injection h1 with h1; injection h1 with _ h1; injection h2 with h2; injection h2 with _ h2; rw [← h1, ← h2]
              show some i.ppsID = some j.ppsID
              rw [ppsBits_id inf f g buf i j ra rb e1 e2]
    · rw [hk]
      unfold parsePPS ppsOut
      cases parsePpsBits inf s.spset (newBitReader buf) with
      | error p => rfl
      | ok a =>
        obtain ⟨a, ra⟩ := a
        cases a <;> rfl
  · exact idle none hk

theorem updS_comm {f : Nat → Option SPSInfo} {i j : SPSInfo} (h : updS (updS f i) j = updS (updS f j) i) (g : Nat → Option SPSInfo) :
    updS (updS g i) j = updS (updS g j) i := by
  by_cases e : i.spsID = j.spsID
  · have := congrFun h i.spsID
    simp only [updS, e, if_true, Option.some.injEq] at this
    rw [this]
  · funext id
    simp only [updS]
    by_cases h1 : id = j.spsID
    · rw [if_pos h1, if_neg (by rw [h1]; exact fun h => e h.symm), if_pos h1]
    · rw [if_neg h1, if_neg h1]

theorem updP_comm {f : Nat → Option PPSInfo} {x y : Option PPSInfo} (h : updP (updP f x) y = updP (updP f y) x) (g : Nat → Option PPSInfo) :
    updP (updP g x) y = updP (updP g y) x := by
  cases x with
  | none => cases y <;> rfl
  | some i =>
    cases y with
    | none => rfl
    | some j =>
      by_cases e : i.ppsID = j.ppsID
      · have := congrFun h i.ppsID
        simp only [updP, e, if_true, Option.some.injEq] at this
        rw [this]
      · funext id
        simp only [updP]
        by_cases h1 : id = j.ppsID
        · rw [if_pos h1, if_neg (by rw [h1]; exact fun h => e h.symm), if_pos h1]
        · rw [if_neg h1, if_neg h1]

theorem setResults_append (inf : Nat) (a b : List SetOp) : ∀ st, setResults inf (a ++ b) st =
    (setResults inf a st).bind fun x => (setResults inf b x.2).map fun y => (x.1 ++ y.1, y.2) := by
  induction a with
  | nil =>
    intro st
    show setResults inf b st = (setResults inf b st).map fun y => ([] ++ y.1, y.2)
    cases setResults inf b st <;> rfl
  | cons op a ih =>
    intro st
    rw [List.cons_append, setResults, setResults]
    cases op.run inf st with
    | error p => rfl
    | ok x =>
      obtain ⟨e, s⟩ := x
      dsimp only
      rw [ih]
      cases setResults inf a s with
      | error p => rfl
      | ok y =>
        obtain ⟨r, t⟩ := y
        cases hb : setResults inf b t <;> simp only [Except.bind, Except.map, hb, List.cons_append]

/-- Calls in two parts that end well, end well in each part. -/
theorem setResults_parts {inf : Nat} {a b : List SetOp} {st s : ParameterSets} {r : List (SetOp × Option H264Err)} (h : setResults inf (a ++ b) st = .ok (r, s)) :
    ∃ r1 s1 r2, setResults inf a st = .ok (r1, s1) ∧ setResults inf b s1 = .ok (r2, s) ∧ r = r1 ++ r2 := by
  rw [setResults_append] at h
  cases ha : setResults inf a st with
  | error p => rw [ha] at h; cases h
  | ok x =>
    obtain ⟨r1, s1⟩ := x
    rw [ha] at h
    change (setResults inf b s1).map _ = _ at h
    cases hb : setResults inf b s1 with
    | error p => rw [hb] at h; cases h
    | ok y =>
      obtain ⟨r2, s2⟩ := y
      rw [hb] at h
      injection h with h; injection h with h1 h2
      dsimp only at h1 h2
      subst h2
      exact ⟨r1, s1, r2, rfl, hb, h1.symm⟩

theorem setResults_cons {inf : Nat} {a : SetOp} {b : List SetOp} {st s : ParameterSets} {r : List (SetOp × Option H264Err)} (h : setResults inf (a :: b) st = .ok (r, s)) :
    ∃ e s1 r2, a.run inf st = .ok (e, s1) ∧ setResults inf b s1 = .ok (r2, s) ∧ r = (a, e) :: r2 := by
  rw [setResults] at h
  cases ha : a.run inf st with
  | error p => rw [ha] at h; cases h
  | ok x =>
    obtain ⟨e, s1⟩ := x
    rw [ha] at h
    dsimp only at h
    cases hb : setResults inf b s1 with
    | error p => rw [hb] at h; cases h
    | ok y =>
      obtain ⟨r2, s2⟩ := y
      rw [hb] at h
      injection h with h; injection h with h1 h2
      subst h2
      exact ⟨e, s1, r2, rfl, hb, h1.symm⟩

theorem setResults_cons_ok {inf : Nat} {a : SetOp} {b : List SetOp} {st s1 s : ParameterSets} {e : Option H264Err} {r : List (SetOp × Option H264Err)}
    (h1 : a.run inf st = .ok (e, s1)) (h2 : setResults inf b s1 = .ok (r, s)) : setResults inf (a :: b) st = .ok ((a, e) :: r, s) := by
  rw [setResults, h1]
  dsimp only
  rw [h2]

/-- The call stores a sequence set. -/
def IsSeq (inf : Nat) (op : SetOp) : Prop := ∃ i, ∀ s, op.run inf s = .ok (none, ⟨updS s.spset i, s.ppset⟩)

theorem others_run {inf : Nat} : ∀ {ops : List SetOp} {st s : ParameterSets} {r : List (SetOp × Option H264Err)}, (∀ o ∈ ops, ¬ IsSeq inf o) →
    setResults inf ops st = .ok (r, s) → s.spset = st.spset := by
  intro ops
  induction ops with
  | nil => intro st s r _ h; injection h with h; injection h with _ h; rw [h]
  | cons op ops ih =>
    intro st s r hn h
    obtain ⟨e, s1, r2, h1, h2, -⟩ := setResults_cons h
    rw [ih (fun o ho => hn o (List.mem_cons_of_mem _ ho)) h2]
    cases opKind inf op with
    | seq i hk => exact absurd ⟨i, hk⟩ (hn op (List.mem_cons_self ..))
    | other o K loc ids hk =>
      rw [hk] at h1
      unfold actN at h1
      cases ho : o st.spset with
      | error p => rw [ho] at h1; cases h1
      | ok x => rw [ho] at h1; injection h1 with h1; injection h1 with _ h1; rw [← h1]

theorem seqs_run {inf : Nat} : ∀ {ops : List SetOp} {st s : ParameterSets} {r : List (SetOp × Option H264Err)}, (∀ o ∈ ops, IsSeq inf o) →
    setResults inf ops st = .ok (r, s) → s.ppset = st.ppset ∧ r = ops.map fun o => (o, none) := by
  intro ops
  induction ops with
  | nil => intro st s r _ h; injection h with h; injection h with h' h; exact ⟨by rw [h], h'.symm⟩
  | cons op ops ih =>
    intro st s r hn h
    obtain ⟨e, s1, r2, h1, h2, e3⟩ := setResults_cons h
    obtain ⟨g1, g2⟩ := ih (fun o ho => hn o (List.mem_cons_of_mem _ ho)) h2
    obtain ⟨i, hk⟩ := hn op (List.mem_cons_self ..)
    rw [hk] at h1
    injection h1 with h1; injection h1 with h1 h1'
    refine ⟨by rw [g1, ← h1'], by rw [e3, g2, ← h1]; rfl⟩

theorem exchange_symm {inf : Nat} {st : ParameterSets} {a b : SetOp} (h : SetExchange inf st a b) : SetExchange inf st b a := by
  obtain ⟨ea, eb, s, h1, h2⟩ := h
  exact ⟨eb, ea, s, h2, h1⟩

theorem any_two {inf : Nat} {st : ParameterSets} {ops x y : List SetOp} (h : AnySetOrder inf st ops) (hx : x.Perm ops) (hy : y.Perm ops) :
    ∃ r r' s, setResults inf x st = .ok (r, s) ∧ setResults inf y st = .ok (r', s) ∧ r'.Perm r := by
  obtain ⟨r1, r1', s1, e1, e2, p1⟩ := h x hx
  obtain ⟨r2, r2', s2, e3, e4, p2⟩ := h y hy
  rw [e1] at e3
  injection e3 with e3; injection e3 with e3 e5; subst e3; subst e5
  exact ⟨_, _, _, e2, e4, p2.trans p1.symm⟩

theorem exchange_of_any {inf : Nat} {st : ParameterSets} {ops : List SetOp} (h : AnySetOrder inf st ops) {a b : SetOp} {r : List SetOp}
    (hp : (a :: b :: r).Perm ops) : SetExchange inf st a b := by
  classical
  -- the others first, then the two, then the sequence sets
  have shape : ∀ x y : SetOp, (x :: y :: r).Perm ops → (r.filter (fun o => decide (¬ IsSeq inf o)) ++ (x :: y :: r.filter fun o => decide (IsSeq inf o))).Perm ops := by
    intro x y hxy
    refine List.Perm.trans ?_ hxy
    have h1 : (r.filter (fun o => decide (IsSeq inf o)) ++ r.filter (fun o => !decide (IsSeq inf o))).Perm r := List.filter_append_perm _ r
    have h2 : (r.filter fun o => decide (¬ IsSeq inf o)) = r.filter fun o => !decide (IsSeq inf o) := by
      congr 1; funext o; rw [decide_not]
    rw [h2]
    refine List.perm_append_comm.trans ?_
    exact List.Perm.cons _ (List.Perm.cons _ h1)
  have nseq : ∀ o ∈ r.filter (fun o => decide (¬ IsSeq inf o)), ¬ IsSeq inf o := fun o ho => of_decide_eq_true (List.mem_filter.1 ho).2
  have yseq : ∀ o ∈ r.filter (fun o => decide (IsSeq inf o)), IsSeq inf o := fun o ho => of_decide_eq_true (List.mem_filter.1 ho).2
  revert shape nseq yseq
  generalize r.filter (fun o => decide (¬ IsSeq inf o)) = rp
  generalize r.filter (fun o => decide (IsSeq inf o)) = rs
  intro shape nseq yseq
  have hp' : (b :: a :: r).Perm ops := (List.Perm.swap a b r).trans hp
  -- one of each
  have mixed : ∀ x y : SetOp, (x :: y :: r).Perm ops → (y :: x :: r).Perm ops → IsSeq inf x → ∀ (o : (Nat → Option SPSInfo) → Go (Option H264Err × Option PPSInfo)),
      (∀ f g e x y, o f = .ok (e, x) → o g = .ok (e, y) → x.map (·.ppsID) = y.map (·.ppsID)) → (∀ s, y.run inf s = actN (o s.spset) s) → SetExchange inf st x y := by
    intro x y hxy hyx ⟨i, hi⟩ o ids hk
    obtain ⟨q, q', s, e1, e2, pq⟩ := any_two h (shape x y hxy) (shape y x hyx)
    obtain ⟨r1, s1, r2, a1, a2, a3⟩ := setResults_parts e1
    obtain ⟨r1', s1', r2', b1, b2, b3⟩ := setResults_parts e2
    rw [a1] at b1
    injection b1 with b1; injection b1 with b1 b1'; subst b1; subst b1'
    have hs1 := others_run nseq a1
    obtain ⟨e, t, r3, c1, c2, c3⟩ := setResults_cons a2
    obtain ⟨e', t', r4, d1, d2, d3⟩ := setResults_cons c2
    obtain ⟨f, u, r5, g1, g2, g3⟩ := setResults_cons b2
    obtain ⟨f', u', r6, k1, k2, k3⟩ := setResults_cons g2
    rw [hi] at c1 k1
    injection c1 with c1; injection c1 with c1 c1'; subst c1; subst c1'
    injection k1 with k1; injection k1 with k1 k1'; subst k1; subst k1'
    rw [hk] at d1 g1
    dsimp only at d1
    rw [hs1] at d1 g1
    unfold actN at d1 g1
    cases hY : o (updS st.spset i) with
    | error p => rw [hY] at d1; cases d1
    | ok z =>
      obtain ⟨ey, zy⟩ := z
      cases hX : o st.spset with
      | error p => rw [hX] at g1; cases g1
      | ok z =>
        obtain ⟨ex, zx⟩ := z
        rw [hY] at d1; rw [hX] at g1
        injection d1 with d1; injection d1 with d1 d1'
        injection g1 with g1; injection g1 with g1 g1'
        subst d1; subst g1
        obtain ⟨m1, m2⟩ := seqs_run yseq d2
        obtain ⟨m3, m4⟩ := seqs_run yseq k2
        -- the errors
        have he : ey = ex := by
          rw [a3, b3, List.perm_append_left_iff, c3, d3, g3, k3, m2, m4] at pq
          have := (List.perm_cons _).1 ((List.Perm.swap _ _ _).trans pq)
          have := (List.perm_append_right_iff (l₁ := [(y, ex)]) (l₂ := [(y, ey)]) (rs.map fun o => (o, none))).1 this
          have := List.singleton_perm_singleton.1 this
          injection this with _ this; exact this.symm
        subst he
        -- the sets
        have hz : updP s1.ppset zy = updP s1.ppset zx := by
          have v1 : s.ppset = updP s1.ppset zy := by rw [m1, ← d1']
          have v2 : s.ppset = updP s1.ppset zx := by rw [m3, ← g1']
          rw [← v1, v2]
        have hid := ids _ _ _ _ _ hY hX
        have hzz : zy = zx := by
          cases zy with
          | none => cases zx with
            | none => rfl
            | some j => cases hid
          | some j => cases zx with
            | none => cases hid
            | some k =>
              simp only [Option.map_some, Option.some.injEq] at hid
              have := congrFun hz j.ppsID
              simpa only [updP, hid, if_true] using this
        subst hzz
        refine ⟨none, ey, ⟨updS st.spset i, updP st.ppset zy⟩, setResults_cons_ok (hi st) (setResults_cons_ok (s1 := ⟨updS st.spset i, updP st.ppset zy⟩) ?_ rfl),
          setResults_cons_ok (s1 := ⟨st.spset, updP st.ppset zy⟩) ?_ (setResults_cons_ok (hi _) rfl)⟩
        · rw [hk]; show actN (o (updS st.spset i)) _ = _; rw [hY]; rfl
        · rw [hk, hX]; rfl
  cases opKind inf a with
  | seq i hi =>
    cases opKind inf b with
    | seq j hj =>
      obtain ⟨q, q', s, e1, e2, -⟩ := any_two h (List.perm_append_comm.trans hp : (r ++ [a, b]).Perm ops) (List.perm_append_comm.trans hp' : (r ++ [b, a]).Perm ops)
      obtain ⟨r1, s1, r2, a1, a2, -⟩ := setResults_parts e1
      obtain ⟨r1', s1', r2', b1, b2, -⟩ := setResults_parts e2
      rw [a1] at b1
      injection b1 with b1; injection b1 with _ b1'; subst b1'
      rw [setResults_cons_ok (hi s1) (setResults_cons_ok (hj _) rfl)] at a2
      rw [setResults_cons_ok (hj s1) (setResults_cons_ok (hi _) rfl)] at b2
      injection a2 with a2; injection a2 with _ a2
      injection b2 with b2; injection b2 with _ b2
      have : updS (updS s1.spset i) j = updS (updS s1.spset j) i := by
        have v1 := congrArg ParameterSets.spset a2
        have v2 := congrArg ParameterSets.spset b2
        exact v1.trans v2.symm
      refine ⟨none, none, _, setResults_cons_ok (hi st) (setResults_cons_ok (hj _) rfl), ?_⟩
      rw [setResults_cons_ok (hj st) (setResults_cons_ok (hi _) rfl)]
      dsimp only
      rw [updS_comm this]
    | other o K loc ids hk => exact mixed a b hp hp' ⟨i, hi⟩ o ids hk
  | other o K loc ids hk =>
    cases opKind inf b with
    | seq j hj => exact exchange_symm (mixed b a hp' hp ⟨j, hj⟩ o ids hk)
    | other o' K' loc' ids' hk' =>
      obtain ⟨q, q', s, e1, e2, -⟩ := any_two h (shape a b hp) (shape b a hp')
      obtain ⟨r1, s1, r2, a1, a2, -⟩ := setResults_parts e1
      obtain ⟨r1', s1', r2', b1, b2, -⟩ := setResults_parts e2
      rw [a1] at b1
      injection b1 with b1; injection b1 with b1 b1'; subst b1; subst b1'
      have hs1 := others_run nseq a1
      obtain ⟨e, t, r3, c1, c2, c3⟩ := setResults_cons a2
      obtain ⟨e', t', r4, d1, d2, d3⟩ := setResults_cons c2
      obtain ⟨f, u, r5, g1, g2, g3⟩ := setResults_cons b2
      obtain ⟨f', u', r6, k1, k2, k3⟩ := setResults_cons g2
      rw [hk, hs1] at c1
      unfold actN at c1
      cases hA : o st.spset with
      | error p => rw [hA] at c1; cases c1
      | ok z =>
        obtain ⟨ea, xa⟩ := z
        rw [hA] at c1
        injection c1 with c1; injection c1 with _ c1; subst c1
        rw [hk', hs1] at g1
        unfold actN at g1
        cases hB : o' st.spset with
        | error p => rw [hB] at g1; cases g1
        | ok z =>
          obtain ⟨eb, xb⟩ := z
          rw [hB] at g1
          injection g1 with g1; injection g1 with _ g1; subst g1
          rw [hk'] at d1
          rw [hk] at k1
          dsimp only at d1 k1
          rw [hs1, hB] at d1
          rw [hs1, hA] at k1
          injection d1 with d1; injection d1 with _ d1; subst d1
          injection k1 with k1; injection k1 with _ k1; subst k1
          have m1 := (seqs_run yseq d2).1
          have m2 := (seqs_run yseq k2).1
          have hc : updP (updP s1.ppset xa) xb = updP (updP s1.ppset xb) xa := by
            rw [m1] at m2; exact m2
          refine ⟨ea, eb, ⟨st.spset, updP (updP st.ppset xa) xb⟩, setResults_cons_ok (s1 := ⟨st.spset, updP st.ppset xa⟩) ?_ (setResults_cons_ok (s1 := ⟨st.spset, updP (updP st.ppset xa) xb⟩) ?_ rfl),
            setResults_cons_ok (s1 := ⟨st.spset, updP st.ppset xb⟩) ?_ (setResults_cons_ok (s1 := ⟨st.spset, updP (updP st.ppset xa) xb⟩) ?_ rfl)⟩
          · rw [hk, hA]; rfl
          · rw [hk']; show actN (o' st.spset) _ = _; rw [hB]; rfl
          · rw [hk', hB]; rfl
          · rw [hk]; show actN (o st.spset) _ = _; rw [hA, updP_comm hc]; rfl

/-- Two outcomes with the same error and the same effect are the same. -/
theorem same_out {o : (Nat → Option SPSInfo) → Go (Option H264Err × Option PPSInfo)}
    (ids : ∀ f g e x y, o f = .ok (e, x) → o g = .ok (e, y) → x.map (·.ppsID) = y.map (·.ppsID)) {f g : Nat → Option SPSInfo} {e : Option H264Err} {x y : Option PPSInfo}
    (h1 : o f = .ok (e, x)) (h2 : o g = .ok (e, y)) {pp : Nat → Option PPSInfo} (h : updP pp x = updP pp y) : x = y := by
  have hid := ids _ _ _ _ _ h1 h2
  cases x with
  | none => cases y with
    | none => rfl
    | some j => cases hid
  | some j => cases y with
    | none => cases hid
    | some k =>
      simp only [Option.map_some, Option.some.injEq] at hid
      have := congrFun h j.ppsID
      simpa only [updP, hid, if_true] using this

theorem actN_ok {x : Go (Option H264Err × Option PPSInfo)} {s t : ParameterSets} {e : Option H264Err} (h : actN x s = .ok (e, t)) :
    ∃ i, x = .ok (e, i) ∧ t = ⟨s.spset, updP s.ppset i⟩ := by
  unfold actN at h
  cases x with
  | error p => cases h
  | ok z =>
    obtain ⟨e', i⟩ := z
    injection h with h; injection h with h1 h2
    exact ⟨i, by rw [h1], h2.symm⟩

/-- If a sequence set and another call may be exchanged, the call does the same before and after. -/
theorem exchange_out {inf : Nat} {st : ParameterSets} {a b : SetOp} {i : SPSInfo} (hi : ∀ s, a.run inf s = .ok (none, ⟨updS s.spset i, s.ppset⟩))
    {o : (Nat → Option SPSInfo) → Go (Option H264Err × Option PPSInfo)}
    (ids : ∀ f g e x y, o f = .ok (e, x) → o g = .ok (e, y) → x.map (·.ppsID) = y.map (·.ppsID)) (hk : ∀ s, b.run inf s = actN (o s.spset) s)
    (h : SetExchange inf st a b) : o (updS st.spset i) = o st.spset := by
  obtain ⟨ea, eb, s, h1, h2⟩ := h
  obtain ⟨e1, s1, r1, a1, a2, a3⟩ := setResults_cons h1
  obtain ⟨e2, s2, r2, b1, b2, b3⟩ := setResults_cons a2
  injection b2 with b2; injection b2 with b2 b2'; subst b2; subst b2'
  obtain ⟨e3, s3, r3, c1, c2, c3⟩ := setResults_cons h2
  obtain ⟨e4, s4, r4, d1, d2, d3⟩ := setResults_cons c2
  injection d2 with d2; injection d2 with d2 d2'; subst d2; subst d2'
  rw [hi] at a1 d1
  injection a1 with a1; injection a1 with _ a1; subst a1
  injection d1 with d1; injection d1 with _ d1
  rw [hk] at b1 c1
  obtain ⟨x, x1, x2⟩ := actN_ok b1
  obtain ⟨y, y1, y2⟩ := actN_ok c1
  have ee : e2 = e3 := by
    rw [b3] at a3; rw [d3] at c3
    injection a3 with _ a3; injection a3 with a3 _; injection a3 with _ a3
    injection c3 with c3 _; injection c3 with _ c3
    exact a3.symm.trans c3
  subst ee
  dsimp only at x1
  have hp : updP st.ppset x = updP st.ppset y := by
    rw [x2, y2] at d1
    have := congrArg ParameterSets.ppset d1
    exact this.symm
  rw [x1, y1, same_out ids x1 y1 hp]

/-- The sequence sets are those of the beginning, apart from some that have been stored. -/
def Seen (inf : Nat) (st : ParameterSets) (ops : List SetOp) (f : Nat → Option SPSInfo) : Prop :=
  ∀ k, f k = st.spset k ∨ ∃ a ∈ ops, ∃ i : SPSInfo, (∀ s, a.run inf s = .ok (none, ⟨updS s.spset i, s.ppset⟩)) ∧ i.spsID = k ∧ f k = some i

theorem seen_upd {inf : Nat} {st : ParameterSets} {ops : List SetOp} {f : Nat → Option SPSInfo} (h : Seen inf st ops f) {a : SetOp} (ha : a ∈ ops) {i : SPSInfo}
    (hi : ∀ s, a.run inf s = .ok (none, ⟨updS s.spset i, s.ppset⟩)) : Seen inf st ops (updS f i) := by
  intro k
  by_cases hk : k = i.spsID
  · exact .inr ⟨a, ha, i, hi, hk.symm, if_pos hk⟩
  · rcases h k with h | ⟨b, hb, j, hj, e, h⟩
    · exact .inl (by rw [← h]; exact if_neg hk)
    · exact .inr ⟨b, hb, j, hj, e, by rw [← h]; exact if_neg hk⟩

/-- Two different calls of the list are a pair of it. -/
theorem pair_of_mem {ops : List SetOp} {a b : SetOp} (ha : a ∈ ops) (hb : b ∈ ops) (hn : a ≠ b) : ∃ r, (a :: b :: r).Perm ops := by
  classical
  have h2 : b ∈ ops.erase a := (List.mem_erase_of_ne (Ne.symm hn)).2 hb
  exact ⟨_, ((List.perm_cons_erase h2).symm.cons a).trans (List.perm_cons_erase ha).symm⟩

theorem seq_not_other {inf : Nat} {a : SetOp} {i : SPSInfo} (hi : ∀ s, a.run inf s = .ok (none, ⟨updS s.spset i, s.ppset⟩))
    {o : (Nat → Option SPSInfo) → Go (Option H264Err × Option PPSInfo)} (hk : ∀ s, a.run inf s = actN (o s.spset) s) : False := by
  have h := hk newParameterSets
  rw [hi] at h
  obtain ⟨x, _, x2⟩ := actN_ok h.symm
  have := congrFun (congrArg ParameterSets.spset x2) i.spsID
  simp only [updS, if_true, newParameterSets] at this
  cases this

theorem seen_out {inf : Nat} {st : ParameterSets} {ops : List SetOp} (hx : ∀ a b r, (a :: b :: r).Perm ops → SetExchange inf st a b) {f : Nat → Option SPSInfo}
    (h : Seen inf st ops f) {b : SetOp} (hb : b ∈ ops) {o : (Nat → Option SPSInfo) → Go (Option H264Err × Option PPSInfo)} {K : Option Nat}
    (loc : ∀ f g, (∀ k, K = some k → f k = g k) → o f = o g)
    (ids : ∀ f g e x y, o f = .ok (e, x) → o g = .ok (e, y) → x.map (·.ppsID) = y.map (·.ppsID)) (hk : ∀ s, b.run inf s = actN (o s.spset) s) :
    o f = o st.spset := by
  cases K with
  | none => exact loc _ _ fun k hk => by (cases hk)
  | some k =>
    rcases h k with h | ⟨a, ha, i, hi, e, h⟩
    · exact loc _ _ fun k' hk' => by injection hk' with hk'; rw [← hk', h]
    · have hne : a ≠ b := by rintro rfl; exact seq_not_other hi hk
      obtain ⟨r, hr⟩ := pair_of_mem ha hb hne
      rw [← exchange_out hi ids hk (hx _ _ _ hr)]
      exact loc _ _ fun k' hk' => by
        injection hk' with hk'
        rw [← hk', h, updS, if_pos e.symm]

theorem out_ok {inf : Nat} {st : ParameterSets} {ops : List SetOp} (hr : ∃ r s, setResults inf ops st = .ok (r, s))
    (hx : ∀ a b r, (a :: b :: r).Perm ops → SetExchange inf st a b) {b : SetOp} (hb : b ∈ ops)
    {o : (Nat → Option SPSInfo) → Go (Option H264Err × Option PPSInfo)} (hk : ∀ s, b.run inf s = actN (o s.spset) s) : ∃ e x, o st.spset = .ok (e, x) := by
  have run : ∃ e t, b.run inf st = .ok (e, t) := by
    classical
    have hp := List.perm_cons_erase hb
    cases he : ops.erase b with
    | nil =>
      rw [he, List.perm_singleton] at hp
      rw [hp] at hr
      obtain ⟨r, s, hr⟩ := hr
      obtain ⟨e, t, _, h, _, _⟩ := setResults_cons hr
      exact ⟨e, t, h⟩
    | cons c r =>
      rw [he] at hp
      obtain ⟨_, _, _, h1, _⟩ := hx b c r hp.symm
      obtain ⟨e, t, _, h, _, _⟩ := setResults_cons h1
      exact ⟨e, t, h⟩
  obtain ⟨e, t, h⟩ := run
  rw [hk] at h
  obtain ⟨x, hx, _⟩ := actN_ok h
  exact ⟨e, x, hx⟩

theorem any_of_exchange {inf : Nat} {st : ParameterSets} {ops : List SetOp} (hr : ∃ r s, setResults inf ops st = .ok (r, s))
    (hx : ∀ a b r, (a :: b :: r).Perm ops → SetExchange inf st a b) {x y : List SetOp} (hxy : x.Perm y) :
    ∀ c, (c ++ x).Perm ops → ∀ s, Seen inf st ops s.spset → ∃ r r' t, setResults inf x s = .ok (r, t) ∧ setResults inf y s = .ok (r', t) ∧ r'.Perm r := by
  induction hxy with
  | nil => intro c _ s _; exact ⟨[], [], s, rfl, rfl, .refl _⟩
  | @cons a l1 l2 _ ih =>
    intro c hc s hs
    have ha : a ∈ ops := hc.mem_iff.1 (List.mem_append_right _ (List.mem_cons_self ..))
    have run : ∃ e s1, a.run inf s = .ok (e, s1) ∧ Seen inf st ops s1.spset := by
      cases opKind inf a with
      | seq i hi => exact ⟨_, _, hi s, seen_upd hs ha hi⟩
      | other o K loc ids hk =>
        obtain ⟨e, z, hz⟩ := out_ok hr hx ha hk
        exact ⟨e, ⟨s.spset, updP s.ppset z⟩, by rw [hk, seen_out hx hs ha loc ids hk, hz]; rfl, hs⟩
    obtain ⟨e, s1, h1, h2⟩ := run
    obtain ⟨r, r', t, h3, h4, h5⟩ := ih (c ++ [a]) (by rw [List.append_assoc]; exact hc) s1 h2
    exact ⟨_, _, t, setResults_cons_ok h1 h3, setResults_cons_ok h1 h4, h5.cons _⟩
  | swap a b l =>
    intro c hc s hs
    have hb : b ∈ ops := hc.mem_iff.1 (List.mem_append_right _ (List.mem_cons_self ..))
    have ha : a ∈ ops := hc.mem_iff.1 (List.mem_append_right _ (List.mem_cons_of_mem _ (List.mem_cons_self ..)))
    have hp : (b :: a :: (c ++ l)).Perm ops := by
      refine List.Perm.trans ?_ hc
      exact (List.perm_append_comm_assoc [b, a] c l)
    have hex := hx _ _ _ hp
    -- both orders lead to one state
    have two : ∃ ea eb s1 s2 t, b.run inf s = .ok (eb, s1) ∧ a.run inf s1 = .ok (ea, t) ∧ a.run inf s = .ok (ea, s2) ∧ b.run inf s2 = .ok (eb, t) ∧ Seen inf st ops t.spset := by
      cases opKind inf a with
      | seq i hi =>
        cases opKind inf b with
        | seq j hj =>
          obtain ⟨_, _, s', h1, h2⟩ := hex
          rw [setResults_cons_ok (hj st) (setResults_cons_ok (hi _) rfl)] at h1
          rw [setResults_cons_ok (hi st) (setResults_cons_ok (hj _) rfl)] at h2
          injection h1 with h1; injection h1 with _ h1
          injection h2 with h2; injection h2 with _ h2
          have hc' : updS (updS st.spset j) i = updS (updS st.spset i) j :=
            (congrArg ParameterSets.spset h1).trans (congrArg ParameterSets.spset h2).symm
          refine ⟨_, _, _, _, _, hj s, hi _, hi s, ?_, seen_upd (seen_upd hs hb hj) ha hi⟩
          rw [hj]
          dsimp only
          rw [updS_comm hc']
        | other o K loc ids hk =>
          obtain ⟨e, z, hz⟩ := out_ok hr hx hb hk
          refine ⟨none, e, ⟨s.spset, updP s.ppset z⟩, _, ⟨updS s.spset i, updP s.ppset z⟩, ?_, hi _, hi s, ?_, seen_upd hs ha hi⟩
          · rw [hk, seen_out hx hs hb loc ids hk, hz]; rfl
          · rw [hk, seen_out hx (seen_upd hs ha hi) hb loc ids hk, hz]; rfl
      | other o K loc ids hk =>
        obtain ⟨e, z, hz⟩ := out_ok hr hx ha hk
        cases opKind inf b with
        | seq j hj =>
          refine ⟨e, none, _, ⟨s.spset, updP s.ppset z⟩, ⟨updS s.spset j, updP s.ppset z⟩, hj s, ?_, ?_, hj _, seen_upd hs hb hj⟩
          · rw [hk, seen_out hx (seen_upd hs hb hj) ha loc ids hk, hz]; rfl
          · rw [hk, seen_out hx hs ha loc ids hk, hz]; rfl
        | other o' K' loc' ids' hk' =>
          obtain ⟨e', z', hz'⟩ := out_ok hr hx hb hk'
          have ho := seen_out hx hs ha loc ids hk
          have ho' := seen_out hx hs hb loc' ids' hk'
          have hcm : updP (updP st.ppset z') z = updP (updP st.ppset z) z' := by
            obtain ⟨_, _, s', h1, h2⟩ := hex
            rw [setResults_cons_ok (s1 := ⟨st.spset, updP st.ppset z'⟩) (e := e') (by rw [hk', hz']; rfl)
              (setResults_cons_ok (s1 := ⟨st.spset, updP (updP st.ppset z') z⟩) (e := e) (by rw [hk]; show actN (o st.spset) _ = _; rw [hz]; rfl) rfl)] at h1
            rw [setResults_cons_ok (s1 := ⟨st.spset, updP st.ppset z⟩) (e := e) (by rw [hk, hz]; rfl)
              (setResults_cons_ok (s1 := ⟨st.spset, updP (updP st.ppset z) z'⟩) (e := e') (by rw [hk']; show actN (o' st.spset) _ = _; rw [hz']; rfl) rfl)] at h2
            injection h1 with h1; injection h1 with _ h1
            injection h2 with h2; injection h2 with _ h2
            exact (congrArg ParameterSets.ppset h1).trans (congrArg ParameterSets.ppset h2).symm
          refine ⟨e, e', ⟨s.spset, updP s.ppset z'⟩, ⟨s.spset, updP s.ppset z⟩, ⟨s.spset, updP (updP s.ppset z') z⟩, ?_, ?_, ?_, ?_, hs⟩
          · rw [hk', ho', hz']; rfl
          · rw [hk]; show actN (o s.spset) _ = _; rw [ho, hz]; rfl
          · rw [hk, ho, hz]; rfl
          · rw [hk']; show actN (o' s.spset) _ = _; rw [ho', hz', updP_comm hcm]; rfl
    obtain ⟨ea, eb, s1, s2, t, h1, h2, h3, h4, h5⟩ := two
    have rest : ∃ r u, setResults inf l t = .ok (r, u) := by
      have all : ∀ (l : List SetOp) (t : ParameterSets), (∀ o ∈ l, o ∈ ops) → Seen inf st ops t.spset → ∃ r u, setResults inf l t = .ok (r, u) := by
        intro l
        induction l with
        | nil => intro t _ _; exact ⟨[], t, rfl⟩
        | cons d l ih =>
          intro t hm ht
          have hd := hm d (List.mem_cons_self ..)
          have run : ∃ e s1, d.run inf t = .ok (e, s1) ∧ Seen inf st ops s1.spset := by
            cases opKind inf d with
            | seq i hi => exact ⟨_, _, hi t, seen_upd ht hd hi⟩
            | other o K loc ids hk =>
              obtain ⟨e, z, hz⟩ := out_ok hr hx hd hk
              exact ⟨e, ⟨t.spset, updP t.ppset z⟩, by rw [hk, seen_out hx ht hd loc ids hk, hz]; rfl, ht⟩
          obtain ⟨e, s1, g1, g2⟩ := run
          obtain ⟨r, u, g3⟩ := ih s1 (fun o ho => hm o (List.mem_cons_of_mem _ ho)) g2
          exact ⟨_, u, setResults_cons_ok g1 g3⟩
      exact all l t (fun o ho => hc.mem_iff.1 (List.mem_append_right _ (List.mem_cons_of_mem _ (List.mem_cons_of_mem _ ho)))) h5
    obtain ⟨r, u, h6⟩ := rest
    exact ⟨_, _, u, setResults_cons_ok h1 (setResults_cons_ok h2 h6), setResults_cons_ok h3 (setResults_cons_ok h4 h6), .swap _ _ _⟩
  | @trans l1 l2 l3 h12 h23 ih1 ih2 =>
    intro c hc s hs
    obtain ⟨r, r', t, a1, a2, a3⟩ := ih1 c hc s hs
    obtain ⟨q, q', u, b1, b2, b3⟩ := ih2 c ((h12.symm.append_left c).trans hc) s hs
    rw [a2] at b1
    injection b1 with b1; injection b1 with b1 b1'; subst b1; subst b1'
    exact ⟨r, q', t, a1, b2, b3.trans a3⟩

/-- **C138, exactly.** Calls of which none panics may be made in any order, from a store on, exactly if any two of them may be exchanged where they are the only ones. -/
theorem C138_iff (inf : Nat) (st : ParameterSets) (ops : List SetOp) (hr : ∃ r s, setResults inf ops st = .ok (r, s)) :
    AnySetOrder inf st ops ↔ ∀ a b rest, (a :: b :: rest).Perm ops → SetExchange inf st a b := by
  constructor
  · intro h a b r hp; exact exchange_of_any h hp
  · intro hx ops' hp
    obtain ⟨r, r', s, h1, h2, h3⟩ := any_of_exchange hr hx hp [] hp st fun k => .inl rfl
    exact ⟨r', r, s, h2, h1, h3.symm⟩

/-- The sets of the refutation may not be exchanged. -/
theorem C138_exchange_refuted : (∃ r s, setResults 0 [setHigh, setMatrix] newParameterSets = .ok (r, s)) ∧ ¬ SetExchange 0 newParameterSets setHigh setMatrix ∧
    ¬ AnySetOrder 0 newParameterSets [setHigh, setMatrix] := by
  have hr : ∃ r s, setResults 0 [setHigh, setMatrix] newParameterSets = .ok (r, s) := by
    cases h : setResults 0 [setHigh, setMatrix] newParameterSets with
    | error p => have := C138_refuted.1; rw [h] at this; cases this
    | ok x => exact ⟨x.1, x.2, rfl⟩
  have hn : ¬ SetExchange 0 newParameterSets setHigh setMatrix := by
    rintro ⟨ea, eb, s, h1, h2⟩
    have e1 := C138_refuted.1
    have e2 := C138_refuted.2
    rw [h1] at e1; rw [h2] at e2
    simp only [Except.toOption, Option.map_some, List.map_cons, List.map_nil, Option.some.injEq, Prod.mk.injEq, List.cons.injEq] at e1 e2
    rw [e1.1.2.1] at e2
    exact absurd e2.1.1 (by simp)
  exact ⟨hr, hn, fun h => hn ((C138_iff _ _ _ hr).1 h _ _ [] (.refl _))⟩

/-- A call that stores a sequence set under a free identifier is one that stores it always. -/
theorem seq_of_new {inf : Nat} {op : SetOp} {id : Nat} (h : ((op.run inf newParameterSets).toOption.map fun x => (x.2.getSPS id).isSome) = some true) :
    ∃ i : SPSInfo, i.spsID = id ∧ ∀ s, op.run inf s = .ok (none, ⟨updS s.spset i, s.ppset⟩) := by
  cases opKind inf op with
  | seq i hi =>
    refine ⟨i, ?_, hi⟩
    rw [hi] at h
    by_cases e : i.spsID = id
    · exact e
    · simp only [Except.toOption, Option.map_some, ParameterSets.getSPS, updS, newParameterSets, if_neg (fun h => e h.symm : ¬ id = i.spsID)] at h
      cases h
  | other o K loc ids hk =>
    rw [hk] at h
    cases ho : o newParameterSets.spset with
    | error p => rw [ho] at h; cases h
    | ok z => rw [ho] at h; cases h

-- two sequence sets with different identifiers may be exchanged, and the hypothesis of `C138_iff` holds of them
example : (∃ r s, setResults 0 [setHigh, setLow] newParameterSets = .ok (r, s)) ∧ SetExchange 0 newParameterSets setHigh setLow := by
  obtain ⟨i, ei, hi⟩ := seq_of_new (inf := 0) (op := setHigh) (id := 1) (by decide +kernel)
  obtain ⟨j, ej, hj⟩ := seq_of_new (inf := 0) (op := setLow) (id := 0) (by decide +kernel)
  refine ⟨⟨_, _, setResults_cons_ok (hi _) (setResults_cons_ok (hj _) rfl)⟩, none, none, _, setResults_cons_ok (hi _) (setResults_cons_ok (hj _) rfl), ?_⟩
  rw [setResults_cons_ok (hj _) (setResults_cons_ok (hi _) rfl)]
  have : updS (updS newParameterSets.spset i) j = updS (updS newParameterSets.spset j) i := by
    funext id
    simp only [updS, ei, ej]
    by_cases h : id = 0
    · subst h; rfl
    · rw [if_neg h, if_neg h]
  dsimp only
  rw [this]

end Ouro
