import Verif.Props.Concurrent
import Mathlib.Data.List.Perm.Subperm
/-! # C56: exactly which schedules keep commands apart -/
namespace Ouro
open Spec

/-- The call has read the counter. -/
def pcLoaded : Pc → Bool
  | .start => false
  | _ => true

/-- The call has returned. -/
def pcDone : Pc → Bool
  | .done _ => true
  | _ => false

/-- No number is, or will be without another call, above `b`. -/
structure Capped (s : Shared) (b : Nat) : Prop where
  cseq : s.cseq ≤ b
  num : ∀ i c, HasNum s i c → c ≤ b
  load : ∀ (i v : Nat), s.calls[i]? = some (.loaded v) → v + 1 ≤ b

/-- What holds for every schedule. -/
structure Tallied (s : Shared) : Prop where
  len : s.wire.length = s.calls.countP pcDone
  wire : ∀ (c i : Nat), (c, i) ∈ s.wire → s.calls[i]? = some (.done c)
  capped : Capped s (s.calls.countP pcLoaded)
  pos : ∀ i c, HasNum s i c → 1 ≤ c
  counted : ∀ (i : Nat), s.calls[i]? = some .counted → 1 ≤ s.cseq

/-- The calls that have read the counter are more than the numbers there will be for them. -/
def Short (s : Shared) : Prop := ∃ b, b < s.calls.countP pcLoaded ∧ Capped s b

/-- A number has been passed over. -/
def Skipped (s : Shared) : Prop :=
  ∃ d, 1 ≤ d ∧ d < s.cseq ∧ (∀ i c, HasNum s i c → c ≠ d) ∧ ∀ (i v : Nat), s.calls[i]? = some (.loaded v) → d ≤ v

theorem countP_step (f : Pc → Bool) {l : List Pc} {i : Nat} {a b : Pc} (h : l[i]? = some a) :
    (l.set i b).countP f + (if f a then 1 else 0) = l.countP f + (if f b then 1 else 0) := by
  induction l generalizing i with
  | nil => cases h
  | cons x t ih =>
    cases i with
    | zero =>
      injection h with h
      subst h
      simp only [List.set_cons_zero, List.countP_cons]
      omega
    | succ i =>
      have := ih (i := i) h
      simp only [List.set_cons_succ, List.countP_cons]
      omega

theorem num_call (s : Shared) (i c : Nat) : HasNum (turn s .call) i c ↔ HasNum s i c := by
  constructor
  · rintro (h | h)
    · exact .inl ((get_snoc h).resolve_right (by simp))
    · exact .inr ((get_snoc h).resolve_right (by simp))
  · rintro (h | h)
    · exact .inl (by show (s.calls ++ [_])[i]? = _; rw [List.getElem?_append_left (by rw [List.getElem?_eq_some_iff] at h; exact h.1)]; exact h)
    · exact .inr (by show (s.calls ++ [_])[i]? = _; rw [List.getElem?_append_left (by rw [List.getElem?_eq_some_iff] at h; exact h.1)]; exact h)

/-- The ways a turn can go. -/
inductive Went (s : Shared) : Turn → Shared → Prop
  | call : Went s .call { s with calls := s.calls ++ [.start] }
  | dequeue (seq) : Went s (.dequeue seq) { s with queue := s.queue.filter fun e => e.1 ≠ seq }
  | stay (i) : Went s (.go i) s
  | load {i} : s.calls[i]? = some .start → Went s (.go i) { s with calls := s.calls.set i (.loaded s.cseq) }
  | write {i v} : s.calls[i]? = some (.loaded v) → Went s (.go i) { s with cseq := v + 1, calls := s.calls.set i .counted }
  | take {i} : s.calls[i]? = some .counted →
      Went s (.go i) { s with calls := s.calls.set i (.queued s.cseq), queue := (s.queue.filter fun e => e.1 ≠ s.cseq) ++ [(s.cseq, i)] }
  | send {i c} : s.calls[i]? = some (.queued c) → Went s (.go i) { s with calls := s.calls.set i (.done c), wire := (c, i) :: s.wire }

theorem went (s : Shared) (t : Turn) : Went s t (turn s t) := by
  cases t with
  | call => exact .call
  | dequeue seq => exact .dequeue seq
  | go i =>
    cases hc : s.calls[i]? with
    | none => rw [show turn s (.go i) = s by simp only [turn, hc]]; exact .stay i
    | some pc =>
      cases pc with
      | start => simp only [turn, hc]; exact .load hc
      | loaded v => simp only [turn, hc]; exact .write hc
      | counted => simp only [turn, hc]; exact .take hc
      | queued c => simp only [turn, hc]; exact .send hc
      | done c => rw [show turn s (.go i) = s by simp only [turn, hc]]; exact .stay i

theorem num_set {s s' : Shared} {i : Nat} {a b : Pc} (hs : s'.calls = s.calls.set i b) (ha : s.calls[i]? = some a) {j c : Nat} (h : HasNum s' j c) :
    (i = j ∧ (b = .queued c ∨ b = .done c)) ∨ (i ≠ j ∧ HasNum s j c) := by
  unfold HasNum at h
  rw [hs] at h
  by_cases e : i = j
  · subst e
    rw [set_get ha] at h
    exact .inl ⟨rfl, h.imp (fun h => by injection h) (fun h => by injection h)⟩
  · rw [List.getElem?_set_ne e] at h
    exact .inr ⟨e, h⟩

theorem load_set {s s' : Shared} {i : Nat} {b : Pc} (hs : s'.calls = s.calls.set i b) {j v : Nat} (h : s'.calls[j]? = some (.loaded v)) :
    (i = j ∧ b = .loaded v) ∨ (i ≠ j ∧ s.calls[j]? = some (.loaded v)) := by
  rw [hs] at h
  exact (get_set h).imp (fun h => ⟨h.1, h.2.symm⟩) id

/-- A cap grows by at most one when a call reads the counter, and otherwise not. -/
theorem capped_turn {s : Shared} {b : Nat} (h : Capped s b) (t : Turn) :
    ∃ b', Capped (turn s t) b' ∧ b' + s.calls.countP pcLoaded = b + (turn s t).calls.countP pcLoaded := by
  have hw := went s t
  generalize turn s t = s' at hw
  cases hw with
  | call =>
    refine ⟨b, ⟨h.cseq, fun i c hn => h.num i c ((num_call s i c).1 hn), fun i v hl => h.load i v ((get_snoc hl).resolve_right (by simp))⟩, ?_⟩
    simp [pcLoaded]
  | dequeue seq => exact ⟨b, ⟨h.cseq, h.num, h.load⟩, rfl⟩
  | stay i => exact ⟨b, h, rfl⟩
  | @load i hi =>
    have hc := countP_step pcLoaded (b := .loaded s.cseq) hi
    refine ⟨b + 1, ⟨Nat.le_succ_of_le h.cseq, fun j c hn => ?_, fun j v hl => ?_⟩, ?_⟩
    · rcases num_set rfl hi hn with ⟨-, e | e⟩ | ⟨-, hn⟩
      · cases e
      · cases e
      · exact Nat.le_succ_of_le (h.num j c hn)
    · rcases load_set rfl hl with ⟨-, e⟩ | ⟨-, hl⟩
      · injection e with e; have := h.cseq; omega
      · exact Nat.le_succ_of_le (h.load j v hl)
    · simp [pcLoaded] at hc
      show b + 1 + _ = b + _
      simp only
      omega
  | @write i v hi =>
    have hc := countP_step pcLoaded (b := .counted) hi
    refine ⟨b, ⟨h.load i v hi, fun j c hn => ?_, fun j v hl => ?_⟩, ?_⟩
    · rcases num_set rfl hi hn with ⟨-, e | e⟩ | ⟨-, hn⟩
      · cases e
      · cases e
      · exact h.num j c hn
    · rcases load_set rfl hl with ⟨-, e⟩ | ⟨-, hl⟩
      · cases e
      · exact h.load j v hl
    · simp [pcLoaded] at hc
      simp only
      omega
  | @take i hi =>
    have hc := countP_step pcLoaded (b := .queued s.cseq) hi
    refine ⟨b, ⟨h.cseq, fun j c hn => ?_, fun j v hl => ?_⟩, ?_⟩
    · rcases num_set rfl hi hn with ⟨-, e | e⟩ | ⟨-, hn⟩
      · injection e with e; have := h.cseq; omega
      · cases e
      · exact h.num j c hn
    · rcases load_set rfl hl with ⟨-, e⟩ | ⟨-, hl⟩
      · cases e
      · exact h.load j v hl
    · simp [pcLoaded] at hc
      simp only
      omega
  | @send i c hi =>
    have hc := countP_step pcLoaded (b := .done c) hi
    refine ⟨b, ⟨h.cseq, fun j c' hn => ?_, fun j v hl => ?_⟩, ?_⟩
    · rcases num_set rfl hi hn with ⟨e1, e | e⟩ | ⟨-, hn⟩
      · cases e
      · injection e with e; subst e; exact h.num i c (.inl hi)
      · exact h.num j c' hn
    · rcases load_set rfl hl with ⟨-, e⟩ | ⟨-, hl⟩
      · cases e
      · exact h.load j v hl
    · simp [pcLoaded] at hc
      simp only
      omega

theorem tallied_turn {s : Shared} (h : Tallied s) (t : Turn) : Tallied (turn s t) := by
  have hcap : Capped (turn s t) ((turn s t).calls.countP pcLoaded) := by
    obtain ⟨b, h1, h2⟩ := capped_turn h.capped t
    obtain rfl : b = (turn s t).calls.countP pcLoaded := by omega
    exact h1
  have hw := went s t
  generalize turn s t = s' at hw hcap
  cases hw with
  | call =>
    refine ⟨by simp [pcDone, h.len], fun c i hi => ?_, hcap, fun i c hn => h.pos i c ((num_call s i c).1 hn), fun i hi => h.counted i ((get_snoc hi).resolve_right (by simp))⟩
    have := h.wire c i hi
    show (s.calls ++ [_])[i]? = _
    rw [List.getElem?_append_left (List.getElem?_eq_some_iff.1 this).1]
    exact this
  | dequeue seq => exact ⟨h.len, h.wire, hcap, h.pos, h.counted⟩
  | stay i => exact h
  | @load i hi =>
    have hc := countP_step pcDone (b := .loaded s.cseq) hi
    simp [pcDone] at hc
    refine ⟨by rw [hc]; exact h.len, fun c j hj => ?_, hcap, fun j c hn => ?_, fun j hj => ?_⟩
    · have h1 := h.wire c j hj
      by_cases e : i = j
      · subst e; rw [hi] at h1; cases h1
      · rw [List.getElem?_set_ne e]; exact h1
    · rcases num_set rfl hi hn with ⟨-, e | e⟩ | ⟨-, hn⟩
      · cases e
      · cases e
      · exact h.pos j c hn
    · rcases get_set hj with ⟨-, e⟩ | ⟨-, hj⟩
      · cases e
      · exact h.counted j hj
  | @write i v hi =>
    have hc := countP_step pcDone (b := .counted) hi
    simp [pcDone] at hc
    refine ⟨by rw [hc]; exact h.len, fun c j hj => ?_, hcap, fun j c hn => ?_, fun j hj => Nat.le_add_left _ _⟩
    · have h1 := h.wire c j hj
      by_cases e : i = j
      · subst e; rw [hi] at h1; cases h1
      · rw [List.getElem?_set_ne e]; exact h1
    · rcases num_set rfl hi hn with ⟨-, e | e⟩ | ⟨-, hn⟩
      · cases e
      · cases e
      · exact h.pos j c hn
  | @take i hi =>
    have hc := countP_step pcDone (b := .queued s.cseq) hi
    simp [pcDone] at hc
    refine ⟨by rw [hc]; exact h.len, fun c j hj => ?_, hcap, fun j c hn => ?_, fun j hj => ?_⟩
    · have h1 := h.wire c j hj
      by_cases e : i = j
      · subst e; rw [hi] at h1; cases h1
      · rw [List.getElem?_set_ne e]; exact h1
    · rcases num_set rfl hi hn with ⟨-, e | e⟩ | ⟨-, hn⟩
      · injection e with e; have := h.counted i hi; omega
      · cases e
      · exact h.pos j c hn
    · rcases get_set hj with ⟨-, e⟩ | ⟨-, hj⟩
      · cases e
      · exact h.counted j hj
  | @send i c0 hi =>
    have hc := countP_step pcDone (b := .done c0) hi
    simp [pcDone] at hc
    refine ⟨by rw [hc, List.length_cons, h.len], fun c j hj => ?_, hcap, fun j c hn => ?_, fun j hj => ?_⟩
    · rcases List.mem_cons.1 hj with e | hj
      · injection e with e1 e2; subst e1 e2; exact set_get hi
      · have h1 := h.wire c j hj
        by_cases e : i = j
        · subst e; rw [hi] at h1; cases h1
        · rw [List.getElem?_set_ne e]; exact h1
    · rcases num_set rfl hi hn with ⟨-, e | e⟩ | ⟨-, hn⟩
      · cases e
      · injection e with e; subst e; exact h.pos i c0 (.inl hi)
      · exact h.pos j c hn
    · rcases get_set hj with ⟨-, e⟩ | ⟨-, hj⟩
      · cases e
      · exact h.counted j hj

theorem tallied (ts : List Turn) : Tallied (turns {} ts) := by
  refine snoc_induct (P := fun ts => Tallied (turns {} ts)) ?_ (fun l t ih => ?_) ts
  · exact ⟨rfl, fun c i h => (by simp [turns] at h), ⟨Nat.le_refl _, fun i c h => (by simp [turns, HasNum] at h), fun i v h => (by simp [turns] at h)⟩,
      fun i c h => (by simp [turns, HasNum] at h), fun i h => (by simp [turns] at h)⟩
  · rw [turns_snoc]; exact tallied_turn ih t

theorem short_turn {s : Shared} (h : Short s) (t : Turn) : Short (turn s t) := by
  obtain ⟨b, h1, h2⟩ := h
  obtain ⟨b', h3, h4⟩ := capped_turn h2 t
  exact ⟨b', by omega, h3⟩

theorem skipped_turn {s : Shared} (h : Skipped s) (t : Turn) : Skipped (turn s t) := by
  obtain ⟨d, h1, h2, h3, h4⟩ := h
  have hw := went s t
  generalize turn s t = s' at hw
  cases hw with
  | call => exact ⟨d, h1, h2, fun i c hn => h3 i c ((num_call s i c).1 hn), fun i v hl => h4 i v ((get_snoc hl).resolve_right (by simp))⟩
  | dequeue seq => exact ⟨d, h1, h2, h3, h4⟩
  | stay i => exact ⟨d, h1, h2, h3, h4⟩
  | @load i hi =>
    refine ⟨d, h1, h2, fun j c hn => ?_, fun j v hl => ?_⟩
    · rcases num_set rfl hi hn with ⟨-, e | e⟩ | ⟨-, hn⟩
      · cases e
      · cases e
      · exact h3 j c hn
    · rcases load_set rfl hl with ⟨-, e⟩ | ⟨-, hl⟩
      · injection e with e; omega
      · exact h4 j v hl
  | @write i v hi =>
    have := h4 i v hi
    refine ⟨d, h1, by show d < v + 1; omega, fun j c hn => ?_, fun j v hl => ?_⟩
    · rcases num_set rfl hi hn with ⟨-, e | e⟩ | ⟨-, hn⟩
      · cases e
      · cases e
      · exact h3 j c hn
    · rcases load_set rfl hl with ⟨-, e⟩ | ⟨-, hl⟩
      · cases e
      · exact h4 j v hl
  | @take i hi =>
    refine ⟨d, h1, h2, fun j c hn => ?_, fun j v hl => ?_⟩
    · rcases num_set rfl hi hn with ⟨-, e | e⟩ | ⟨-, hn⟩
      · injection e with e; omega
      · cases e
      · exact h3 j c hn
    · rcases load_set rfl hl with ⟨-, e⟩ | ⟨-, hl⟩
      · cases e
      · exact h4 j v hl
  | @send i c hi =>
    refine ⟨d, h1, h2, fun j c' hn => ?_, fun j v hl => ?_⟩
    · rcases num_set rfl hi hn with ⟨-, e | e⟩ | ⟨-, hn⟩
      · cases e
      · injection e with e; subst e; exact h3 i c (.inl hi)
      · exact h3 j c' hn
    · rcases load_set rfl hl with ⟨-, e⟩ | ⟨-, hl⟩
      · cases e
      · exact h4 j v hl

/-- The first time two calls are at the same spot, a number is lost. -/
theorem first_overlap {s : Shared} {ts : List Turn} (ha : Apart ts s) (hc : Tallied s)
    (hy : ∀ (i j : Nat) (a b : Pc), s.calls[i]? = some a → s.calls[j]? = some b → SameSpot a b → i = j) (t : Turn) {i j : Nat} {a b : Pc} (hij : i ≠ j)
    (hi : (turn s t).calls[i]? = some a) (hj : (turn s t).calls[j]? = some b) (hab : SameSpot a b) : Short (turn s t) ∨ Skipped (turn s t) := by
  have hsym : SameSpot b a := by cases a <;> cases b <;> first | trivial | cases hab
  have hna : a ≠ .start := by rintro rfl; cases b <;> cases hab
  have hnb : b ≠ .start := by rintro rfl; cases a <;> cases hab
  have hw := went s t
  generalize turn s t = s' at hw hi hj
  -- the call that moved is one of the two
  have key : ∀ (k : Nat) (pc : Pc), s'.calls = s.calls.set k pc → ∃ m x, k ≠ m ∧ s.calls[m]? = some x ∧ SameSpot pc x := by
    intro k pc e
    rw [e] at hi hj
    rcases get_set hi with ⟨e1, e2⟩ | ⟨e1, hi'⟩ <;> rcases get_set hj with ⟨e3, e4⟩ | ⟨e3, hj'⟩
    · exact absurd (e1.symm.trans e3) hij
    · subst e2; exact ⟨j, b, e3, hj', hab⟩
    · subst e4; exact ⟨i, a, e1, hi', hsym⟩
    · exact absurd (hy i j a b hi' hj' hab) hij
  cases hw with
  | call => exact absurd (hy i j a b ((get_snoc hi).resolve_right hna) ((get_snoc hj).resolve_right hnb) hab) hij
  | dequeue seq => exact absurd (hy i j a b hi hj hab) hij
  | stay k => exact absurd (hy i j a b hi hj hab) hij
  | @load k hk =>
    obtain ⟨m, x, hm, hx, hs⟩ := key k _ rfl
    cases x with
    | loaded v =>
      left
      have hv := ha.load m v hx
      have hcnt := countP_step pcLoaded (b := .loaded s.cseq) hk
      simp [pcLoaded] at hcnt
      refine ⟨s.calls.countP pcLoaded, ?_, hc.capped.cseq, fun j c hn => ?_, fun j u hl => ?_⟩
      · show _ < (s.calls.set k _).countP pcLoaded
        omega
      · rcases num_set rfl hk hn with ⟨-, e | e⟩ | ⟨-, hn⟩
        · cases e
        · cases e
        · exact hc.capped.num j c hn
      · rcases load_set rfl hl with ⟨-, e⟩ | ⟨-, hl⟩
        · injection e with e
          have := hc.capped.load m v hx
          omega
        · exact hc.capped.load j u hl
    | start => cases hs
    | counted => cases hs
    | queued c => cases hs
    | done c => cases hs
  | @write k v hk =>
    obtain ⟨m, x, hm, hx, hs⟩ := key k _ rfl
    cases x with
    | counted =>
      right
      obtain ⟨f1, f2⟩ := ha.fresh m hx
      have hv := ha.load k v hk
      refine ⟨s.cseq, f1, by show s.cseq < v + 1; omega, fun j c hn => ?_, fun j u hl => ?_⟩
      · rcases num_set rfl hk hn with ⟨-, e | e⟩ | ⟨-, hn⟩
        · cases e
        · cases e
        · have := f2 j c hn; omega
      · rcases load_set rfl hl with ⟨-, e⟩ | ⟨-, hl⟩
        · cases e
        · have := ha.load j u hl; omega
    | start => cases hs
    | loaded u => cases hs
    | queued c => cases hs
    | done c => cases hs
  | @take k hk => obtain ⟨m, x, hm, hx, hs⟩ := key k _ rfl; cases x <;> cases hs
  | @send k c hk => obtain ⟨m, x, hm, hx, hs⟩ := key k _ rfl; cases x <;> cases hs

theorem spread_or_lost (ts : List Turn) : Spread ts ∨ Short (turns {} ts) ∨ Skipped (turns {} ts) := by
  refine snoc_induct (P := fun ts => Spread ts ∨ Short (turns {} ts) ∨ Skipped (turns {} ts)) ?_ (fun l t ih => ?_) ts
  · left
    intro p hp i j a b h1
    rw [List.prefix_nil] at hp
    subst hp
    simp [turns] at h1
  · rw [turns_snoc]
    rcases ih with h | h | h
    · by_cases hs : Spread (l ++ [t])
      · exact .inl hs
      · right
        unfold Spread at hs
        simp only [Classical.not_forall] at hs
        obtain ⟨p, hp, i, j, a, b, h1, h2, h3, h4⟩ := hs
        have hpl : p = l ++ [t] := by
          rcases List.prefix_concat_iff.1 hp with e | e
          · exact e
          · exact absurd (h p e i j a b h1 h2 h3) h4
        subst hpl
        rw [turns_snoc] at h1 h2
        exact first_overlap (apart l h) (tallied l) (h l (List.prefix_refl l)) t h4 h1 h2 h3
    · exact .inr (.inl (short_turn h t))
    · exact .inr (.inr (skipped_turn h t))

/-- **C56**, exact law. For every schedule at the end of which all calls have returned: the requests have different numbers and stay
matched to their responses exactly if no two calls were ever both between reading the counter and writing it, or both between writing it
and taking their number. -/
theorem C56_iff (ts : List Turn) (hd : AllDone ts) : Matched ts ↔ Spread ts := by
  constructor
  · rintro ⟨hn, -⟩
    have hc := tallied ts
    generalize hs : turns {} ts = s at hc hn
    have hall : ∀ f : Pc → Bool, (∀ c, f (.done c) = true) → s.calls.countP f = s.calls.length := by
      intro f hf
      rw [List.countP_eq_length]
      intro a ha
      obtain ⟨c, rfl⟩ := hd a (by rw [hs]; exact ha)
      exact hf c
    have hlen : (s.wire.map Prod.fst).length = s.calls.length := by
      rw [List.length_map, hc.len, hall pcDone fun _ => rfl]
    have hnum : ∀ c ∈ s.wire.map Prod.fst, ∃ i, HasNum s i c := by
      intro c h
      obtain ⟨⟨c', i⟩, h1, rfl⟩ := List.mem_map.1 h
      exact ⟨i, .inr (hc.wire c' i h1)⟩
    rcases spread_or_lost ts with h | h | h
    · exact h
    · rw [hs] at h
      obtain ⟨b, h1, h2⟩ := h
      rw [hall pcLoaded fun _ => rfl] at h1
      have hsub : s.wire.map Prod.fst ⊆ List.range' 1 b := by
        intro c h
        obtain ⟨i, hi⟩ := hnum c h
        have h3 := h2.num i c hi
        have h4 := hc.pos i c hi
        rw [List.mem_range'_1]
        omega
      have := (hn.subperm hsub).length_le
      rw [hlen, List.length_range'] at this
      omega
    · rw [hs] at h
      obtain ⟨d, h1, h2, h3, h4⟩ := h
      have hcap := hc.capped
      rw [hall pcLoaded fun _ => rfl] at hcap
      have hsub : d :: s.wire.map Prod.fst ⊆ List.range' 1 s.calls.length := by
        intro c h
        rw [List.mem_range'_1]
        rcases List.mem_cons.1 h with rfl | h
        · have := hcap.cseq
          omega
        · obtain ⟨i, hi⟩ := hnum c h
          have h5 := hcap.num i c hi
          have h6 := hc.pos i c hi
          omega
      have hnd : (d :: s.wire.map Prod.fst).Nodup := by
        rw [List.nodup_cons]
        refine ⟨fun h => ?_, hn⟩
        obtain ⟨i, hi⟩ := hnum d h
        exact h3 i d hi rfl
      have := (hnd.subperm hsub).length_le
      rw [List.length_cons, hlen, List.length_range'] at this
      omega
  · intro h
    have hi := apart ts h
    refine ⟨hi.nodup, fun c i hw => ?_⟩
    have hn : HasNum (turns {} ts) i c := .inr ((hi.wire c i).1 hw)
    exact ⟨hi.there i c hn, fun j hj => hi.inj j i c (hi.kept c j hj) hn⟩

/-- Two calls that overlap and still are kept apart: the second reads the counter before the first has taken its number. -/
example : AllDone [.call, .call, .go 0, .go 0, .go 1, .go 0, .go 1, .go 1, .go 0, .go 1] ∧
    (turns {} [.call, .call, .go 0, .go 0, .go 1, .go 0, .go 1, .go 1, .go 0, .go 1]).wire = [(2, 1), (1, 0)] := by
  refine ⟨?_, by decide⟩
  intro a ha
  rw [show (turns {} [.call, .call, .go 0, .go 0, .go 1, .go 0, .go 1, .go 1, .go 0, .go 1]).calls = [.done 1, .done 2] by decide] at ha
  rcases List.mem_cons.1 ha with rfl | ha
  · exact ⟨_, rfl⟩
  · rw [List.mem_singleton.1 ha]; exact ⟨_, rfl⟩

end Ouro
