import Verif.Spec.Concurrent
/-! # C56: commands from several goroutines -/
namespace Ouro
open Spec

theorem snoc_induct {α : Type} {P : List α → Prop} (h0 : P []) (hs : ∀ l a, P l → P (l ++ [a])) (l : List α) : P l := by
  rw [← l.reverse_reverse]
  induction l.reverse with
  | nil => exact h0
  | cons a t ih => rw [List.reverse_cons]; exact hs _ _ ih

/-- The call has its number. -/
def HasNum (s : Shared) (i c : Nat) : Prop := s.calls[i]? = some (.queued c) ∨ s.calls[i]? = some (.done c)

structure Apart (ts : List Turn) (s : Shared) : Prop where
  range : ∀ i c, HasNum s i c → 1 ≤ c ∧ c ≤ s.cseq
  inj : ∀ i j c, HasNum s i c → HasNum s j c → i = j
  fresh : ∀ i : Nat, s.calls[i]? = some .counted → 1 ≤ s.cseq ∧ ∀ j c, HasNum s j c → c < s.cseq
  load : ∀ (i v : Nat), s.calls[i]? = some (.loaded v) → v = s.cseq
  kept : ∀ c i, (c, i) ∈ s.queue → HasNum s i c
  there : ∀ i c, HasNum s i c → (c, i) ∈ s.queue ∨ Taken ts c i
  wire : ∀ (c i : Nat), (c, i) ∈ s.wire ↔ s.calls[i]? = some (.done c)
  nodup : (s.wire.map Prod.fst).Nodup

theorem taken_snoc {ts : List Turn} {c i : Nat} (t : Turn) (h : Taken ts c i) : Taken (ts ++ [t]) c i := by
  obtain ⟨p, q, rfl, h⟩ := h
  exact ⟨p, q ++ [t], by simp, h⟩

theorem get_snoc {l : List Pc} {a b : Pc} {i : Nat} (h : (l ++ [a])[i]? = some b) : l[i]? = some b ∨ b = a := by
  rw [List.getElem?_append] at h
  split at h
  · exact .inl h
  · right
    cases hk : i - l.length with
    | zero => rw [hk] at h; simpa using h.symm
    | succ k => rw [hk] at h; simp at h

theorem get_set {l : List Pc} {a b : Pc} {i j : Nat} (h : (l.set i a)[j]? = some b) : (i = j ∧ b = a) ∨ (i ≠ j ∧ l[j]? = some b) := by
  by_cases e : i = j
  · subst e
    rw [List.getElem?_set_self'] at h
    left
    cases hl : l[i]? with
    | none => rw [hl] at h; cases h
    | some x => rw [hl] at h; injection h with h; exact ⟨rfl, h.symm⟩
  · rw [List.getElem?_set_ne e] at h
    exact .inr ⟨e, h⟩

theorem set_get {l : List Pc} {a b : Pc} {i : Nat} (h : l[i]? = some b) : (l.set i a)[i]? = some a := by
  rw [List.getElem?_set_self', h]; rfl

theorem turns_snoc (ts : List Turn) (t : Turn) : turns {} (ts ++ [t]) = turn (turns {} ts) t := by
  unfold turns; rw [List.foldl_append]; rfl

theorem apart (ts : List Turn) : Spread ts → Apart ts (turns {} ts) := by
  refine snoc_induct (P := fun ts => Spread ts → Apart ts (turns {} ts)) ?_ ?_ ts
  · intro _
    refine ⟨?_, ?_, ?_, ?_, ?_, ?_, ?_, List.nodup_nil⟩ <;> simp [turns, HasNum]
  · intro ts t ih hx
    have ih := ih fun p hp => hx p (hp.trans (List.prefix_append _ _))
    have hy : ∀ (i j : Nat) (a b : Pc), (turns {} ts).calls[i]? = some a → (turns {} ts).calls[j]? = some b → SameSpot a b → i = j :=
      hx ts (List.prefix_append _ _)
    rw [turns_snoc]
    generalize hs : turns {} ts = s at ih hy
    obtain ⟨range, inj, fresh, load, kept, there, wire, nodup⟩ := ih
    cases t with
    | call =>
      have num : ∀ i c, HasNum (turn s .call) i c ↔ HasNum s i c := by
        intro i c
        constructor
        · rintro (h | h)
          · exact .inl ((get_snoc h).resolve_right (by simp))
          · exact .inr ((get_snoc h).resolve_right (by simp))
        · rintro (h | h)
          · exact .inl (by show (s.calls ++ [_])[i]? = _; rw [List.getElem?_append_left (by rw [List.getElem?_eq_some_iff] at h; exact h.1)]; exact h)
          · exact .inr (by show (s.calls ++ [_])[i]? = _; rw [List.getElem?_append_left (by rw [List.getElem?_eq_some_iff] at h; exact h.1)]; exact h)
      refine ⟨?_, ?_, ?_, ?_, ?_, ?_, ?_, nodup⟩
      · intro i c h; exact range i c ((num i c).1 h)
      · intro i j c h1 h2; exact inj i j c ((num i c).1 h1) ((num j c).1 h2)
      · intro i h
        obtain ⟨h1, h2⟩ := fresh i ((get_snoc h).resolve_right (by simp))
        exact ⟨h1, fun j c hj => h2 j c ((num j c).1 hj)⟩
      · intro i v h; exact load i v ((get_snoc h).resolve_right (by simp))
      · intro c i h; exact (num i c).2 (kept c i h)
      · intro i c h; exact (there i c ((num i c).1 h)).imp id (taken_snoc _)
      · intro c i
        show (c, i) ∈ s.wire ↔ _
        rw [wire]
        constructor
        · intro h
          show (s.calls ++ [_])[i]? = _; rw [List.getElem?_append_left (by rw [List.getElem?_eq_some_iff] at h; exact h.1)]; exact h
        · intro h; exact (get_snoc h).resolve_right (by simp)
    | dequeue seq =>
      refine ⟨range, inj, fresh, load, ?_, ?_, wire, nodup⟩
      · intro c i h; exact kept c i (List.mem_filter.1 h).1
      · intro i c h
        rcases there i c h with h3 | h3
        · by_cases e : c = seq
          · subst e; exact .inr ⟨ts, [], rfl, by rw [hs]; exact h3⟩
          · exact .inl (List.mem_filter.2 ⟨h3, by simpa using e⟩)
        · exact .inr (taken_snoc _ h3)
    | go i =>
      cases hc : s.calls[i]? with
      | none => rw [show turn s (.go i) = s by simp only [turn, hc]]; exact ⟨range, inj, fresh, load, kept, fun i c h => (there i c h).imp id (taken_snoc _), wire, nodup⟩
      | some pc =>
        cases pc with
        | start =>
          rw [show turn s (.go i) = { s with calls := s.calls.set i (.loaded s.cseq) } by simp only [turn, hc]]
          have num : ∀ j c, HasNum { s with calls := s.calls.set i (.loaded s.cseq) } j c ↔ HasNum s j c := by
            intro j c
            by_cases e : i = j
            · subst e; simp [HasNum, set_get hc, hc]
            · simp [HasNum, List.getElem?_set_ne e]
          refine ⟨?_, ?_, ?_, ?_, ?_, ?_, ?_, nodup⟩
          · intro j c h; exact range j c ((num j c).1 h)
          · intro j k c h1 h2; exact inj j k c ((num j c).1 h1) ((num k c).1 h2)
          · intro j h
            rcases get_set h with ⟨_, h⟩ | ⟨_, h⟩
            · cases h
            · exact ⟨(fresh j h).1, fun k c hk => (fresh j h).2 k c ((num k c).1 hk)⟩
          · intro j v h
            rcases get_set h with ⟨_, h⟩ | ⟨_, h⟩
            · injection h
            · exact load j v h
          · intro c j h; exact (num j c).2 (kept c j h)
          · intro j c h; exact (there j c ((num j c).1 h)).imp id (taken_snoc _)
          · intro c j
            show (c, j) ∈ s.wire ↔ (s.calls.set i _)[j]? = _
            rw [wire]
            by_cases e : i = j
            · subst e; rw [set_get hc, hc]; simp
            · rw [List.getElem?_set_ne e]
        | loaded v =>
          rw [show turn s (.go i) = { s with cseq := v + 1, calls := s.calls.set i .counted } by simp only [turn, hc]]
          have hv := load i v hc
          have num : ∀ j c, HasNum { s with cseq := v + 1, calls := s.calls.set i .counted } j c ↔ HasNum s j c := by
            intro j c
            by_cases e : i = j
            · subst e; simp [HasNum, set_get hc, hc]
            · simp [HasNum, List.getElem?_set_ne e]
          refine ⟨?_, ?_, ?_, ?_, ?_, ?_, ?_, nodup⟩
          · intro j c h
            have := range j c ((num j c).1 h)
            exact ⟨this.1, by show c ≤ v + 1; omega⟩
          · intro j k c h1 h2; exact inj j k c ((num j c).1 h1) ((num k c).1 h2)
          · intro j h
            refine ⟨Nat.le_add_left _ _, fun k c hk => ?_⟩
            have := range k c ((num k c).1 hk)
            show c < v + 1
            omega
          · intro j u h
            rcases get_set h with ⟨_, h⟩ | ⟨e, h⟩
            · cases h
            · exact absurd (hy i j _ _ hc h trivial) e
          · intro c j h; exact (num j c).2 (kept c j h)
          · intro j c h; exact (there j c ((num j c).1 h)).imp id (taken_snoc _)
          · intro c j
            show (c, j) ∈ s.wire ↔ (s.calls.set i _)[j]? = _
            rw [wire]
            by_cases e : i = j
            · subst e; rw [set_get hc, hc]; simp
            · rw [List.getElem?_set_ne e]
        | counted =>
          obtain ⟨f1, f2⟩ := fresh i hc
          rw [show turn s (.go i) = { s with calls := s.calls.set i (.queued s.cseq), queue := (s.queue.filter fun e => e.1 ≠ s.cseq) ++ [(s.cseq, i)] } by simp only [turn, hc]]
          generalize hs' : ({ s with calls := s.calls.set i (.queued s.cseq), queue := (s.queue.filter fun e => e.1 ≠ s.cseq) ++ [(s.cseq, i)] } : Shared) = s'
          have ec : s'.calls = s.calls.set i (.queued s.cseq) := by rw [← hs']
          have eq : s'.queue = (s.queue.filter fun e => e.1 ≠ s.cseq) ++ [(s.cseq, i)] := by rw [← hs']
          have ee : s'.cseq = s.cseq := by rw [← hs']
          have ew : s'.wire = s.wire := by rw [← hs']
          have num : ∀ j c, HasNum s' j c ↔ (i = j ∧ c = s.cseq) ∨ HasNum s j c := by
            intro j c
            by_cases e : i = j
            · subst e; simp [HasNum, ec, set_get hc, hc, eq_comm]
            · simp [HasNum, ec, List.getElem?_set_ne e, e]
          refine ⟨?_, ?_, ?_, ?_, ?_, ?_, ?_, by rw [ew]; exact nodup⟩
          · intro j c h
            rw [ee]
            rcases (num j c).1 h with ⟨_, rfl⟩ | h
            · exact ⟨f1, Nat.le_refl _⟩
            · exact range j c h
          · intro j k c h1 h2
            rcases (num j c).1 h1 with ⟨e1, e2⟩ | h1 <;> rcases (num k c).1 h2 with ⟨e3, e4⟩ | h2
            · rw [← e1, ← e3]
            · have := f2 k c h2; omega
            · have := f2 j c h1; omega
            · exact inj j k c h1 h2
          · intro j h
            rw [ec] at h
            rcases get_set h with ⟨_, h⟩ | ⟨e, h⟩
            · cases h
            · exact absurd (hy i j _ _ hc h trivial) e
          · intro j u h
            rw [ec] at h
            rw [ee]
            rcases get_set h with ⟨_, h⟩ | ⟨e, h⟩
            · cases h
            · exact load j u h
          · intro c j h
            rw [eq] at h
            rcases List.mem_append.1 h with h | h
            · exact (num j c).2 (.inr (kept c j (List.mem_filter.1 h).1))
            · rw [List.mem_singleton] at h
              injection h with h1 h2
              exact (num j c).2 (.inl ⟨h2.symm, h1⟩)
          · intro j c h
            rw [eq]
            rcases (num j c).1 h with ⟨e1, e2⟩ | h
            · subst e1 e2; exact .inl (by simp)
            · rcases there j c h with h3 | h3
              · have := f2 j c h
                exact .inl (List.mem_append_left _ (List.mem_filter.2 ⟨h3, by simp; omega⟩))
              · exact .inr (taken_snoc _ h3)
          · intro c j
            rw [ew, wire, ec]
            by_cases e : i = j
            · subst e; rw [set_get hc, hc]; simp
            · rw [List.getElem?_set_ne e]
        | queued c0 =>
          rw [show turn s (.go i) = { s with calls := s.calls.set i (.done c0), wire := (c0, i) :: s.wire } by simp only [turn, hc]]
          generalize hs' : ({ s with calls := s.calls.set i (.done c0), wire := (c0, i) :: s.wire } : Shared) = s'
          have ec : s'.calls = s.calls.set i (.done c0) := by rw [← hs']
          have eq : s'.queue = s.queue := by rw [← hs']
          have ee : s'.cseq = s.cseq := by rw [← hs']
          have ew : s'.wire = (c0, i) :: s.wire := by rw [← hs']
          have num : ∀ j c, HasNum s' j c ↔ HasNum s j c := by
            intro j c
            by_cases e : i = j
            · subst e; simp [HasNum, ec, set_get hc, hc]
            · simp [HasNum, ec, List.getElem?_set_ne e]
          refine ⟨?_, ?_, ?_, ?_, ?_, ?_, ?_, ?_⟩
          · intro j c h; rw [ee]; exact range j c ((num j c).1 h)
          · intro j k c h1 h2; exact inj j k c ((num j c).1 h1) ((num k c).1 h2)
          · intro j h
            rw [ec] at h
            rw [ee]
            rcases get_set h with ⟨_, h⟩ | ⟨_, h⟩
            · cases h
            · exact ⟨(fresh j h).1, fun k c hk => (fresh j h).2 k c ((num k c).1 hk)⟩
          · intro j v h
            rw [ec] at h
            rw [ee]
            rcases get_set h with ⟨_, h⟩ | ⟨_, h⟩
            · cases h
            · exact load j v h
          · intro c j h; rw [eq] at h; exact (num j c).2 (kept c j h)
          · intro j c h; rw [eq]; exact (there j c ((num j c).1 h)).imp id (taken_snoc _)
          · intro c j
            rw [ew, ec, List.mem_cons, wire]
            by_cases e : i = j
            · subst e
              rw [set_get hc, hc]
              simp [eq_comm]
            · rw [List.getElem?_set_ne e]
              simp [Ne.symm e]
          · rw [ew, List.map_cons, List.nodup_cons]
            refine ⟨fun h => ?_, nodup⟩
            obtain ⟨⟨c, j⟩, h1, h2⟩ := List.mem_map.1 h
            have h2 : c = c0 := h2
            subst h2
            have h3 := (wire c j).1 h1
            have := inj i j c (.inl hc) (.inr h3)
            subst this
            rw [hc] at h3
            cases h3
        | done c => rw [show turn s (.go i) = s by simp only [turn, hc]]; exact ⟨range, inj, fresh, load, kept, fun i c h => (there i c h).imp id (taken_snoc _), wire, nodup⟩

/-- C56, what holds: when no two calls overlap between reading the counter and queueing the request, all requests on the wire have different
numbers, each request stays in the queue until a response with its number takes it, and such a response can only find that request. Missing for the
full claim: schedules where they do overlap, see `C56_refuted`. -/
theorem C56_exclusive_partial (ts : List Turn) (h : Exclusive ts) :
    ((turns {} ts).wire.map Prod.fst).Nodup ∧
    ∀ c i, (c, i) ∈ (turns {} ts).wire → ((c, i) ∈ (turns {} ts).queue ∨ Taken ts c i) ∧ ∀ j, (c, j) ∈ (turns {} ts).queue → j = i := by
  have hi := apart ts fun p hp i j a b h1 h2 h3 => h p hp i j a b h1 h2 (by cases a <;> cases b <;> first | trivial | cases h3) (by cases a <;> cases b <;> first | trivial | cases h3)
  refine ⟨hi.nodup, fun c i hw => ?_⟩
  have hn : HasNum (turns {} ts) i c := .inr ((hi.wire c i).1 hw)
  exact ⟨hi.there i c hn, fun j hj => hi.inj j i c (hi.kept c j hj) hn⟩

/-- Exclusive so far, and only call `n` can be inside. -/
structure Only (n k : Nat) (p : List Turn) : Prop where
  ex : Exclusive p
  len : (turns {} p).calls.length = n + (if k = 0 then 0 else 1)
  mid : ∀ (i : Nat) (a : Pc), (turns {} p).calls[i]? = some a → Mid a → i = n

theorem Only.exclusive {n k n' k' : Nat} {p : List Turn} {t : Turn} (h : Only n k p) (hl : (turns {} (p ++ [t])).calls.length = n' + (if k' = 0 then 0 else 1))
    (hm : ∀ (i : Nat) (a : Pc), (turns {} (p ++ [t])).calls[i]? = some a → Mid a → i = n') : Only n' k' (p ++ [t]) := by
  refine ⟨fun q hq => ?_, hl, hm⟩
  rcases List.prefix_concat_iff.1 (by simpa using hq) with rfl | hq
  · intro i j a b h1 h2 h3 h4
    rw [hm i a h1 h3, hm j b h2 h4]
  · exact h.ex q hq

theorem turn_go_length (s : Shared) (i : Nat) : (turn s (.go i)).calls.length = s.calls.length := by
  unfold turn
  dsimp only
  split <;> simp

theorem turn_go_mid {s : Shared} {n i : Nat} {a : Pc} (h : (turn s (.go n)).calls[i]? = some a) (e : i ≠ n) : s.calls[i]? = some a := by
  unfold turn at h
  dsimp only at h
  split at h <;> first | exact h | (rw [List.getElem?_set_ne (Ne.symm e)] at h; exact h)

/-- Steps left of a call. -/
def left : Pc → Nat
  | .start => 4
  | .loaded _ => 3
  | .counted => 2
  | .queued _ => 1
  | .done _ => 0

theorem one_by_one {n k : Nat} {ts : List Turn} (h : OneByOne n k ts) : ∀ p, Only n k p → (k ≠ 0 → ∃ a, (turns {} p).calls[n]? = some a ∧ left a = k) → Exclusive (p ++ ts) := by
  induction h with
  | nil n => intro p hp _; simpa using hp.ex
  | dequeue seq h ih =>
    intro p hp hk
    have := ih (p ++ [.dequeue seq]) (hp.exclusive (by rw [turns_snoc]; exact hp.len) (by rw [turns_snoc]; exact hp.mid)) (by rw [turns_snoc]; exact hk)
    simpa using this
  | @call n ts h ih =>
    intro p hp hk
    have hl : (turns {} p).calls.length = n := hp.len
    have := ih (p ++ [.call]) (hp.exclusive (by rw [turns_snoc]; show ((turns {} p).calls ++ [_]).length = n + 1; simp [hl]) (by
      rw [turns_snoc]
      intro i a h1 h2
      rcases get_snoc h1 with h1 | h1
      · exact hp.mid i a h1 h2
      · subst h1; cases h2)) (fun _ => ⟨.start, by rw [turns_snoc]; show ((turns {} p).calls ++ [_])[n]? = _; rw [← hl]; simp, rfl⟩)
    simpa using this
  | @go n k ts h ih =>
    intro p hp hk
    obtain ⟨a, ha, hk⟩ := hk (by omega)
    have := ih (p ++ [.go n]) (hp.exclusive (by rw [turns_snoc, turn_go_length]; exact hp.len) (by
      rw [turns_snoc]
      intro i b h1 h2
      by_cases e : i = n
      · exact e
      · exact hp.mid i b (turn_go_mid h1 e) h2)) (by
      intro _
      rw [turns_snoc]
      cases a with
      | start => exact ⟨_, by simp only [turn, ha]; exact set_get ha, by simp only [left] at hk ⊢; omega⟩
      | loaded v => exact ⟨_, by simp only [turn, ha]; exact set_get ha, by simp only [left] at hk ⊢; omega⟩
      | counted => exact ⟨_, by simp only [turn, ha]; exact set_get ha, by simp only [left] at hk ⊢; omega⟩
      | queued c => simp only [left] at hk; omega
      | done c => simp only [left] at hk; omega)
    simpa using this
  | @last n ts h ih =>
    intro p hp hk
    obtain ⟨a, ha, hk⟩ := hk (by omega)
    have hl : (turns {} p).calls.length = n + 1 := hp.len
    have := ih (p ++ [.go n]) (hp.exclusive (by rw [turns_snoc, turn_go_length]; exact hl) (by
      rw [turns_snoc]
      intro i b h1 h2
      by_cases e : i = n
      · subst e
        cases a with
        | start => simp only [left] at hk; omega
        | loaded v => simp only [left] at hk; omega
        | counted => simp only [left] at hk; omega
        | queued c =>
          simp only [turn, ha] at h1
          rw [set_get ha] at h1
          injection h1 with h1
          subst h1
          cases h2
        | done c => simp only [left] at hk; omega
      · exact absurd (hp.mid i b (turn_go_mid h1 e) h2) e)) (by intro h; exact absurd rfl h)
    simpa using this

/-- C56, what holds: commands that run one after the other, from whatever goroutines. -/
theorem C56_one_by_one_partial (ts : List Turn) (h : OneByOne 0 0 ts) :
    ((turns {} ts).wire.map Prod.fst).Nodup ∧
    ∀ c i, (c, i) ∈ (turns {} ts).wire → ((c, i) ∈ (turns {} ts).queue ∨ Taken ts c i) ∧ ∀ j, (c, j) ∈ (turns {} ts).queue → j = i :=
  C56_exclusive_partial ts (by
    have h0 : Only 0 0 [] := by
      refine ⟨fun p hp => ?_, rfl, fun i a h => ?_⟩
      · rw [List.prefix_nil] at hp
        subst hp
        intro i j a b h
        simp [turns] at h
      · simp [turns] at h
    simpa using one_by_one h [] h0 (by intro h; exact absurd rfl h))

example : OneByOne 0 0 [.call, .go 0, .go 0, .dequeue 7, .go 0, .go 0, .dequeue 1, .call, .go 1, .go 1, .go 1, .go 1] :=
  .call (.go (.go (.dequeue 7 (.go (.last (.dequeue 1 (.call (.go (.go (.go (.last (.nil 2))))))))))))

example : (turns {} [.call, .go 0, .go 0, .dequeue 7, .go 0, .go 0, .dequeue 1, .call, .go 1, .go 1, .go 1, .go 1]).wire = [(2, 1), (1, 0)] := by decide

/-- C56 refuted: two calls that overlap send the same number, and the first request is no longer in the queue: its response finds the second
one's request, and the other response none. -/
theorem C56_refuted : ∃ ts : List Turn, (turns {} ts).calls = [.done 2, .done 2] ∧ (turns {} ts).wire = [(2, 1), (2, 0)] ∧ (turns {} ts).queue = [(2, 1)] ∧
    ¬ ∃ seq, .dequeue seq ∈ ts :=
  ⟨[.call, .call, .go 0, .go 0, .go 1, .go 1, .go 0, .go 1, .go 0, .go 1], by decide, by decide, by decide, by simp⟩

/-- Another way: both read the counter before either writes it. -/
example : (turns {} [.call, .call, .go 0, .go 1, .go 0, .go 0, .go 0, .go 1, .go 1, .go 1]).wire = [(1, 1), (1, 0)] := by decide

end Ouro
