import Verif.Spec.ConcurrentSetup
import Verif.Props.Concurrent
/-! # C127: commands from other goroutines while the streams are set up -/
namespace Ouro
open Spec

theorem sturns_snoc (s : Setting) (ts : List STurn) (t : STurn) : sturns s (ts ++ [t]) = sturn (sturns s ts) t := by
  unfold sturns; rw [List.foldl_append]; rfl

/-- What is known of the call of `Setup` that is running. -/
def Current (s : Setting) (i : Nat) : Pc → Prop
  | .start => True
  | .loaded v => v = s.sh.cseq
  | .counted => True
  | .queued c => c = s.sh.cseq ∧ (c, i) ∈ s.sh.queue ∧ (∀ m ∈ s.noted, m < c) ∧ ∀ e ∈ s.sh.queue, e.1 = c → e.2 = i
  | .done c => c = s.sh.cseq ∧ (c, i) ∈ s.sh.queue ∧ (∀ m ∈ s.noted, m < c) ∧ ∀ e ∈ s.sh.queue, e.1 = c → e.2 = i

/-- The numbers noted that have a request in the queue. -/
def outstandingNoted (s : Setting) : List Nat := s.noted.filter fun m => decide (m ∈ s.sh.queue.map Prod.fst)

structure Noting (s : Setting) : Prop where
  le : s.noted.length ≤ s.mine.length
  le1 : s.mine.length ≤ s.noted.length + 1
  fit : s.mine.length ≤ s.feeds
  done : ∀ k i m : Nat, s.mine[k]? = some i → s.noted[k]? = some m → s.sh.calls[i]? = some (.done m)
  above : ∀ m ∈ s.noted, m ≤ s.sh.cseq
  incr : s.noted.Pairwise (· < ·)
  low : ∀ m ∈ s.noted, ∀ i v : Nat, s.sh.calls[i]? = some (.loaded v) → m ≤ v
  low' : ∀ m ∈ s.noted, ∀ i : Nat, s.sh.calls[i]? = some .counted → m < s.sh.cseq
  cur : ∀ i : Nat, s.mine[s.noted.length]? = some i → ∃ a, s.sh.calls[i]? = some a ∧ Current s i a
  wire : ∀ c i : Nat, (c, i) ∈ s.sh.wire ↔ s.sh.calls[i]? = some (.done c)
  keys : ∀ k i m : Nat, s.mine[k]? = some i → s.noted[k]? = some m → ∀ e ∈ s.sh.queue, e.1 = m → e.2 = i
  kept : ∀ c i : Nat, (c, i) ∈ s.sh.queue → HasNum s.sh i c
  count : s.idx + (outstandingNoted s).length = s.noted.length
  ready : 0 < s.feeds → (s.ready = true ↔ s.feeds ≤ s.idx)

theorem queue_fst {q : List (Nat × Nat)} {c i m : Nat} (h : m ≠ c) :
    m ∈ ((q.filter fun e => e.1 ≠ c) ++ [(c, i)]).map Prod.fst ↔ m ∈ q.map Prod.fst := by
  simp only [List.mem_map, List.mem_append, List.mem_filter, List.mem_singleton]
  constructor
  · rintro ⟨e, ⟨h1, _⟩ | h1, rfl⟩
    · exact ⟨e, h1, rfl⟩
    · subst h1; exact absurd rfl h
  · rintro ⟨e, h1, rfl⟩
    exact ⟨e, .inl ⟨h1, by simpa using h⟩, rfl⟩

theorem get_lt {α : Type} {l : List α} {i : Nat} {a : α} (h : l[i]? = some a) : i < l.length := (List.getElem?_eq_some_iff.1 h).1

theorem get_grow {l : List Pc} {a b : Pc} {i : Nat} (h : l[i]? = some b) : (l ++ [a])[i]? = some b := by
  rw [List.getElem?_append_left (get_lt h)]; exact h

/-- One step of a call that is not one of those whose number is noted. -/
theorem Noting.go {s : Setting} (h : Noting s) {i : Nat} (hi : i ∉ s.mine ∨ s.mine[s.noted.length]? = some i)
    (hu : MidSetup s → ∀ (i : Nat) (a : Pc), s.sh.calls[i]? = some a → i ∉ s.mine → ¬ Mid a) :
    Noting { s with sh := turn s.sh (.go i) } := by
  obtain ⟨le, le1, fit, done, above, incr, low, low', cur, wire, keys, kept, count, ready⟩ := h
  cases hc : s.sh.calls[i]? with
  | none => rw [show turn s.sh (.go i) = s.sh by simp only [turn, hc]]; exact ⟨le, le1, fit, done, above, incr, low, low', cur, wire, keys, kept, count, ready⟩
  | some pc =>
    -- the call is the one `Setup` is running, or none is, or it is outside the counter
    have hcur : ∀ j : Nat, s.mine[s.noted.length]? = some j → j ≠ i → ¬ Mid pc := by
      intro j hj e
      rcases hi with hi | hi
      · exact hu (get_lt hj) i pc hc hi
      · rw [hi] at hj; injection hj with hj; exact absurd hj.symm e
    have old : ∀ k j m : Nat, s.mine[k]? = some j → s.noted[k]? = some m → pc ≠ .done m → j ≠ i := by
      rintro k j m h1 h2 h3 rfl
      rw [done k j m h1 h2] at hc
      injection hc with hc
      exact h3 hc.symm
    cases pc with
    | start =>
      rw [show turn s.sh (.go i) = { s.sh with calls := s.sh.calls.set i (.loaded s.sh.cseq) } by simp only [turn, hc]]
      have num : ∀ (j c : Nat), HasNum s.sh j c → HasNum { s.sh with calls := s.sh.calls.set i (.loaded s.sh.cseq) } j c := by
        intro j c hj
        by_cases e : i = j
        · subst e; rcases hj with hj | hj <;> (rw [hc] at hj; cases hj)
        · simpa [HasNum, List.getElem?_set_ne e] using hj
      refine ⟨le, le1, fit, ?_, above, incr, ?_, ?_, ?_, ?_, keys, fun c j hj => num j c (kept c j hj), count, ready⟩
      · intro k j m h1 h2
        show (s.sh.calls.set i _)[j]? = _
        rw [List.getElem?_set_ne (Ne.symm (old k j m h1 h2 (by simp)))]; exact done k j m h1 h2
      · intro m hm j v hj
        rcases get_set hj with ⟨_, hv⟩ | ⟨_, hj⟩
        · injection hv with hv; subst hv; exact above m hm
        · exact low m hm j v hj
      · intro m hm j hj
        rcases get_set hj with ⟨_, hv⟩ | ⟨_, hj⟩
        · cases hv
        · exact low' m hm j hj
      · intro j hj
        by_cases e : i = j
        · subst e; exact ⟨_, set_get hc, rfl⟩
        · obtain ⟨a, h1, h2⟩ := cur j hj
          exact ⟨a, by show (s.sh.calls.set i _)[j]? = _; rw [List.getElem?_set_ne e]; exact h1, by cases a <;> exact h2⟩
      · intro c j
        show (c, j) ∈ s.sh.wire ↔ (s.sh.calls.set i _)[j]? = _
        rw [wire]
        by_cases e : i = j
        · subst e; rw [set_get hc, hc]; simp
        · rw [List.getElem?_set_ne e]
    | loaded v =>
      rw [show turn s.sh (.go i) = { s.sh with cseq := v + 1, calls := s.sh.calls.set i .counted } by simp only [turn, hc]]
      have num : ∀ (j c : Nat), HasNum s.sh j c → HasNum { s.sh with cseq := v + 1, calls := s.sh.calls.set i .counted } j c := by
        intro j c hj
        by_cases e : i = j
        · subst e; rcases hj with hj | hj <;> (rw [hc] at hj; cases hj)
        · simpa [HasNum, List.getElem?_set_ne e] using hj
      refine ⟨le, le1, fit, ?_, ?_, incr, ?_, ?_, ?_, ?_, keys, fun c j hj => num j c (kept c j hj), count, ready⟩
      · intro k j m h1 h2
        show (s.sh.calls.set i _)[j]? = _
        rw [List.getElem?_set_ne (Ne.symm (old k j m h1 h2 (by simp)))]; exact done k j m h1 h2
      · intro m hm; exact Nat.le_succ_of_le (low m hm i v hc)
      · intro m hm j w hj
        rcases get_set hj with ⟨_, hv⟩ | ⟨_, hj⟩
        · cases hv
        · exact low m hm j w hj
      · intro m hm j hj; exact Nat.lt_succ_of_le (low m hm i v hc)
      · intro j hj
        by_cases e : i = j
        · subst e; exact ⟨_, set_get hc, trivial⟩
        · exact absurd trivial (hcur j hj (Ne.symm e))
      · intro c j
        show (c, j) ∈ s.sh.wire ↔ (s.sh.calls.set i _)[j]? = _
        rw [wire]
        by_cases e : i = j
        · subst e; rw [set_get hc, hc]; simp
        · rw [List.getElem?_set_ne e]
    | counted =>
      rw [show turn s.sh (.go i) = { s.sh with calls := s.sh.calls.set i (.queued s.sh.cseq), queue := (s.sh.queue.filter fun e => e.1 ≠ s.sh.cseq) ++ [(s.sh.cseq, i)] } by simp only [turn, hc]]
      have lt : ∀ m ∈ s.noted, m < s.sh.cseq := fun m hm => low' m hm i hc
      refine ⟨le, le1, fit, ?_, above, incr, ?_, ?_, ?_, ?_, ?_, ?_, ?_, ready⟩
      · intro k j m h1 h2
        show (s.sh.calls.set i _)[j]? = _
        rw [List.getElem?_set_ne (Ne.symm (old k j m h1 h2 (by simp)))]; exact done k j m h1 h2
      · intro m hm j w hj
        rcases get_set hj with ⟨_, hv⟩ | ⟨_, hj⟩
        · cases hv
        · exact low m hm j w hj
      · intro m hm j hj; exact lt m hm
      · intro j hj
        by_cases e : i = j
        · subst e
          refine ⟨_, set_get hc, rfl, List.mem_append_right _ (List.mem_singleton_self _), lt, ?_⟩
          intro e he h1
          rcases List.mem_append.1 he with he | he
          · exact absurd h1 (by simpa using (List.mem_filter.1 he).2)
          · rw [List.mem_singleton.1 he]
        · exact absurd trivial (hcur j hj (Ne.symm e))
      · intro c j
        show (c, j) ∈ s.sh.wire ↔ (s.sh.calls.set i _)[j]? = _
        rw [wire]
        by_cases e : i = j
        · subst e; rw [set_get hc, hc]; simp
        · rw [List.getElem?_set_ne e]
      · intro k j m h1 h2 e he h3
        rcases List.mem_append.1 he with he | he
        · exact keys k j m h1 h2 e (List.mem_filter.1 he).1 h3
        · rw [List.mem_singleton.1 he] at h3
          exact absurd h3 (Nat.ne_of_gt (lt m (List.mem_of_getElem? h2)))
      · intro c j hj
        rcases List.mem_append.1 hj with hj | hj
        · have := kept c j (List.mem_filter.1 hj).1
          by_cases e : i = j
          · subst e; rcases this with this | this <;> (rw [hc] at this; cases this)
          · simpa [HasNum, List.getElem?_set_ne e] using this
        · injection (List.mem_singleton.1 hj) with h1 h2
          subst h1; subst h2
          exact .inl (set_get hc)
      · rw [← count]
        unfold outstandingNoted
        congr 2
        apply List.filter_congr
        intro m hm
        rw [decide_eq_decide]
        exact queue_fst (Nat.ne_of_lt (lt m hm))
    | queued q =>
      rw [show turn s.sh (.go i) = { s.sh with calls := s.sh.calls.set i (.done q), wire := (q, i) :: s.sh.wire } by simp only [turn, hc]]
      refine ⟨le, le1, fit, ?_, above, incr, ?_, ?_, ?_, ?_, keys, ?_, count, ready⟩
      · intro k j m h1 h2
        show (s.sh.calls.set i _)[j]? = _
        rw [List.getElem?_set_ne (Ne.symm (old k j m h1 h2 (by simp)))]; exact done k j m h1 h2
      · intro m hm j w hj
        rcases get_set hj with ⟨_, hv⟩ | ⟨_, hj⟩
        · cases hv
        · exact low m hm j w hj
      · intro m hm j hj
        rcases get_set hj with ⟨_, hv⟩ | ⟨_, hj⟩
        · cases hv
        · exact low' m hm j hj
      · intro j hj
        obtain ⟨a, h1, h2⟩ := cur j hj
        by_cases e : i = j
        · subst e
          rw [hc] at h1; injection h1 with h1; subst h1
          exact ⟨_, set_get hc, h2⟩
        · exact ⟨a, by show (s.sh.calls.set i _)[j]? = _; rw [List.getElem?_set_ne e]; exact h1, by cases a <;> exact h2⟩
      · intro c j
        show (c, j) ∈ (q, i) :: s.sh.wire ↔ (s.sh.calls.set i _)[j]? = _
        rw [List.mem_cons, wire]
        by_cases e : i = j
        · subst e; rw [set_get hc, hc]; simp [eq_comm]
        · rw [List.getElem?_set_ne e]; simp [Ne.symm e]
      · intro c j hj
        by_cases e : i = j
        · subst e
          rcases kept c i hj with this | this
          · rw [hc] at this; injection this with this; injection this with this; subst this; exact .inr (set_get hc)
          · rw [hc] at this; cases this
        · simpa [HasNum, List.getElem?_set_ne e] using kept c j hj
    | done q =>
      rw [show turn s.sh (.go i) = s.sh by simp only [turn, hc]]
      exact ⟨le, le1, fit, done, above, incr, low, low', cur, wire, keys, kept, count, ready⟩

theorem count_drop (l ks : List Nat) (c : Nat) (h : c ∈ ks) :
    (l.filter fun m => decide (m ∈ ks)).length = l.count c + (l.filter fun m => decide (m ∈ ks.filter fun k => k ≠ c)).length := by
  induction l with
  | nil => rfl
  | cons m l ih =>
    by_cases e : m = c
    · subst e; simp [h]; simp at ih; omega
    · have hd : decide (m ∈ ks.filter fun k => k ≠ c) = decide (m ∈ ks) := by
        rw [decide_eq_decide, List.mem_filter]; simp [e]
      rw [List.filter_cons, List.filter_cons, hd, List.count_cons_of_ne e]
      split
      · rw [List.length_cons, List.length_cons, ih]; omega
      · exact ih

theorem fst_filter (q : List (Nat × Nat)) (c : Nat) : (q.filter fun e => e.1 ≠ c).map Prod.fst = (q.map Prod.fst).filter fun k => k ≠ c := by
  rw [List.filter_map]; rfl

theorem Noting.answer {s : Setting} (h : Noting s) (c : Nat) : Noting (sturn s (.answer c)) := by
  unfold sturn
  dsimp only
  split
  · exact h
  · rename_i hlen
    split
    · exact h
    · rename_i e he
      obtain ⟨le, le1, fit, done, above, incr, low, low', cur, wire, keys, kept, count, ready⟩ := h
      have hmem : e ∈ s.sh.queue := List.mem_of_find?_eq_some he
      have hkey : e.1 = c := by simpa using List.find?_some he
      have hnone : s.mine[s.noted.length]? = none := List.getElem?_eq_none (by omega)
      have hcount : (outstandingNoted s).length = s.noted.count c + (outstandingNoted { s with sh := turn s.sh (.dequeue c) }).length := by
        unfold outstandingNoted
        rw [count_drop s.noted _ c (hkey ▸ List.mem_map_of_mem hmem)]
        show _ = _ + (s.noted.filter fun m => decide (m ∈ (s.sh.queue.filter fun e => e.1 ≠ c).map Prod.fst)).length
        rw [fst_filter]
      have kept' : ∀ d i : Nat, (d, i) ∈ (turn s.sh (.dequeue c)).queue → HasNum (turn s.sh (.dequeue c)) i d :=
        fun d i hd => kept d i (List.mem_filter.1 hd).1
      have keys' : ∀ k i m : Nat, s.mine[k]? = some i → s.noted[k]? = some m → ∀ e ∈ (turn s.sh (.dequeue c)).queue, e.1 = m → e.2 = i :=
        fun k i m h1 h2 e he => keys k i m h1 h2 e (List.mem_filter.1 he).1
      split
      · refine ⟨le, le1, fit, done, above, incr, low, low', ?_, wire, keys', kept', ?_, ?_⟩
        · intro i hi; rw [show s.mine[s.noted.length]? = some i from hi] at hnone; cases hnone
        · show s.idx + s.noted.count c + (outstandingNoted { s with sh := turn s.sh (.dequeue c) }).length = s.noted.length
          omega
        · intro hf
          have := ready hf
          show (s.ready || decide _) = true ↔ s.feeds ≤ s.idx + s.noted.count c
          rw [Bool.or_eq_true, decide_eq_true_iff, this]
          omega
      · rename_i hnot
        have hz : s.noted.count c = 0 := by
          rw [List.count_eq_zero]
          intro hc
          obtain ⟨k, hk⟩ := List.mem_iff_getElem?.1 hc
          have hl : k < s.mine.length := by have := get_lt hk; omega
          have := keys k _ c (List.getElem?_eq_getElem hl) hk e hmem hkey
          exact hnot (this ▸ List.getElem_mem hl)
        refine ⟨le, le1, fit, done, above, incr, low, low', ?_, wire, keys', kept', ?_, ready⟩
        · intro i hi; rw [show s.mine[s.noted.length]? = some i from hi] at hnone; cases hnone
        · show s.idx + (outstandingNoted { s with sh := turn s.sh (.dequeue c) }).length = s.noted.length
          omega

theorem Noting.call {s : Setting} (h : Noting s) : Noting { s with sh := turn s.sh .call } := by
  obtain ⟨le, le1, fit, done, above, incr, low, low', cur, wire, keys, kept, count, ready⟩ := h
  refine ⟨le, le1, fit, fun k i m h1 h2 => get_grow (done k i m h1 h2), above, incr, ?_, ?_, ?_, ?_, keys, ?_, count, ready⟩
  · intro m hm i v hi; exact low m hm i v ((get_snoc hi).resolve_right (by simp))
  · intro m hm i hi; exact low' m hm i ((get_snoc hi).resolve_right (by simp))
  · intro i hi
    obtain ⟨a, h1, h2⟩ := cur i hi
    exact ⟨a, get_grow h1, by cases a <;> exact h2⟩
  · intro c i
    show (c, i) ∈ s.sh.wire ↔ _
    rw [wire]
    exact ⟨get_grow, fun hi => (get_snoc hi).resolve_right (by simp)⟩
  · intro c i hi
    exact (kept c i hi).imp get_grow get_grow

theorem Noting.begin {s : Setting} (h : Noting s) (hf : s.noted.length < s.feeds) (hn : s.mine[s.noted.length]? = none) :
    Noting { s with sh := turn s.sh .call, mine := s.mine ++ [s.sh.calls.length] } := by
  have hl : s.mine.length = s.noted.length := Nat.le_antisymm (List.getElem?_eq_none_iff.1 hn) h.le
  have hg : ∀ k i m : Nat, (s.mine ++ [s.sh.calls.length])[k]? = some i → s.noted[k]? = some m → s.mine[k]? = some i := by
    intro k i m h1 h2
    rwa [List.getElem?_append_left (by have := get_lt h2; omega)] at h1
  obtain ⟨le, le1, fit, done, above, incr, low, low', cur, wire, keys, kept, count, ready⟩ := h.call
  refine ⟨?_, ?_, ?_, fun k i m h1 h2 => done k i m (hg k i m h1 h2) h2, above, incr, low, low', ?_, wire, fun k i m h1 h2 => keys k i m (hg k i m h1 h2) h2, kept, count, ready⟩
  · simp; omega
  · simp; omega
  · simp; omega
  · intro i hi
    have hi : (s.mine ++ [s.sh.calls.length])[s.noted.length]? = some i := hi
    rw [← hl] at hi
    simp at hi
    subst hi
    exact ⟨.start, by show (s.sh.calls ++ [_])[_]? = _; simp, trivial⟩

theorem Noting.note {s : Setting} (h : Noting s) {i c : Nat} (hi : s.mine[s.noted.length]? = some i) (hd : s.sh.calls[i]? = some (.done c))
    (hu : MidSetup s → ∀ (i : Nat) (a : Pc), s.sh.calls[i]? = some a → i ∉ s.mine → ¬ Mid a) :
    Noting { s with noted := s.noted ++ [s.sh.cseq] } := by
  have hmid : ∀ (j : Nat) (a : Pc), s.sh.calls[j]? = some a → ¬ Mid a := by
    intro j a hj
    by_cases hm : j ∈ s.mine
    · obtain ⟨k, hk⟩ := List.mem_iff_getElem?.1 hm
      have hk1 := get_lt hk
      have := h.le1
      by_cases e : k = s.noted.length
      · subst e
        rw [hi] at hk; injection hk with hk; subst hk
        rw [hd] at hj; injection hj with hj; subst hj
        exact id
      · have hlt : k < s.noted.length := by omega
        rw [h.done k j _ hk (List.getElem?_eq_getElem hlt)] at hj
        injection hj with hj; subst hj
        exact id
    · exact hu (get_lt hi) j a hj hm
  obtain ⟨le, le1, fit, done, above, incr, low, low', cur, wire, keys, kept, count, ready⟩ := h
  obtain ⟨a, h1, h2⟩ := cur i hi
  rw [hd] at h1; injection h1 with h1; subst h1
  obtain ⟨h2, h3, h4, h5⟩ := h2
  subst h2
  have hlt := get_lt hi
  have split : ∀ k j m : Nat, s.mine[k]? = some j → (s.noted ++ [s.sh.cseq])[k]? = some m → s.noted[k]? = some m ∨ (j = i ∧ m = s.sh.cseq) := by
    intro k j m hk hm
    by_cases e : k < s.noted.length
    · rw [List.getElem?_append_left e] at hm; exact .inl hm
    · have : k = s.noted.length := by have := get_lt hm; simp at this; omega
      subst this
      rw [hi] at hk; injection hk with hk
      simp at hm
      exact .inr ⟨hk.symm, hm.symm⟩
  refine ⟨?_, ?_, fit, ?_, ?_, ?_, ?_, ?_, ?_, wire, ?_, kept, ?_, ready⟩
  · simp; omega
  · simp; omega
  · intro k j m hk hm
    rcases split k j m hk hm with hm | ⟨rfl, rfl⟩
    · exact done k j m hk hm
    · exact hd
  · intro m hm
    rcases List.mem_append.1 hm with hm | hm
    · exact above m hm
    · rw [List.mem_singleton.1 hm]; exact Nat.le_refl _
  · refine List.pairwise_append.2 ⟨incr, List.pairwise_singleton _ _, ?_⟩
    intro m hm x hx
    rw [List.mem_singleton.1 hx]; exact h4 m hm
  · intro m _ j v hj; exact absurd trivial (hmid j _ hj)
  · intro m _ j hj; exact absurd trivial (hmid j _ hj)
  · intro j hj
    have : s.mine[(s.noted ++ [s.sh.cseq]).length]? = none := List.getElem?_eq_none (by simp; omega)
    rw [show s.mine[(s.noted ++ [s.sh.cseq]).length]? = some j from hj] at this; cases this
  · intro k j m hk hm e he
    rcases split k j m hk hm with hm | ⟨rfl, rfl⟩
    · exact keys k j m hk hm e he
    · exact h5 e he
  · have : outstandingNoted { s with noted := s.noted ++ [s.sh.cseq] } = outstandingNoted s ++ [s.sh.cseq] := by
      unfold outstandingNoted
      rw [List.filter_append]
      congr 1
      rw [List.filter_cons_of_pos (by rw [decide_eq_true_iff]; exact List.mem_map.2 ⟨_, h3, rfl⟩)]
      rfl
    rw [this]
    simp
    omega

theorem noting (c n : Nat) (ts : List STurn) : Undisturbed (settingUp c n) ts → Noting (sturns (settingUp c n) ts) := by
  refine snoc_induct (P := fun ts => Undisturbed (settingUp c n) ts → Noting (sturns (settingUp c n) ts)) ?_ ?_ ts
  · intro _
    refine ⟨?_, ?_, ?_, ?_, ?_, ?_, ?_, ?_, ?_, ?_, ?_, ?_, ?_, ?_⟩ <;> simp [sturns, settingUp, HasNum, outstandingNoted] <;> omega
  · intro ts t ih hu
    have ih := ih fun p hp => hu p (hp.trans (List.prefix_append _ _))
    have hv : MidSetup (sturns (settingUp c n) ts) → ∀ (i : Nat) (a : Pc), (sturns (settingUp c n) ts).sh.calls[i]? = some a →
        i ∉ (sturns (settingUp c n) ts).mine → ¬ Mid a := hu ts (List.prefix_append _ _)
    rw [sturns_snoc]
    generalize sturns (settingUp c n) ts = s at ih hv
    cases t with
    | call => exact ih.call
    | go i =>
      show Noting (if i ∈ s.mine then s else _)
      split
      · exact ih
      · rename_i hi; exact ih.go (.inl hi) hv
    | answer c => exact ih.answer c
    | setup =>
      unfold sturn
      dsimp only
      split
      · rename_i hf
        split
        · rename_i hn; exact ih.begin hf hn
        · rename_i i hi
          split
          · rename_i d hd; exact ih.note hi hd hv
          · exact ih.go (.inr hi) hv
      · exact ih

theorem sturn_feeds (s : Setting) (t : STurn) : (sturn s t).feeds = s.feeds := by
  cases t <;> unfold sturn <;> dsimp only <;> (repeat' split) <;> rfl

theorem sturns_feeds (s : Setting) (ts : List STurn) : (sturns s ts).feeds = s.feeds := by
  refine snoc_induct (P := fun ts => (sturns s ts).feeds = s.feeds) rfl ?_ ts
  intro ts t ih
  rw [sturns_snoc, sturn_feeds, ih]

/-- C127, what holds: when no other goroutine takes a number while `Setup` is at work on a stream, the number noted for a stream is the one
its request was written with, and the streams have different ones. -/
theorem C127_noted_partial (c n : Nat) (ts : List STurn) (h : Undisturbed (settingUp c n) ts) :
    (∀ k i m : Nat, (sturns (settingUp c n) ts).mine[k]? = some i → (sturns (settingUp c n) ts).noted[k]? = some m →
      (m, i) ∈ (sturns (settingUp c n) ts).sh.wire) ∧
    (sturns (settingUp c n) ts).noted.Nodup := by
  have := noting c n ts h
  exact ⟨fun k i m h1 h2 => (this.wire m i).2 (this.done k i m h1 h2), this.incr.imp (fun h => Nat.ne_of_lt h)⟩

/-- C127, what holds: then the session is reported ready exactly when the requests of all the streams have been answered, in whatever order
and with whatever other commands and answers in between. -/
theorem C127_ready_partial (c n : Nat) (ts : List STurn) (h : Undisturbed (settingUp c n) ts) (hn : 0 < n)
    (ho : SetupOver (sturns (settingUp c n) ts)) :
    (sturns (settingUp c n) ts).ready = true ↔ ∀ i ∈ (sturns (settingUp c n) ts).mine, AnswerTaken (sturns (settingUp c n) ts) i := by
  have hN := noting c n ts h
  have hf : (sturns (settingUp c n) ts).feeds = n := sturns_feeds _ _
  generalize sturns (settingUp c n) ts = s at *
  subst hf
  have ho : s.noted.length = s.feeds := ho
  have hml : s.mine.length = s.noted.length := by have := hN.le; have := hN.fit; omega
  rw [hN.ready hn]
  have hc := hN.count
  constructor
  · intro hr i hi
    obtain ⟨k, hk⟩ := List.mem_iff_getElem?.1 hi
    have hlt : k < s.noted.length := by have := get_lt hk; omega
    have hm := List.getElem?_eq_getElem hlt
    refine ⟨_, (hN.wire _ _).2 (hN.done k i _ hk hm), fun hq => ?_⟩
    have : outstandingNoted s = [] := List.length_eq_zero_iff.1 (by omega)
    have : s.noted[k] ∈ outstandingNoted s := List.mem_filter.2 ⟨List.getElem_mem hlt, by rw [decide_eq_true_iff]; exact List.mem_map.2 ⟨_, hq, rfl⟩⟩
    simp_all
  · intro ha
    have : outstandingNoted s = [] := by
      rw [List.eq_nil_iff_forall_not_mem]
      intro m hm
      obtain ⟨hm1, hm2⟩ := List.mem_filter.1 hm
      rw [decide_eq_true_iff] at hm2
      obtain ⟨e, he, rfl⟩ := List.mem_map.1 hm2
      obtain ⟨k, hk⟩ := List.mem_iff_getElem?.1 hm1
      have hlt : k < s.mine.length := by have := get_lt hk; omega
      have hmine := List.getElem?_eq_getElem hlt
      have h2 := hN.keys k _ _ hmine hk e he rfl
      obtain ⟨d, hw, hq⟩ := ha _ (List.getElem_mem hlt)
      rw [hN.wire, hN.done k _ _ hmine hk] at hw
      injection hw with hw
      injection hw with hw
      subst hw
      exact hq (by rw [← h2]; exact he)
    rw [this] at hc
    simp at hc
    omega

/-- Two streams; another goroutine sends a command between the two requests and one after them, and the answers come in another order. -/
def demoSettingUp : List STurn :=
  [.setup, .setup, .setup, .setup, .setup, .setup, .call, .go 1, .go 1, .go 1, .setup, .setup, .go 1, .setup, .call, .setup, .setup, .setup,
   .answer 4, .go 3, .go 3, .answer 5, .go 3, .go 3, .answer 3]

theorem prefix_take {α : Type} {p ts : List α} (h : p <+: ts) : ∃ k, k < ts.length + 1 ∧ p = ts.take k :=
  ⟨p.length, Nat.lt_succ_of_le h.length_le, List.prefix_iff_eq_take.1 h⟩

theorem demoSettingUp_undisturbed : Undisturbed (settingUp 2 2) demoSettingUp := by
  intro p hp
  obtain ⟨k, hk, rfl⟩ := prefix_take hp
  have key : ∀ k < demoSettingUp.length + 1, (sturns (settingUp 2 2) (demoSettingUp.take k)).mine.length ≤ (sturns (settingUp 2 2) (demoSettingUp.take k)).noted.length ∨
      ∀ x ∈ (sturns (settingUp 2 2) (demoSettingUp.take k)).sh.calls.zipIdx, x.2 ∈ (sturns (settingUp 2 2) (demoSettingUp.take k)).mine ∨ ¬ Mid x.1 := by
    decide +kernel
  intro hm i a ha hi
  have hm : (sturns (settingUp 2 2) (demoSettingUp.take k)).noted.length < (sturns (settingUp 2 2) (demoSettingUp.take k)).mine.length := hm
  exact (((key k hk).resolve_left (by omega)) (a, i) (List.mk_mem_zipIdx_iff_getElem?.2 ha)).resolve_left hi

example : SetupOver (sturns (settingUp 2 2) demoSettingUp) ∧ (sturns (settingUp 2 2) demoSettingUp).ready = true ∧
    (sturns (settingUp 2 2) demoSettingUp).noted = [3, 5] ∧ (sturns (settingUp 2 2) demoSettingUp).mine = [0, 2] ∧
    (sturns (settingUp 2 2) demoSettingUp).sh.wire = [(6, 3), (5, 2), (4, 1), (3, 0)] := by
  unfold SetupOver; decide +kernel

/-- Before the last answer it is not ready. -/
example : (sturns (settingUp 2 2) demoSettingUp.dropLast).ready = false ∧ ¬ AnswerTaken (sturns (settingUp 2 2) demoSettingUp.dropLast) 0 := by
  refine ⟨by decide +kernel, ?_⟩
  rintro ⟨c, h1, h2⟩
  have hw : (sturns (settingUp 2 2) demoSettingUp.dropLast).sh.wire = [(6, 3), (5, 2), (4, 1), (3, 0)] := by decide +kernel
  have hq : (sturns (settingUp 2 2) demoSettingUp.dropLast).sh.queue = [(3, 0), (6, 3)] := by decide +kernel
  rw [hw] at h1
  rw [hq] at h2
  simp at h1
  subst h1
  simp at h2

/-- One stream; another goroutine sends a command after the request of the stream was written and before its number is noted. -/
def demoDisturbed : List STurn :=
  [.setup, .setup, .setup, .setup, .setup, .call, .go 1, .go 1, .go 1, .go 1, .setup, .answer 3, .answer 4]

/-- C127 refuted: no two commands overlap, they are written with different numbers, both are answered with 200, and the session is never
reported ready: the number noted for the stream is that of the other command. -/
theorem C127_refuted : CallsApart (settingUp 2 1) demoDisturbed ∧ SetupOver (sturns (settingUp 2 1) demoDisturbed) ∧
    (sturns (settingUp 2 1) demoDisturbed).sh.wire = [(4, 1), (3, 0)] ∧ (sturns (settingUp 2 1) demoDisturbed).sh.queue = [] ∧
    (sturns (settingUp 2 1) demoDisturbed).noted = [4] ∧ (sturns (settingUp 2 1) demoDisturbed).mine = [0] ∧
    ∀ cs : List Nat, (sturns (settingUp 2 1) (demoDisturbed ++ cs.map .answer)).ready = false := by
  refine ⟨?_, by unfold SetupOver; decide +kernel, by decide +kernel, by decide +kernel, by decide +kernel, by decide +kernel, ?_⟩
  · intro p hp
    obtain ⟨k, hk, rfl⟩ := prefix_take hp
    have key : ∀ k < demoDisturbed.length + 1, ((sturns (settingUp 2 1) (demoDisturbed.take k)).sh.calls.filter fun a => decide (Mid a)).length ≤ 1 := by
      decide +kernel
    exact key k hk
  · intro cs
    have h0 : (sturns (settingUp 2 1) demoDisturbed).sh.queue = [] ∧ (sturns (settingUp 2 1) demoDisturbed).ready = false := by decide +kernel
    have : sturns (settingUp 2 1) (demoDisturbed ++ cs.map .answer) = sturns (settingUp 2 1) demoDisturbed := by
      rw [show sturns (settingUp 2 1) (demoDisturbed ++ cs.map .answer) = sturns (sturns (settingUp 2 1) demoDisturbed) (cs.map .answer) from List.foldl_append]
      generalize sturns (settingUp 2 1) demoDisturbed = s at h0
      induction cs with
      | nil => rfl
      | cons c cs ih =>
        show sturns (sturn s (.answer c)) _ = s
        have : sturn s (.answer c) = s := by
          unfold sturn
          dsimp only
          rw [h0.1]
          simp
        rw [this]; exact ih
    rw [this]; exact h0.2

end Ouro
