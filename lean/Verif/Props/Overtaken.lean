import Verif.Spec.Overtaken
import Verif.Props.ConcurrentSetup
import Verif.Props.Overlap
/-! # C127: exactly which schedules let a session get ready -/
namespace Ouro
open Spec

/-- The number was noted for a stream whose request has it, and the request was answered. -/
def Met (s : Setting) (m : Nat) : Prop := ∃ i ∈ s.mine, (m, i) ∈ s.sh.wire ∧ (m, i) ∉ s.sh.queue

instance (s : Setting) (m : Nat) : Decidable (Met s m) := by unfold Met; infer_instance

structure Beat (s : Setting) (o : Prop) : Prop where
  le : s.noted.length ≤ s.mine.length
  le1 : s.mine.length ≤ s.noted.length + 1
  fit : s.mine.length ≤ s.feeds
  alive : ∀ i : Nat, s.mine[s.noted.length]? = some i → ∃ a, s.sh.calls[i]? = some a
  load : ∀ i v : Nat, s.sh.calls[i]? = some (.loaded v) → v = s.sh.cseq
  fresh : ∀ i : Nat, s.sh.calls[i]? = some .counted → ∀ j c, HasNum s.sh j c → c < s.sh.cseq
  fresh' : ∀ i : Nat, s.mine[s.noted.length]? = some i → s.sh.calls[i]? = some .counted → ∀ m ∈ s.noted, m < s.sh.cseq
  range : ∀ i c : Nat, HasNum s.sh i c → c ≤ s.sh.cseq
  inj : ∀ i j c : Nat, HasNum s.sh i c → HasNum s.sh j c → i = j
  wire : ∀ c i : Nat, (c, i) ∈ s.sh.wire ↔ s.sh.calls[i]? = some (.done c)
  kept : ∀ c i : Nat, (c, i) ∈ s.sh.queue → HasNum s.sh i c
  own : ∀ k i m : Nat, s.mine[k]? = some i → s.noted[k]? = some m → ∃ c, s.sh.calls[i]? = some (.done c) ∧ c ≤ m
  above : ∀ m ∈ s.noted, m ≤ s.sh.cseq
  order : ∀ k k' m i c : Nat, s.noted[k]? = some m → k < k' → s.mine[k']? = some i → HasNum s.sh i c → m < c
  here : ∀ i c : Nat, s.mine[s.noted.length]? = some i → HasNum s.sh i c → (c, i) ∈ s.sh.queue
  over : o ↔ (∃ k i m c : Nat, s.mine[k]? = some i ∧ s.noted[k]? = some m ∧ s.sh.calls[i]? = some (.done c) ∧ c < m) ∨
    ∃ i c : Nat, s.mine[s.noted.length]? = some i ∧ HasNum s.sh i c ∧ c < s.sh.cseq
  count : s.idx = (s.noted.filter fun m => decide (Met s m)).length
  ready : 0 < s.feeds → (s.ready = true ↔ s.feeds ≤ s.idx)

/-- One step of a call that is not one of those whose number is noted. -/
theorem Beat.go {s : Setting} {o : Prop} (h : Beat s o) {i : Nat} (hi : i ∉ s.mine ∨ s.mine[s.noted.length]? = some i)
    (hx : ∀ (i j : Nat) (a b : Pc), s.sh.calls[i]? = some a → s.sh.calls[j]? = some b → Mid a → Mid b → i = j) :
    Beat { s with sh := turn s.sh (.go i) } (o ∨ Overtakes s i) := by
  obtain ⟨le, le1, fit, alive, load, fresh, fresh', range, inj, wire, kept, own, above, order, here, over, count, ready⟩ := h
  have mineOf : ∀ k j : Nat, s.mine[k]? = some j → j = i → s.mine[s.noted.length]? = some i := by
    rintro k j hk rfl
    exact hi.resolve_left fun h => h (List.mem_of_getElem? hk)
  -- a call whose number is noted is not the one that moves on
  have old : ∀ k j m c : Nat, s.mine[k]? = some j → s.noted[k]? = some m → s.sh.calls[j]? = some (.done c) → (∀ d, s.sh.calls[i]? ≠ some (.done d)) → i ≠ j := by
    rintro k j m c _ _ h3 h4 rfl
    exact h4 c h3
  have noOver : (∀ v, s.sh.calls[i]? ≠ some (.loaded v)) → (o ∨ Overtakes s i ↔ o) := fun hn => or_iff_left fun ⟨_, ⟨v, hv⟩, _⟩ => hn v hv
  cases hc : s.sh.calls[i]? with
  | none =>
    rw [show turn s.sh (.go i) = s.sh by simp only [turn, hc]]
    exact ⟨le, le1, fit, alive, load, fresh, fresh', range, inj, wire, kept, own, above, order, here, (noOver (by simp [hc])).trans over, count, ready⟩
  | some pc =>
  cases pc with
  | start =>
    rw [show turn s.sh (.go i) = { s.sh with calls := s.sh.calls.set i (.loaded s.sh.cseq) } by simp only [turn, hc]]
    have num : ∀ j c : Nat, HasNum { s.sh with calls := s.sh.calls.set i (.loaded s.sh.cseq) } j c ↔ HasNum s.sh j c := by
      intro j c
      by_cases e : i = j
      · subst e; simp [HasNum, set_get hc, hc]
      · simp [HasNum, List.getElem?_set_ne e]
    have dn : ∀ j c : Nat, (s.sh.calls.set i (.loaded s.sh.cseq))[j]? = some (.done c) ↔ s.sh.calls[j]? = some (.done c) := by
      intro j c
      by_cases e : i = j
      · subst e; simp [set_get hc, hc]
      · rw [List.getElem?_set_ne e]
    refine ⟨le, le1, fit, ?_, ?_, ?_, ?_, fun j c hj => range j c ((num j c).1 hj), fun j k c h1 h2 => inj j k c ((num j c).1 h1) ((num k c).1 h2),
      fun c j => (wire c j).trans (dn j c).symm, fun c j hj => (num j c).2 (kept c j hj), ?_, above, fun k k' m j c h1 h2 h3 h4 => order k k' m j c h1 h2 h3 ((num j c).1 h4),
      fun j c h1 h2 => here j c h1 ((num j c).1 h2), ?_, count, ready⟩
    · intro j hj
      by_cases e : i = j
      · subst e; exact ⟨_, set_get hc⟩
      · obtain ⟨a, ha⟩ := alive j hj
        exact ⟨a, by show (s.sh.calls.set i _)[j]? = _; rw [List.getElem?_set_ne e]; exact ha⟩
    · intro j v hj
      rcases get_set hj with ⟨_, hv⟩ | ⟨_, hj⟩
      · injection hv
      · exact load j v hj
    · intro j hj k c hk
      rcases get_set hj with ⟨_, hv⟩ | ⟨_, hj⟩
      · cases hv
      · exact fresh j hj k c ((num k c).1 hk)
    · intro j h1 hj
      rcases get_set hj with ⟨_, hv⟩ | ⟨_, hj⟩
      · cases hv
      · exact fresh' j h1 hj
    · intro k j m h1 h2
      obtain ⟨c, h3, h4⟩ := own k j m h1 h2
      exact ⟨c, (dn j c).2 h3, h4⟩
    · rw [noOver (by simp [hc]), over]
      simp only [dn, num]
  | loaded v =>
    rw [show turn s.sh (.go i) = { s.sh with cseq := v + 1, calls := s.sh.calls.set i .counted } by simp only [turn, hc]]
    obtain rfl := load i v hc
    have num : ∀ j c : Nat, HasNum { s.sh with cseq := s.sh.cseq + 1, calls := s.sh.calls.set i .counted } j c ↔ HasNum s.sh j c := by
      intro j c
      by_cases e : i = j
      · subst e; simp [HasNum, set_get hc, hc]
      · simp [HasNum, List.getElem?_set_ne e]
    have dn : ∀ j c : Nat, (s.sh.calls.set i .counted)[j]? = some (.done c) ↔ s.sh.calls[j]? = some (.done c) := by
      intro j c
      by_cases e : i = j
      · subst e; simp [set_get hc, hc]
      · rw [List.getElem?_set_ne e]
    refine ⟨le, le1, fit, ?_, ?_, ?_, ?_, fun j c hj => Nat.le_succ_of_le (range j c ((num j c).1 hj)), fun j k c h1 h2 => inj j k c ((num j c).1 h1) ((num k c).1 h2),
      fun c j => (wire c j).trans (dn j c).symm, fun c j hj => (num j c).2 (kept c j hj), ?_, fun m hm => Nat.le_succ_of_le (above m hm),
      fun k k' m j c h1 h2 h3 h4 => order k k' m j c h1 h2 h3 ((num j c).1 h4), fun j c h1 h2 => here j c h1 ((num j c).1 h2), ?_, count, ready⟩
    · intro j hj
      by_cases e : i = j
      · subst e; exact ⟨_, set_get hc⟩
      · obtain ⟨a, ha⟩ := alive j hj
        exact ⟨a, by show (s.sh.calls.set i _)[j]? = _; rw [List.getElem?_set_ne e]; exact ha⟩
    · intro j v hj
      rcases get_set hj with ⟨_, hv⟩ | ⟨e, hj⟩
      · cases hv
      · exact absurd (hx i j _ _ hc hj trivial trivial) e
    · intro j hj k c hk
      exact Nat.lt_succ_of_le (range k c ((num k c).1 hk))
    · intro j h1 hj m hm
      exact Nat.lt_succ_of_le (above m hm)
    · intro k j m h1 h2
      obtain ⟨c, h3, h4⟩ := own k j m h1 h2
      exact ⟨c, (dn j c).2 h3, h4⟩
    · rw [over]
      simp only [dn, num]
      constructor
      · rintro ((h | ⟨j, c, h1, h2, h3⟩) | ⟨_, _, j, c, h1, h2⟩)
        · exact .inl h
        · exact .inr ⟨j, c, h1, h2, Nat.lt_succ_of_lt h3⟩
        · exact .inr ⟨j, c, h1, h2, Nat.lt_succ_of_le (range j c h2)⟩
      · rintro (h | ⟨j, c, h1, h2, h3⟩)
        · exact .inl (.inl h)
        · rcases hi with hi | hi
          · exact .inr ⟨hi, ⟨_, hc⟩, j, c, h1, h2⟩
          · rw [hi] at h1; injection h1 with h1; subst h1
            rcases h2 with h2 | h2 <;> (rw [hc] at h2; cases h2)
  | counted =>
    rw [show turn s.sh (.go i) = { s.sh with calls := s.sh.calls.set i (.queued s.sh.cseq), queue := (s.sh.queue.filter fun e => e.1 ≠ s.sh.cseq) ++ [(s.sh.cseq, i)] } by simp only [turn, hc]]
    have num : ∀ j c : Nat, HasNum { s.sh with calls := s.sh.calls.set i (.queued s.sh.cseq), queue := (s.sh.queue.filter fun e => e.1 ≠ s.sh.cseq) ++ [(s.sh.cseq, i)] } j c ↔
        HasNum s.sh j c ∨ (j = i ∧ c = s.sh.cseq) := by
      intro j c
      by_cases e : i = j
      · subst e; simp [HasNum, set_get hc, hc, eq_comm]
      · simp [HasNum, List.getElem?_set_ne e, Ne.symm e]
    have dn : ∀ j c : Nat, (s.sh.calls.set i (.queued s.sh.cseq))[j]? = some (.done c) ↔ s.sh.calls[j]? = some (.done c) := by
      intro j c
      by_cases e : i = j
      · subst e; simp [set_get hc, hc]
      · rw [List.getElem?_set_ne e]
    have lt := fresh i hc
    have qs : ∀ c j : Nat, (c, j) ∈ (s.sh.queue.filter fun e => e.1 ≠ s.sh.cseq) ++ [(s.sh.cseq, i)] ↔ (c, j) ∈ s.sh.queue ∨ (c = s.sh.cseq ∧ j = i) := by
      intro c j
      rw [List.mem_append, List.mem_filter, List.mem_singleton, Prod.mk.injEq]
      refine or_congr ⟨fun h => h.1, fun h => ⟨h, ?_⟩⟩ Iff.rfl
      have := lt j c (kept c j h)
      simpa using Nat.ne_of_lt this
    refine ⟨le, le1, fit, ?_, ?_, ?_, ?_, ?_, ?_,
      fun c j => (wire c j).trans (dn j c).symm, ?_, ?_, above, ?_, ?_, ?_, ?_, ready⟩
    · intro j hj
      by_cases e : i = j
      · subst e; exact ⟨_, set_get hc⟩
      · obtain ⟨a, ha⟩ := alive j hj
        exact ⟨a, by show (s.sh.calls.set i _)[j]? = _; rw [List.getElem?_set_ne e]; exact ha⟩
    · intro j v hj
      rcases get_set hj with ⟨_, hv⟩ | ⟨_, hj⟩
      · cases hv
      · exact load j v hj
    · intro j hj
      rcases get_set hj with ⟨_, hv⟩ | ⟨e, hj⟩
      · cases hv
      · exact absurd (hx i j _ _ hc hj trivial trivial) e
    · intro j h1 hj
      rcases get_set hj with ⟨_, hv⟩ | ⟨_, hj⟩
      · cases hv
      · exact fresh' j h1 hj
    · intro j c hj
      rcases (num j c).1 hj with hj | ⟨_, rfl⟩
      · exact range j c hj
      · exact Nat.le_refl _
    · intro j k c h1 h2
      rcases (num j c).1 h1 with h1 | ⟨rfl, rfl⟩ <;> rcases (num k _).1 h2 with h2 | ⟨h2, h3⟩
      · exact inj j k c h1 h2
      · subst h3; exact absurd (lt j _ h1) (Nat.lt_irrefl _)
      · exact absurd (lt k _ h2) (Nat.lt_irrefl _)
      · exact h2.symm
    · intro c j hj
      rcases (qs c j).1 hj with hj | ⟨rfl, rfl⟩
      · exact (num j c).2 (.inl (kept c j hj))
      · exact (num _ _).2 (.inr ⟨rfl, rfl⟩)
    · intro k j m h1 h2
      obtain ⟨c, h3, h4⟩ := own k j m h1 h2
      exact ⟨c, (dn j c).2 h3, h4⟩
    · intro k k' m j c h1 h2 h3 h4
      rcases (num j c).1 h4 with h4 | ⟨rfl, rfl⟩
      · exact order k k' m j c h1 h2 h3 h4
      · exact fresh' j (mineOf k' j h3 rfl) hc m (List.mem_of_getElem? h1)
    · intro j c h1 h2
      rcases (num j c).1 h2 with h2 | ⟨rfl, rfl⟩
      · exact (qs c j).2 (.inl (here j c h1 h2))
      · exact (qs _ _).2 (.inr ⟨rfl, rfl⟩)
    · rw [noOver (by simp [hc]), over]
      simp only [dn, num]
      refine or_congr Iff.rfl ⟨fun ⟨j, c, h1, h2, h3⟩ => ⟨j, c, h1, .inl h2, h3⟩, ?_⟩
      rintro ⟨j, c, h1, h2 | ⟨rfl, rfl⟩, h3⟩
      · exact ⟨j, c, h1, h2, h3⟩
      · exact absurd h3 (Nat.lt_irrefl _)
    · rw [count]
      congr 1
      apply List.filter_congr
      intro m _
      rw [decide_eq_decide]
      unfold Met
      refine exists_congr fun j => and_congr_right fun hj => and_congr_right fun hw => not_congr ?_
      show _ ↔ (m, j) ∈ (s.sh.queue.filter fun e => e.1 ≠ s.sh.cseq) ++ [(s.sh.cseq, i)]
      rw [qs]
      refine (or_iff_left ?_).symm
      rintro ⟨_, rfl⟩
      rw [wire, hc] at hw
      cases hw
  | queued q =>
    rw [show turn s.sh (.go i) = { s.sh with calls := s.sh.calls.set i (.done q), wire := (q, i) :: s.sh.wire } by simp only [turn, hc]]
    have num : ∀ j c : Nat, HasNum { s.sh with calls := s.sh.calls.set i (.done q), wire := (q, i) :: s.sh.wire } j c ↔ HasNum s.sh j c := by
      intro j c
      by_cases e : i = j
      · subst e; simp [HasNum, set_get hc, hc]
      · simp [HasNum, List.getElem?_set_ne e]
    have dn : ∀ j c : Nat, (s.sh.calls.set i (.done q))[j]? = some (.done c) ↔ s.sh.calls[j]? = some (.done c) ∨ (j = i ∧ c = q) := by
      intro j c
      by_cases e : i = j
      · subst e; simp [set_get hc, hc, eq_comm]
      · rw [List.getElem?_set_ne e]; simp [Ne.symm e]
    have notOld : ∀ k m : Nat, s.mine[k]? = some i → s.noted[k]? = some m → False := by
      intro k m h1 h2
      obtain ⟨c, h3, _⟩ := own k i m h1 h2
      rw [hc] at h3; cases h3
    refine ⟨le, le1, fit, ?_, ?_, ?_, ?_, fun j c hj => range j c ((num j c).1 hj), fun j k c h1 h2 => inj j k c ((num j c).1 h1) ((num k c).1 h2),
      ?_, fun c j hj => (num j c).2 (kept c j hj), ?_, above, fun k k' m j c h1 h2 h3 h4 => order k k' m j c h1 h2 h3 ((num j c).1 h4),
      fun j c h1 h2 => here j c h1 ((num j c).1 h2), ?_, ?_, ready⟩
    · intro j hj
      by_cases e : i = j
      · subst e; exact ⟨_, set_get hc⟩
      · obtain ⟨a, ha⟩ := alive j hj
        exact ⟨a, by show (s.sh.calls.set i _)[j]? = _; rw [List.getElem?_set_ne e]; exact ha⟩
    · intro j v hj
      rcases get_set hj with ⟨_, hv⟩ | ⟨_, hj⟩
      · cases hv
      · exact load j v hj
    · intro j hj k c hk
      rcases get_set hj with ⟨_, hv⟩ | ⟨_, hj⟩
      · cases hv
      · exact fresh j hj k c ((num k c).1 hk)
    · intro j h1 hj
      rcases get_set hj with ⟨_, hv⟩ | ⟨_, hj⟩
      · cases hv
      · exact fresh' j h1 hj
    · intro c j
      show (c, j) ∈ (q, i) :: s.sh.wire ↔ (s.sh.calls.set i (.done q))[j]? = some (.done c)
      rw [List.mem_cons, wire, dn, Prod.mk.injEq, or_comm, and_comm]
    · intro k j m h1 h2
      obtain ⟨c, h3, h4⟩ := own k j m h1 h2
      exact ⟨c, (dn j c).2 (.inl h3), h4⟩
    · rw [noOver (by simp [hc]), over]
      simp only [dn, num]
      refine or_congr ⟨fun ⟨k, j, m, c, h1, h2, h3, h4⟩ => ⟨k, j, m, c, h1, h2, .inl h3, h4⟩, ?_⟩ Iff.rfl
      rintro ⟨k, j, m, c, h1, h2, h3 | ⟨rfl, rfl⟩, h4⟩
      · exact ⟨k, j, m, c, h1, h2, h3, h4⟩
      · exact absurd h2 fun h2 => notOld k m h1 h2
    · rw [count]
      congr 1
      apply List.filter_congr
      intro m hm
      rw [decide_eq_decide]
      unfold Met
      refine exists_congr fun j => and_congr_right fun hj => ?_
      show _ ↔ (m, j) ∈ (q, i) :: s.sh.wire ∧ (m, j) ∉ s.sh.queue
      rw [List.mem_cons, Prod.mk.injEq]
      refine ⟨fun h => ⟨.inr h.1, h.2⟩, ?_⟩
      rintro ⟨⟨rfl, rfl⟩ | h, h2⟩
      · obtain ⟨k, hk⟩ := List.mem_iff_getElem?.1 hj
        exact absurd (here j m (mineOf k j hk rfl) (.inl hc)) h2
      · exact ⟨h, h2⟩
  | done q =>
    rw [show turn s.sh (.go i) = s.sh by simp only [turn, hc]]
    exact ⟨le, le1, fit, alive, load, fresh, fresh', range, inj, wire, kept, own, above, order, here, (noOver (by simp [hc])).trans over, count, ready⟩

theorem Beat.call {s : Setting} {o : Prop} (h : Beat s o) : Beat { s with sh := turn s.sh .call } o := by
  obtain ⟨le, le1, fit, alive, load, fresh, fresh', range, inj, wire, kept, own, above, order, here, over, count, ready⟩ := h
  have num := num_call s.sh
  have dn : ∀ j c : Nat, (turn s.sh .call).calls[j]? = some (.done c) ↔ s.sh.calls[j]? = some (.done c) :=
    fun j c => ⟨fun h => (get_snoc h).resolve_right (by simp), get_grow⟩
  refine ⟨le, le1, fit, fun i hi => (alive i hi).imp fun a h => get_grow h, fun i v hi => load i v ((get_snoc hi).resolve_right (by simp)),
    fun i hi j c hj => fresh i ((get_snoc hi).resolve_right (by simp)) j c ((num j c).1 hj), fun i h1 hi => fresh' i h1 ((get_snoc hi).resolve_right (by simp)),
    fun j c hj => range j c ((num j c).1 hj), fun j k c h1 h2 => inj j k c ((num j c).1 h1) ((num k c).1 h2), fun c j => (wire c j).trans (dn j c).symm,
    fun c j hj => (num j c).2 (kept c j hj), ?_, above, fun k k' m j c h1 h2 h3 h4 => order k k' m j c h1 h2 h3 ((num j c).1 h4),
    fun j c h1 h2 => here j c h1 ((num j c).1 h2), ?_, count, ready⟩
  · intro k j m h1 h2
    obtain ⟨c, h3, h4⟩ := own k j m h1 h2
    exact ⟨c, (dn j c).2 h3, h4⟩
  · rw [over]
    simp only [dn, num]
    exact Iff.rfl

theorem Beat.begin {s : Setting} {o : Prop} (h : Beat s o) (hf : s.noted.length < s.feeds) (hn : s.mine[s.noted.length]? = none) : Beat { s with sh := turn s.sh .call, mine := s.mine ++ [s.sh.calls.length] } o := by
  have hl : s.mine.length = s.noted.length := Nat.le_antisymm (List.getElem?_eq_none_iff.1 hn) h.le
  have hnew : ∀ c, ¬ HasNum s.sh s.sh.calls.length c := by rintro c (h | h) <;> exact absurd (get_lt h) (Nat.lt_irrefl _)
  have hg : ∀ k i : Nat, (s.mine ++ [s.sh.calls.length])[k]? = some i → s.mine[k]? = some i ∨ (k = s.noted.length ∧ i = s.sh.calls.length) := by
    intro k i h1
    by_cases hk : k < s.mine.length
    · rw [List.getElem?_append_left hk] at h1; exact .inl h1
    · have : k = s.mine.length := by have := get_lt h1; simp at this; omega
      subst this
      simp at h1
      exact .inr ⟨hl, h1.symm⟩
  have hm : ∀ k i : Nat, s.mine[k]? = some i → (s.mine ++ [s.sh.calls.length])[k]? = some i := by
    intro k i h; rw [List.getElem?_append_left (get_lt h)]; exact h
  obtain ⟨le, le1, fit, alive, load, fresh, fresh', range, inj, wire, kept, own, above, order, here, over, count, ready⟩ := h.call
  have num := num_call s.sh
  refine ⟨?_, ?_, ?_, ?_, load, fresh, ?_, range, inj, wire, kept, ?_, above, ?_, ?_, ?_, ?_, ready⟩
  · simp; omega
  · simp; omega
  · simp; omega
  · intro i hi
    rcases hg _ _ hi with hi | ⟨_, rfl⟩
    · exact alive i hi
    · exact ⟨.start, by show (s.sh.calls ++ [_])[_]? = _; simp⟩
  · intro i hi hc
    rcases hg _ _ hi with hi | ⟨_, rfl⟩
    · exact fresh' i hi hc
    · exact absurd (show (s.sh.calls ++ [Pc.start])[s.sh.calls.length]? = some .counted from hc) (by simp)
  · intro k i m h1 h2
    rcases hg _ _ h1 with h1 | ⟨rfl, _⟩
    · exact own k i m h1 h2
    · exact absurd (get_lt h2) (Nat.lt_irrefl _)
  · intro k k' m i c h1 h2 h3 h4
    rcases hg _ _ h3 with h3 | ⟨_, rfl⟩
    · exact order k k' m i c h1 h2 h3 h4
    · exact absurd ((num _ c).1 h4) (hnew c)
  · intro i c h1 h2
    rcases hg _ _ h1 with h1 | ⟨_, rfl⟩
    · exact here i c h1 h2
    · exact absurd ((num _ c).1 h2) (hnew c)
  · rw [over]
    refine or_congr ⟨fun ⟨k, i, m, c, h1, h2⟩ => ⟨k, i, m, c, hm k i h1, h2⟩, ?_⟩ ⟨fun ⟨i, c, h1, h2⟩ => ⟨i, c, hm _ i h1, h2⟩, ?_⟩
    · rintro ⟨k, i, m, c, h1, h2, h3⟩
      rcases hg _ _ h1 with h1 | ⟨rfl, _⟩
      · exact ⟨k, i, m, c, h1, h2, h3⟩
      · exact absurd (get_lt h2) (Nat.lt_irrefl _)
    · rintro ⟨i, c, h1, h2, h3⟩
      rcases hg _ _ h1 with h1 | ⟨_, rfl⟩
      · exact ⟨i, c, h1, h2, h3⟩
      · exact absurd ((num _ c).1 h2) (hnew c)
  · rw [count]
    congr 1
    apply List.filter_congr
    intro m _
    rw [decide_eq_decide]
    constructor
    · rintro ⟨i, h1, h2⟩
      exact ⟨i, List.mem_append_left _ h1, h2⟩
    · rintro ⟨i, h1, h2⟩
      rcases List.mem_append.1 h1 with h1 | h1
      · exact ⟨i, h1, h2⟩
      · rw [List.mem_singleton.1 h1] at h2
        exact absurd ((num _ m).1 (.inr ((wire m _).1 h2.1))) (hnew m)

theorem Beat.note {s : Setting} {o : Prop} (h : Beat s o) {i c : Nat} (hi : s.mine[s.noted.length]? = some i) (hd : s.sh.calls[i]? = some (.done c)) :
    Beat { s with noted := s.noted ++ [s.sh.cseq] } o := by
  obtain ⟨le, le1, fit, alive, load, fresh, fresh', range, inj, wire, kept, own, above, order, here, over, count, ready⟩ := h
  have hlt := get_lt hi
  have hc := range i c (.inr hd)
  have hnone : s.mine[(s.noted ++ [s.sh.cseq]).length]? = none := List.getElem?_eq_none (by simp; omega)
  have split : ∀ k m : Nat, (s.noted ++ [s.sh.cseq])[k]? = some m → s.noted[k]? = some m ∨ (k = s.noted.length ∧ m = s.sh.cseq) := by
    intro k m hm
    by_cases e : k < s.noted.length
    · rw [List.getElem?_append_left e] at hm; exact .inl hm
    · have : k = s.noted.length := by have := get_lt hm; simp at this; omega
      subst this
      simp at hm
      exact .inr ⟨rfl, hm.symm⟩
  have grow : ∀ k m : Nat, s.noted[k]? = some m → (s.noted ++ [s.sh.cseq])[k]? = some m := by
    intro k m h; rw [List.getElem?_append_left (get_lt h)]; exact h
  have noCur : ∀ {j : Nat} {P : Prop}, s.mine[(s.noted ++ [s.sh.cseq]).length]? = some j → P := by
    intro j P hj; rw [hnone] at hj; cases hj
  refine ⟨?_, ?_, fit, fun j hj => noCur hj, load, fresh, fun j hj => noCur hj, range, inj, wire, kept, ?_, ?_, ?_, fun j d hj => noCur hj, ?_, ?_, ready⟩
  · simp; omega
  · simp; omega
  · intro k j m hk hm
    rcases split k m hm with hm | ⟨rfl, rfl⟩
    · exact own k j m hk hm
    · rw [hi] at hk; injection hk with hk; subst hk
      exact ⟨c, hd, hc⟩
  · intro m hm
    rcases List.mem_append.1 hm with hm | hm
    · exact above m hm
    · rw [List.mem_singleton.1 hm]; exact Nat.le_refl _
  · intro k k' m j d h1 h2 h3 h4
    rcases split k m h1 with h1 | ⟨rfl, rfl⟩
    · exact order k k' m j d h1 h2 h3 h4
    · have : k' < s.mine.length := get_lt h3
      omega
  · rw [over]
    constructor
    · rintro (⟨k, j, m, d, h1, h2, h3⟩ | ⟨j, d, h1, h2, h3⟩)
      · exact .inl ⟨k, j, m, d, h1, grow k m h2, h3⟩
      · rw [hi] at h1; injection h1 with h1; subst h1
        have : d = c := by
          rcases h2 with h2 | h2
          · rw [hd] at h2; cases h2
          · rw [hd] at h2; injection h2 with h2; injection h2 with h2; exact h2.symm
        subst this
        exact .inl ⟨_, i, s.sh.cseq, d, hi, by simp, hd, h3⟩
    · rintro (⟨k, j, m, d, h1, h2, h3, h4⟩ | ⟨j, d, h1, h2⟩)
      · rcases split k m h2 with h2 | ⟨rfl, rfl⟩
        · exact .inl ⟨k, j, m, d, h1, h2, h3, h4⟩
        · exact .inr ⟨j, d, h1, .inr h3, h4⟩
      · exact noCur h1
  · show s.idx = ((s.noted ++ [s.sh.cseq]).filter fun m => decide (Met s m)).length
    rw [List.filter_append, List.length_append, ← count]
    have : ¬ Met s s.sh.cseq := by
      rintro ⟨j, h1, h2, h3⟩
      obtain ⟨k, hk⟩ := List.mem_iff_getElem?.1 h1
      rw [wire] at h2
      by_cases e : k < s.noted.length
      · have hm := List.getElem?_eq_getElem e
        obtain ⟨d, h4, h5⟩ := own k j _ hk hm
        rw [h2] at h4; injection h4 with h4; injection h4 with h4
        have := order k _ _ i c hm e hi (.inr hd)
        omega
      · have : k = s.noted.length := by have := get_lt hk; omega
        subst this
        exact h3 (here j _ hk (.inr h2))
    rw [List.filter_cons_of_neg (by simpa using this)]
    rfl

theorem Beat.incr {s : Setting} {o : Prop} (h : Beat s o) : s.noted.Nodup := by
  rw [List.nodup_iff_pairwise_ne, List.pairwise_iff_getElem]
  intro k k' h1 h2 hlt
  have hm : k' < s.mine.length := Nat.lt_of_lt_of_le h2 h.le
  obtain ⟨c, h3, h4⟩ := h.own k' _ _ (List.getElem?_eq_getElem hm) (List.getElem?_eq_getElem h2)
  have := h.order k k' _ _ c (List.getElem?_eq_getElem h1) hlt (List.getElem?_eq_getElem hm) (.inr h3)
  omega

theorem count_insert (l : List Nat) (P Q : Nat → Bool) (c : Nat) (hp : P c = false) (hq : Q c = true) (h : ∀ m, m ≠ c → P m = Q m) :
    (l.filter Q).length = (l.filter P).length + l.count c := by
  induction l with
  | nil => rfl
  | cons m l ih =>
    by_cases e : m = c
    · subst e
      rw [List.filter_cons_of_pos hq, List.filter_cons_of_neg (by simp [hp]), List.count_cons_self, List.length_cons, ih]; omega
    · rw [List.filter_cons, List.filter_cons, List.count_cons_of_ne e, h m e]
      split
      · rw [List.length_cons, List.length_cons, ih]; omega
      · exact ih

theorem Beat.answer {s : Setting} {o : Prop} (h : Beat s o) (c : Nat) : Beat (sturn s (.answer c)) o := by
  unfold sturn
  dsimp only
  split
  · exact h
  · rename_i hlen
    split
    · exact h
    · rename_i e he
      obtain ⟨le, le1, fit, alive, load, fresh, fresh', range, inj, wire, kept, own, above, order, here, over, count, ready⟩ := h
      have hmem : e ∈ s.sh.queue := List.mem_of_find?_eq_some he
      have hkey : e.1 = c := by simpa using List.find?_some he
      obtain ⟨c', i⟩ := e
      dsimp only at hkey
      subst hkey
      have hnone : s.mine[s.noted.length]? = none := List.getElem?_eq_none (by omega)
      have noCur : ∀ {j : Nat} {P : Prop}, s.mine[s.noted.length]? = some j → P := by
        intro j P hj; rw [hnone] at hj; cases hj
      have kept' : ∀ d i : Nat, (d, i) ∈ (turn s.sh (.dequeue c')).queue → HasNum (turn s.sh (.dequeue c')) i d :=
        fun d i hd => kept d i (List.mem_filter.1 hd).1
      have over' : o ↔ (∃ k i m c : Nat, s.mine[k]? = some i ∧ s.noted[k]? = some m ∧ s.sh.calls[i]? = some (.done c) ∧ c < m) ∨
          ∃ i c : Nat, s.mine[s.noted.length]? = some i ∧ HasNum (turn s.sh (.dequeue c')) i c ∧ c < s.sh.cseq := over
      have same : ∀ m, m ≠ c' → decide (Met s m) = decide (Met { s with sh := turn s.sh (.dequeue c') } m) := by
        intro m hm
        rw [decide_eq_decide]
        refine exists_congr fun j => and_congr_right fun _ => and_congr_right fun _ => not_congr ?_
        show _ ↔ (m, j) ∈ s.sh.queue.filter fun e => e.1 ≠ c'
        rw [List.mem_filter]
        simp [hm]
      split
      · rename_i him
        have him : i ∈ s.mine := him
        have h0 : ¬ Met s c' := by
          rintro ⟨j, h1, h2, h3⟩
          rw [inj j i c' (.inr ((wire c' j).1 h2)) (kept c' i hmem)] at h3
          exact h3 hmem
        have h1 : Met { s with sh := turn s.sh (.dequeue c') } c' := by
          obtain ⟨k, hk⟩ := List.mem_iff_getElem?.1 him
          have hkl : k < s.noted.length := by have := get_lt hk; omega
          obtain ⟨d, h3, _⟩ := own k i _ hk (List.getElem?_eq_getElem hkl)
          have hd : d = c' := by
            rcases kept c' i hmem with h | h
            · rw [h3] at h; cases h
            · rw [h3] at h; injection h with h; injection h
          subst hd
          refine ⟨i, him, (wire d i).2 h3, ?_⟩
          show (d, i) ∉ s.sh.queue.filter fun e => e.1 ≠ d
          rw [List.mem_filter]
          simp
        have hcount : s.idx + s.noted.count c' = (s.noted.filter fun m => decide (Met { s with sh := turn s.sh (.dequeue c') } m)).length := by
          rw [count_insert s.noted (fun m => decide (Met s m)) _ c' (by simpa using h0) (by simpa using h1) same, ← count]
        refine ⟨le, le1, fit, fun j hj => noCur hj, load, fresh, fun j hj => noCur hj, range, inj, wire, kept', own, above, order, fun j d hj => noCur hj, over', hcount, ?_⟩
        intro hf
        have := ready hf
        show (s.ready || decide _) = true ↔ s.feeds ≤ s.idx + s.noted.count c'
        rw [Bool.or_eq_true, decide_eq_true_iff, this]
        omega
      · rename_i him
        have him : i ∉ s.mine := him
        have hcount : s.idx = (s.noted.filter fun m => decide (Met { s with sh := turn s.sh (.dequeue c') } m)).length := by
          rw [count]
          congr 1
          apply List.filter_congr
          intro m _
          by_cases e : m = c'
          · subst e
            rw [decide_eq_decide]
            have hno : ∀ j, j ∈ s.mine → (m, j) ∉ s.sh.wire := by
              intro j h1 h2
              exact him (inj j i m (.inr ((wire m j).1 h2)) (kept m i hmem) ▸ h1)
            exact ⟨fun ⟨j, h1, h2, _⟩ => absurd h2 (hno j h1), fun ⟨j, h1, h2, _⟩ => absurd h2 (hno j h1)⟩
          · exact same m e
        exact ⟨le, le1, fit, fun j hj => noCur hj, load, fresh, fun j hj => noCur hj, range, inj, wire, kept', own, above, order, fun j d hj => noCur hj, over', hcount, ready⟩

/-- At most one call is between reading the counter and taking its number. -/
theorem apart_calls {l : List Pc} (h : (l.filter fun a => decide (Mid a)).length ≤ 1) {i j : Nat} {a b : Pc} (hi : l[i]? = some a) (hj : l[j]? = some b)
    (ha : Mid a) (hb : Mid b) : i = j := by
  induction l generalizing i j with
  | nil => cases hi
  | cons x t ih =>
    by_cases hx : Mid x
    · rw [List.filter_cons_of_pos (by simpa using hx), List.length_cons] at h
      have h0 : t.filter (fun a => decide (Mid a)) = [] := List.length_eq_zero_iff.1 (by omega)
      have no : ∀ (k : Nat) (c : Pc), t[k]? = some c → Mid c → False := fun k c hk hc =>
        absurd (h0 ▸ List.mem_filter.2 ⟨List.mem_of_getElem? hk, by simpa using hc⟩ : c ∈ ([] : List Pc)) List.not_mem_nil
      cases i with
      | zero =>
        cases j with
        | zero => rfl
        | succ j => exact (no j b hj hb).elim
      | succ i => exact (no i a hi ha).elim
    · rw [List.filter_cons_of_neg (by simpa using hx)] at h
      cases i with
      | zero => injection hi with hi; subst hi; exact absurd ha hx
      | succ i =>
        cases j with
        | zero => injection hj with hj; subst hj; exact absurd hb hx
        | succ j => rw [ih h hi hj]

theorem overtaken_snoc (s : Setting) (ts : List STurn) (t : STurn) :
    Overtaken s (ts ++ [t]) ↔ Overtaken s ts ∨ ∃ j, t = .go j ∧ Overtakes (sturns s ts) j := by
  constructor
  · rintro ⟨p, j, hp, h⟩
    rcases List.prefix_concat_iff.1 (by simpa using hp) with e | hp
    · obtain ⟨e1, e2⟩ := List.append_inj' e rfl
      subst e1
      injection e2 with e2
      exact .inr ⟨j, e2.symm, h⟩
    · exact .inl ⟨p, j, hp, h⟩
  · rintro (⟨p, j, hp, h⟩ | ⟨j, rfl, h⟩)
    · exact ⟨p, j, hp.trans (List.prefix_append _ _), h⟩
    · exact ⟨ts, j, List.prefix_refl _, h⟩

theorem beat (c n : Nat) (ts : List STurn) : CallsApart (settingUp c n) ts → Beat (sturns (settingUp c n) ts) (Overtaken (settingUp c n) ts) := by
  refine snoc_induct (P := fun ts => CallsApart (settingUp c n) ts → Beat (sturns (settingUp c n) ts) (Overtaken (settingUp c n) ts)) ?_ ?_ ts
  · intro _
    have hno : ¬ Overtaken (settingUp c n) [] := by
      rintro ⟨p, j, h, _⟩
      have := h.length_le
      simp at this
    refine ⟨?_, ?_, ?_, ?_, ?_, ?_, ?_, ?_, ?_, ?_, ?_, ?_, ?_, ?_, ?_, ?_, ?_, ?_⟩ <;> simp [sturns, settingUp, HasNum] <;> first | exact hno | omega
  · intro ts t ih hu
    have ih := ih fun p hp => hu p (hp.trans (List.prefix_append _ _))
    have hx := fun (i j : Nat) (a b : Pc) h1 h2 => apart_calls (i := i) (j := j) (a := a) (b := b) (hu ts (List.prefix_append _ _)) h1 h2
    have ho := overtaken_snoc (settingUp c n) ts t
    rw [sturns_snoc]
    generalize Overtaken (settingUp c n) (ts ++ [t]) = o' at ho
    generalize Overtaken (settingUp c n) ts = o at ho ih
    generalize sturns (settingUp c n) ts = s at ho ih hx
    have plain : (∀ j, t ≠ .go j) → o' = o := fun h => propext (ho.trans (or_iff_left fun ⟨j, e, _⟩ => h j e))
    cases t with
    | call => rw [plain (by simp)]; exact ih.call
    | go i =>
      have : o' = (o ∨ Overtakes s i) := propext (ho.trans (or_congr Iff.rfl ⟨fun ⟨j, e, h⟩ => by (injection e with e; rw [e]; exact h), fun h => ⟨i, rfl, h⟩⟩))
      rw [this]
      show Beat (if i ∈ s.mine then s else _) _
      split
      · rename_i hi
        rw [show (o ∨ Overtakes s i) = o from propext (or_iff_left fun h => h.1 hi)]
        exact ih
      · rename_i hi; exact ih.go (.inl hi) hx
    | answer c => rw [plain (by simp)]; exact ih.answer c
    | setup =>
      rw [plain (by simp)]
      unfold sturn
      dsimp only
      split
      · rename_i hf
        split
        · rename_i hn; exact ih.begin hf hn
        · rename_i i hi
          split
          · rename_i d hd; exact ih.note hi hd
          · have := ih.go (.inr hi) hx
            rwa [show (o ∨ Overtakes s i) = o from propext (or_iff_left fun h => h.1 (List.mem_of_getElem? hi))] at this
      · exact ih

/-- **C127**, exact: for calls of `command` that do not overlap, when `Setup` has returned, the session is reported ready if and only if the request of every
stream has been answered and no other goroutine counted a request between the counting and the noting of one of `Setup`. -/
theorem C127_iff (c n : Nat) (ts : List STurn) (h : CallsApart (settingUp c n) ts) (hn : 0 < n) (ho : SetupOver (sturns (settingUp c n) ts)) :
    (sturns (settingUp c n) ts).ready = true ↔
      ¬ Overtaken (settingUp c n) ts ∧ ∀ i ∈ (sturns (settingUp c n) ts).mine, AnswerTaken (sturns (settingUp c n) ts) i := by
  have hb := beat c n ts h
  have hf : (sturns (settingUp c n) ts).feeds = n := sturns_feeds _ _
  generalize sturns (settingUp c n) ts = s at *
  subst hf
  have ho : s.noted.length = s.feeds := ho
  have hml : s.mine.length = s.noted.length := by have := hb.le; have := hb.fit; omega
  have hnone : s.mine[s.noted.length]? = none := List.getElem?_eq_none (by omega)
  rw [hb.ready hn, hb.over, hb.count, ← ho]
  have hall : s.noted.length ≤ (s.noted.filter fun m => decide (Met s m)).length ↔ ∀ m ∈ s.noted, Met s m := by
    rw [← List.countP_eq_length_filter]
    have := List.countP_le_length (p := fun m => decide (Met s m)) (l := s.noted)
    refine ⟨fun h => ?_, fun h => ?_⟩
    · have := List.countP_eq_length.1 (Nat.le_antisymm this h)
      intro m hm; simpa using this m hm
    · rw [List.countP_eq_length.2 (fun m hm => by simpa using h m hm)]; exact Nat.le_refl _
  rw [hall]
  constructor
  · intro hm
    -- each number noted is that of its own request
    have mine : ∀ k i m d : Nat, s.mine[k]? = some i → s.noted[k]? = some m → s.sh.calls[i]? = some (.done d) → d = m ∧ (m, i) ∉ s.sh.queue := by
      intro k i m d h1 h2 h3
      obtain ⟨j, hj, h4, h5⟩ := hm m (List.mem_of_getElem? h2)
      rw [hb.wire] at h4
      obtain ⟨k', hk'⟩ := List.mem_iff_getElem?.1 hj
      have hk2 : k' < s.noted.length := by have := get_lt hk'; omega
      rcases Nat.lt_trichotomy k k' with e | e | e
      · exact absurd (hb.order k k' m j m h2 e hk' (.inr h4)) (Nat.lt_irrefl _)
      · subst e
        rw [h1] at hk'; injection hk' with hk'; subst hk'
        rw [h3] at h4; injection h4 with h4; injection h4 with h4
        exact ⟨h4, h5⟩
      · have hm' := List.getElem?_eq_getElem hk2
        obtain ⟨d', h6, h7⟩ := hb.own k' j _ hk' hm'
        rw [h4] at h6; injection h6 with h6; injection h6 with h6
        have := hb.order k' k _ i d hm' e h1 (.inr h3)
        obtain ⟨d2, h8, h9⟩ := hb.own k i m h1 h2
        rw [h3] at h8; injection h8 with h8; injection h8 with h8
        omega
    refine ⟨?_, ?_⟩
    · rintro (⟨k, i, m, d, h1, h2, h3, h4⟩ | ⟨i, d, h1, _⟩)
      · have := (mine k i m d h1 h2 h3).1; omega
      · rw [hnone] at h1; cases h1
    · intro i hi
      obtain ⟨k, hk⟩ := List.mem_iff_getElem?.1 hi
      have hk2 : k < s.noted.length := by have := get_lt hk; omega
      have hm' := List.getElem?_eq_getElem hk2
      obtain ⟨d, h3, _⟩ := hb.own k i _ hk hm'
      obtain ⟨h4, h5⟩ := mine k i _ d hk hm' h3
      exact ⟨_, (hb.wire _ i).2 (h4 ▸ h3), h5⟩
  · rintro ⟨hno, ha⟩ m hm
    obtain ⟨k, hk⟩ := List.mem_iff_getElem?.1 hm
    have hk2 : k < s.mine.length := by have := get_lt hk; omega
    have hi := List.getElem?_eq_getElem hk2
    obtain ⟨d, h3, h4⟩ := hb.own k _ m hi hk
    have hd : d = m := by
      rcases Nat.lt_or_ge d m with hlt | hge
      · exact absurd (.inl ⟨k, _, m, d, hi, hk, h3, hlt⟩) hno
      · omega
    subst hd
    obtain ⟨d', h5, h6⟩ := ha _ (List.getElem_mem hk2)
    have := (hb.wire _ _).1 h5
    rw [h3] at this
    injection this with this
    injection this with this
    subst this
    exact ⟨_, List.getElem_mem hk2, h5, h6⟩

/-- **C127**, exact: if another goroutine did so, the session is never reported ready, whatever is answered later. -/
theorem C127_never_ready (c n : Nat) (ts ts' : List STurn) (h : CallsApart (settingUp c n) (ts ++ ts')) (hn : 0 < n)
    (ho : SetupOver (sturns (settingUp c n) (ts ++ ts'))) (hov : Overtaken (settingUp c n) ts) : (sturns (settingUp c n) (ts ++ ts')).ready = false := by
  have := C127_iff c n (ts ++ ts') h hn ho
  obtain ⟨p, j, h1, h2⟩ := hov
  cases hr : (sturns (settingUp c n) (ts ++ ts')).ready with
  | false => rfl
  | true => exact absurd ⟨p, j, h1.trans (List.prefix_append _ _), h2⟩ (this.1 hr).1

/-- The hypotheses hold of the demonstration of `C127_refuted`, in which the session is overtaken ... -/
example : CallsApart (settingUp 2 1) demoDisturbed ∧ SetupOver (sturns (settingUp 2 1) demoDisturbed) ∧ Overtaken (settingUp 2 1) demoDisturbed := by
  refine ⟨C127_refuted.1, C127_refuted.2.1, demoDisturbed.take 7, 1, by decide +kernel, by decide +kernel, ⟨3, by decide +kernel⟩, 0, 3, by decide +kernel, .inr (by decide +kernel)⟩

/-- ... and of that of `C127_ready_partial`, in which it is not. -/
example : CallsApart (settingUp 2 2) demoSettingUp ∧ SetupOver (sturns (settingUp 2 2) demoSettingUp) ∧ (sturns (settingUp 2 2) demoSettingUp).ready = true := by
  refine ⟨?_, by unfold SetupOver; decide +kernel, by decide +kernel⟩
  intro p hp
  obtain ⟨k, hk, rfl⟩ := prefix_take hp
  have key : ∀ k < demoSettingUp.length + 1, ((sturns (settingUp 2 2) (demoSettingUp.take k)).sh.calls.filter fun a => decide (Mid a)).length ≤ 1 := by
    decide +kernel
  exact key k hk

end Ouro
