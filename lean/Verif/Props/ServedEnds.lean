import Verif.Props.Served
/-! # C146: rendering ends, whatever the schedule -/
namespace Ouro
open Spec

variable {D : Type}

/-- Where a ring of `n` slots begins after `k` segments. -/
def beginsAt (n k : Nat) : Int := if k = 0 then -1 else if k ≤ n then 0 else (k : Int) - n

/-- The indices after `k` calls of `AddSegment` and the call under way; `left` more segments to come. -/
structure Indices (n total : Nat) (k : Nat) (s : Served D) : Prop where
  len : s.pl.segments.length = n
  first : s.pl.first = beginsAt n k
  idle : s.adding = .idle → k + s.todo.length ≤ total ∧ s.pl.last = if k ≤ n then (k : Int) - 1 else (k : Int) - 1 - n
  busy : s.adding ≠ .idle → k + 1 + s.todo.length ≤ total ∧ s.pl.last = if k < n then (k : Int) else (k : Int) - n

theorem indices_keep {n total k : Nat} {s s' : Served D} (h : Indices n total k s) (hb : s.adding ≠ .idle) (hb' : s'.adding ≠ .idle)
    (h1 : s'.pl.segments.length = s.pl.segments.length) (h2 : s'.pl.first = s.pl.first) (h3 : s'.pl.last = s.pl.last) (h4 : s'.todo = s.todo) : Indices n total k s' :=
  ⟨h1.trans h.len, h2.trans h.first, fun e => absurd e hb', fun _ => by rw [h3, h4]; exact h.busy hb⟩

theorem indices_step {n total : Nat} (ht : total < 2 * n) {k : Nat} {s : Served D} (h : Indices n total k s) :
    ∃ k', Indices n total k' (addStep s) ∧ (addStep s).rendering = s.rendering ∧ (0 ≤ s.pl.first → 0 ≤ (addStep s).pl.first) := by
  obtain ⟨pl, todo, ad, rd⟩ := s
  cases ad with
  | idle =>
    obtain ⟨h1, h2⟩ := h.idle rfl
    cases todo with
    | nil => exact ⟨k, h, rfl, id⟩
    | cons x t =>
      have stop : Indices n total k (⟨pl, [], .idle, rd⟩ : Served D) :=
        ⟨h.len, h.first, fun _ => ⟨by simp only [List.length_cons, List.length_nil] at h1 ⊢; omega, h2⟩, fun e => absurd rfl e⟩
      cases hp : nextPosition pl with
      | error p =>
        rw [show addStep (⟨pl, x :: t, .idle, rd⟩ : Served D) = ⟨pl, [], .idle, rd⟩ by unfold addStep; dsimp only; rw [hp]]
        exact ⟨k, stop, rfl, id⟩
      | ok pos =>
        simp only [List.length_cons] at h1
        have hm : modInt (pl.last + 1) pl.segments.length = .ok (if k < n then (k : Int) else (k : Int) - n) := by
          have hl := h.len
          dsimp only at hl h2
          unfold modInt
          rw [hl, if_neg (by omega), h2]
          congr 1
          by_cases hk : k < n
          · rw [if_pos (by omega), if_pos hk, show (k : Int) - 1 + 1 = k by omega, ← Int.ofNat_tmod, Nat.mod_eq_of_lt hk]
          · rw [if_neg hk]
            by_cases hk' : k = n
            · subst hk'
              rw [if_pos (Nat.le_refl _), show (k : Int) - 1 + 1 = k by omega, Int.tmod_self]
              omega
            · rw [if_neg (by omega), show (k : Int) - 1 - n + 1 = ((k - n : Nat) : Int) by omega, ← Int.ofNat_tmod, Nat.mod_eq_of_lt (by omega)]
              omega
        rw [show addStep (⟨pl, x :: t, .idle, rd⟩ : Served D) =
          ⟨{ pl with last := if k < n then (k : Int) else (k : Int) - n }, t, .putDuration x.1 pos x.2, rd⟩ by unfold addStep; dsimp only; rw [hp, hm]]
        refine ⟨k, ⟨h.len, h.first, fun e => (by cases e), fun _ => ⟨?_, rfl⟩⟩, rfl, id⟩
        dsimp only
        omega
  | putDuration d pos len =>
    exact ⟨k, indices_keep h (by simp) (by simp [addStep]) (by simp [addStep, putField]) rfl rfl rfl, rfl, id⟩
  | putPosition pos len =>
    exact ⟨k, indices_keep h (by simp) (by simp [addStep]) (by simp [addStep, putField]) rfl rfl rfl, rfl, id⟩
  | putLength len =>
    exact ⟨k, indices_keep h (by simp) (by simp [addStep]) (by simp [addStep, putField]) rfl rfl rfl, rfl, id⟩
  | putFirst =>
    obtain ⟨h1, h2⟩ := h.busy (by simp)
    have hf := h.first
    dsimp only at h1 h2 hf
    refine ⟨k + 1, ⟨h.len, ?_, fun _ => ⟨h1, ?_⟩, fun e => absurd rfl e⟩, rfl, fun h0 => ?_⟩
    · show (if pl.first = pl.last then pl.first + 1 else if pl.first < 0 then pl.last else pl.first) = beginsAt n (k + 1)
      rw [hf, h2]
      unfold beginsAt
      repeat' split
      all_goals omega
    · show pl.last = _
      rw [h2]
      repeat' split
      all_goals omega
    · show 0 ≤ (if pl.first = pl.last then pl.first + 1 else if pl.first < 0 then pl.last else pl.first)
      dsimp only at h0
      repeat' split
      all_goals omega

theorem indices_range {n total : Nat} (ht : total < 2 * n) {k : Nat} {s : Served D} (h : Indices n total k s) :
    s.pl.first < n ∧ s.pl.last < n ∧ (0 ≤ s.pl.first → 0 ≤ s.pl.last) := by
  have hf := h.first
  unfold beginsAt at hf
  by_cases hb : s.adding = .idle
  · obtain ⟨h1, h2⟩ := h.idle hb
    rw [h2, hf]
    repeat' split
    all_goals omega
  · obtain ⟨h1, h2⟩ := h.busy hb
    rw [h2, hf]
    repeat' split
    all_goals omega

/-- Segments from slot `i` round to slot `l`. -/
def slotsAhead (n i l : Nat) : Nat := if i ≤ l then l - i else n - i + l

/-- Steps the rendering goroutine has left, at most; it has not panicked. -/
def StepsLeft (n : Nat) : Nat → Rendering D → Prop
  | m, .start => 3 * n + 2 ≤ m
  | m, .gotFirst f => 3 * n + 1 ≤ m ∧ f < n
  | m, .atSegment l i _ => ∃ a b : Nat, l = a ∧ i = b ∧ a < n ∧ b < n ∧ 3 * slotsAhead n b a + 3 ≤ m
  | m, .gotDuration l i _ _ => ∃ a b : Nat, l = a ∧ i = b ∧ a < n ∧ b < n ∧ 3 * slotsAhead n b a + 2 ≤ m
  | m, .gotPosition l i _ _ _ => ∃ a b : Nat, l = a ∧ i = b ∧ a < n ∧ b < n ∧ 3 * slotsAhead n b a + 1 ≤ m
  | _, .done _ => True
  | _, .crashed _ => False

theorem steps_renderStep {n total : Nat} (ht : total < 2 * n) {k : Nat} {s : Served D} (h : Indices n total k s) (fmt : D → Bytes) {m : Nat}
    (hf : ∀ f, s.rendering = .gotFirst f → 0 ≤ f → 0 ≤ s.pl.first) (hm : StepsLeft n m s.rendering) : StepsLeft n (m - 1) (renderStep fmt s.pl s.rendering) := by
  obtain ⟨h1, h2, h3⟩ := indices_range ht h
  have hidx : ∀ b : Nat, b < n → ∃ g, idxInt s.pl.segments (b : Int) = .ok g := by
    intro b hb
    have hb' : b < s.pl.segments.length := by rw [h.len]; exact hb
    refine ⟨s.pl.segments[b], ?_⟩
    unfold idxInt
    rw [if_pos (by omega), Int.toNat_natCast]
    unfold idx
    rw [List.getElem?_eq_getElem hb']
  cases hr : s.rendering with
  | start =>
    rw [hr] at hm
    simp only [StepsLeft] at hm
    simp only [renderStep, StepsLeft]
    omega
  | gotFirst f =>
    rw [hr] at hm
    simp only [StepsLeft] at hm
    rw [renderStep]
    by_cases h0 : f ≥ 0
    · rw [if_pos h0]
      have h4 := h3 (hf f hr h0)
      refine ⟨s.pl.last.toNat, f.toNat, by omega, by omega, by omega, by omega, ?_⟩
      unfold slotsAhead
      split <;> omega
    · rw [if_neg h0]; trivial
  | atSegment l i body =>
    rw [hr] at hm
    obtain ⟨a, b, rfl, rfl, ha, hb, hle⟩ := hm
    obtain ⟨g, hg⟩ := hidx b hb
    rw [renderStep, hg]
    exact ⟨a, b, rfl, rfl, ha, hb, by omega⟩
  | gotDuration l i body d =>
    rw [hr] at hm
    obtain ⟨a, b, rfl, rfl, ha, hb, hle⟩ := hm
    obtain ⟨g, hg⟩ := hidx b hb
    rw [renderStep, hg]
    exact ⟨a, b, rfl, rfl, ha, hb, by omega⟩
  | gotPosition l i body d pos =>
    rw [hr] at hm
    obtain ⟨a, b, rfl, rfl, ha, hb, hle⟩ := hm
    obtain ⟨g, hg⟩ := hidx b hb
    rw [renderStep, hg]
    dsimp only
    by_cases hl : (b : Int) = a
    · rw [if_pos hl]; trivial
    · rw [if_neg hl]
      have hmod : modInt ((b : Int) + 1) s.pl.segments.length = .ok (((b + 1) % n : Nat) : Int) := by
        unfold modInt
        rw [h.len, if_neg (by omega)]
        congr 1
      rw [hmod]
      refine ⟨a, (b + 1) % n, rfl, rfl, ha, Nat.mod_lt _ (by omega), ?_⟩
      by_cases hb1 : b + 1 = n
      · rw [hb1, Nat.mod_self]
        unfold slotsAhead at hle ⊢
        rw [if_pos (Nat.zero_le _)]
        split at hle <;> omega
      · rw [Nat.mod_eq_of_lt (by omega)]
        unfold slotsAhead at hle ⊢
        split at hle <;> split <;> omega
  | done txt => trivial
  | crashed p => rw [hr] at hm; exact hm

theorem steps_serve {n total : Nat} (ht : total < 2 * n) (fmt : D → Bytes) (sch : List Who) : ∀ (k m : Nat) (s : Served D), Indices n total k s →
    (∀ f, s.rendering = .gotFirst f → 0 ≤ f → 0 ≤ s.pl.first) → StepsLeft n m s.rendering →
    StepsLeft n (m - sch.count .renderer) (serve fmt sch s).rendering := by
  induction sch with
  | nil => intro k m s _ _ h; exact h
  | cons w t ih =>
    intro k m s h hf hm
    cases w with
    | adder =>
      obtain ⟨k', h1, h2, h3⟩ := indices_step ht h
      rw [show (Who.adder :: t).count .renderer = t.count .renderer by simp]
      exact ih k' m (addStep s) h1 (fun f e h0 => h3 (hf f (h2 ▸ e) h0)) (by rw [h2]; exact hm)
    | renderer =>
      rw [show m - (Who.renderer :: t).count .renderer = m - 1 - t.count .renderer by rw [List.count_cons_self]; omega]
      refine ih k (m - 1) { s with rendering := renderStep fmt s.pl s.rendering } ⟨h.len, h.first, h.idle, h.busy⟩ ?_ (steps_renderStep ht h fmt hf hm)
      intro f e h0
      dsimp only at e ⊢
      cases hr : s.rendering with
      | start => rw [hr] at e; injection e with e; omega
      | gotFirst f' => rw [hr, renderStep] at e; split at e <;> cases e
      | atSegment l i body => rw [hr, renderStep] at e; split at e <;> cases e
      | gotDuration l i body d => rw [hr, renderStep] at e; split at e <;> cases e
      | gotPosition l i body d pos =>
        rw [hr, renderStep] at e
        split at e
        · cases e
        · split at e
          · cases e
          · split at e <;> cases e
      | done txt => rw [hr] at e; cases e
      | crashed p => rw [hr] at e; cases e

/-- **C146**, part: slots may be used again, but fewer than twice as many segments as slots have been added in all. Whatever the
schedule, `String` does not panic, and it returns after at most three reads for each slot and two more. Missing: what it returns (`C146_refuted`,
`C146_order_refuted`); more segments, with which it panics even alone (`C40_panics_iff`). -/
theorem C146_ends_partial (fmt : D → Bytes) (zero : D) (uri : Bytes) (n : Nat) (hist more : List (D × Int)) (hn : (hist ++ more).length < 2 * n) {pl : Playlist D}
    (h : addSegments (newPlaylist zero uri n) hist = .ok pl) (sch : List Who) :
    (∀ p, (serve fmt sch (servedFrom pl more)).rendering ≠ .crashed p) ∧
    (3 * n + 2 ≤ sch.count .renderer → ∃ txt, (serve fmt sch (servedFrom pl more)).rendering = .done txt) := by
  have h0 : Indices n (hist ++ more).length 0 (⟨newPlaylist zero uri n, hist ++ more, .idle, .start⟩ : Served D) :=
    ⟨by simp [newPlaylist], rfl, fun _ => ⟨by simp, by simp [newPlaylist]⟩, fun e => absurd rfl e⟩
  have hk : ∀ (sch : List Who) (k : Nat) (s : Served D), (∀ w ∈ sch, w = .adder) → Indices n (hist ++ more).length k s →
      ∃ k', Indices n (hist ++ more).length k' (serve fmt sch s) := by
    intro sch
    induction sch with
    | nil => exact fun k s _ hi => ⟨k, hi⟩
    | cons w t ih =>
      intro k s hw hi
      obtain rfl : w = .adder := hw w (by simp)
      obtain ⟨k', h1, -⟩ := indices_step hn hi
      exact ih k' (addStep s) (fun w hm => hw w (List.mem_cons_of_mem _ hm)) h1
  obtain ⟨k, hi⟩ := hk (List.replicate (5 * hist.length) .adder) 0 _ (fun w hw => (List.mem_replicate.1 hw).2) h0
  rw [adds_refine fmt hist more _ _ _ h] at hi
  have hs := steps_serve hn fmt sch k (3 * n + 2) (servedFrom pl more) hi (fun f e => by cases e) (Nat.le_refl _)
  generalize (serve fmt sch (servedFrom pl more)).rendering = r at hs
  refine ⟨fun p e => by rw [e] at hs; exact hs, fun hc => ?_⟩
  rw [Nat.sub_eq_zero_of_le hc] at hs
  cases r with
  | start => simp only [StepsLeft] at hs; omega
  | gotFirst f => simp only [StepsLeft] at hs; omega
  | atSegment l i body => obtain ⟨a, b, -, -, -, -, hs⟩ := hs; omega
  | gotDuration l i body d => obtain ⟨a, b, -, -, -, -, hs⟩ := hs; omega
  | gotPosition l i body d pos => obtain ⟨a, b, -, -, -, -, hs⟩ := hs; omega
  | done txt => exact ⟨txt, rfl⟩
  | crashed p => exact absurd hs id

/-- The ring of `C146_order_refuted` meets the hypotheses. -/
example : ([((), 100), ((), 200)] ++ [((), 300)] : List (Unit × Int)).length < 2 * 2 := by decide

/-- With four segments in two slots it panics. -/
example : (serve (fun _ => b!"1") (List.replicate 10 .adder ++ List.replicate 3 .renderer) (servedFrom fullRing [((), 300), ((), 400)])).rendering =
    (.crashed .index : Rendering Unit) := by
  rfl

end Ouro
