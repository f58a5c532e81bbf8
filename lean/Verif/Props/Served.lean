import Verif.Spec.Served
import Verif.Props.Hls
import Verif.Props.Playlist
/-! # C146: a playlist that is rendered while segments are added -/
namespace Ouro
open Spec

variable {D : Type}

/-! ## Rendering alone -/

/-- `n` steps of the rendering goroutine while the other rests. -/
def renderSteps (fmt : D → Bytes) (pl : Playlist D) : Nat → Rendering D → Rendering D
  | 0, r => r
  | n + 1, r => renderSteps fmt pl n (renderStep fmt pl r)

theorem renderSteps_add (fmt : D → Bytes) (pl : Playlist D) (a b : Nat) (r : Rendering D) :
    renderSteps fmt pl (a + b) r = renderSteps fmt pl b (renderSteps fmt pl a r) := by
  induction a generalizing r with
  | zero => rw [Nat.zero_add]; rfl
  | succ a ih => rw [Nat.succ_add]; exact ih _

theorem serve_replicate (fmt : D → Bytes) (s : Served D) (n : Nat) :
    serve fmt (List.replicate n .renderer) s = { s with rendering := renderSteps fmt s.pl n s.rendering } := by
  induction n generalizing s with
  | zero => rfl
  | succ n ih =>
    rw [List.replicate_succ, serve, ih]
    rfl

theorem serve_append (fmt : D → Bytes) (a b : List Who) (s : Served D) : serve fmt (a ++ b) s = serve fmt b (serve fmt a s) := by
  induction a generalizing s with
  | nil => rfl
  | cons w t ih => cases w <;> exact ih _

theorem loop_alone (fmt : D → Bytes) (pl : Playlist D) (fuel : Nat) : ∀ (i : Int) (body rest : Bytes),
    playlistLoop fmt pl fuel i = .ok rest →
    ∃ n, renderSteps fmt pl n (.atSegment pl.last i body) = .done (framed pl (body ++ rest)) := by
  induction fuel with
  | zero => intro i body rest h; cases h
  | succ fuel ih =>
    intro i body rest h
    rw [playlistLoop] at h
    cases hi : idxInt pl.segments i with
    | error p => rw [hi] at h; cases h
    | ok g =>
      rw [hi, go_ok_bind] at h
      have h3 : ∀ r, renderSteps fmt pl 2 (renderStep fmt pl (.atSegment pl.last i body)) = r →
          renderSteps fmt pl 3 (.atSegment pl.last i body) = r := fun r hr => hr
      have e1 : renderStep fmt pl (.atSegment pl.last i body) = .gotDuration pl.last i body g.duration := by
        rw [renderStep, hi]
      have e2 : renderStep fmt pl (.gotDuration pl.last i body g.duration) = .gotPosition pl.last i body g.duration g.position := by
        rw [renderStep, hi]
      by_cases hl : i = pl.last
      · rw [if_pos hl] at h
        injection h with h
        refine ⟨3, ?_⟩
        show renderStep fmt pl (renderStep fmt pl (renderStep fmt pl _)) = _
        rw [e1, e2, renderStep, hi]
        dsimp only
        rw [if_pos hl, ← h]
      · rw [if_neg hl] at h
        cases hm : modInt (i + 1) pl.segments.length with
        | error p => rw [hm] at h; cases h
        | ok j =>
          rw [hm, go_ok_bind] at h
          cases hr : playlistLoop fmt pl fuel j with
          | error p => rw [hr] at h; cases h
          | ok rest' =>
            rw [hr, go_ok_bind] at h
            injection h with h
            obtain ⟨n, hn⟩ := ih j (body ++ segmentText fmt pl.uri g) rest' hr
            refine ⟨3 + n, ?_⟩
            rw [renderSteps_add]
            show renderSteps fmt pl n (renderStep fmt pl (renderStep fmt pl (renderStep fmt pl _))) = _
            rw [e1, e2, renderStep, hi]
            dsimp only
            rw [if_neg hl, hm]
            dsimp only
            rw [hn, ← h, List.append_assoc]

theorem string_alone (fmt : D → Bytes) (pl : Playlist D) (txt : Bytes) (h : playlistString fmt pl = .ok txt) :
    ∃ n, renderSteps fmt pl n .start = .done txt := by
  unfold playlistString at h
  by_cases hf : pl.first ≥ 0
  · rw [if_pos hf] at h
    cases hb : playlistLoop fmt pl (pl.segments.length + 1) pl.first with
    | error p => rw [hb] at h; cases h
    | ok body =>
      rw [hb, go_ok_bind] at h
      injection h with h
      obtain ⟨n, hn⟩ := loop_alone fmt pl _ _ [] body hb
      refine ⟨2 + n, ?_⟩
      rw [renderSteps_add]
      show renderSteps fmt pl n (renderStep fmt pl (renderStep fmt pl .start)) = _
      rw [renderStep, renderStep, if_pos hf, hn, ← h]
      rfl
  · rw [if_neg hf] at h
    injection h with h
    refine ⟨2, ?_⟩
    show renderStep fmt pl (renderStep fmt pl .start) = _
    rw [renderStep, renderStep, if_neg hf, ← h]
    rfl

/-! ## Any schedule, while there are free slots -/

/-- What the slot of the segment that is being added holds, and that the right values are to come. -/
def slotOf (zero : D) (g : Segment D) : Adding D → Segment D → Prop
  | .idle, x => x = ⟨zero, 0, 0⟩
  | .putDuration d pos len, x => x = ⟨zero, 0, 0⟩ ∧ g = ⟨d, pos, len⟩
  | .putPosition pos len, x => x = ⟨g.duration, 0, 0⟩ ∧ g.position = pos ∧ g.length = len
  | .putLength len, x => x = ⟨g.duration, g.position, 0⟩ ∧ g.length = len
  | .putFirst, x => x = g

/-- `k` segments are complete; if the adder is not between calls, the next one is in the making. -/
structure SInv (zero : D) (uri : Bytes) (n : Nat) (all : List (D × Int)) (k : Nat) (pl : Playlist D) (todo : List (D × Int)) (ad : Adding D) : Prop where
  version : pl.version = 4
  uri : pl.uri = uri
  len : pl.segments.length = n
  le : k ≤ all.length
  first : pl.first = if k = 0 then -1 else 0
  whole : ∀ j, j < k → pl.segments[j]? = histSeg all j
  free : ∀ j, k < j → j < n → pl.segments[j]? = some ⟨zero, 0, 0⟩
  idle : ad = .idle → todo = all.drop k ∧ pl.last = (k : Int) - 1 ∧ (k < n → pl.segments[k]? = some ⟨zero, 0, 0⟩)
  busy : ad ≠ .idle → todo = all.drop (k + 1) ∧ pl.last = k ∧ ∃ g x, histSeg all k = some g ∧ pl.segments[k]? = some x ∧ slotOf zero g ad x

theorem histSeg_some {all : List (D × Int)} {k : Nat} (h : k < all.length) :
    histSeg all k = some ⟨all[k].1, i64 (total (all.take k)), all[k].2⟩ := by
  unfold histSeg
  rw [List.getElem?_eq_getElem h]
  rfl

theorem histSeg_lt {all : List (D × Int)} {k : Nat} {g : Segment D} (h : histSeg all k = some g) : k < all.length := by
  unfold histSeg at h
  cases hg : all[k]? with
  | none => rw [hg] at h; cases h
  | some x => exact (List.getElem?_eq_some_iff.1 hg).1

/-- One write to the slot in the making. -/
theorem sinv_put {zero : D} {uri : Bytes} {n : Nat} {all : List (D × Int)} {k : Nat} {pl : Playlist D} {todo : List (D × Int)} {ad ad' : Adding D}
    (h : SInv zero uri n all k pl todo ad) (hb : ad ≠ .idle) (hb' : ad' ≠ .idle) (f : Segment D → Segment D)
    (hf : ∀ g x, slotOf zero g ad x → slotOf zero g ad' (f x)) : SInv zero uri n all k (putField pl f) todo ad' := by
  obtain ⟨h1, h2, g, x, h3, h4, h5⟩ := h.busy hb
  have hl : pl.last.toNat = k := by rw [h2]; rfl
  refine ⟨h.version, h.uri, ?_, h.le, h.first, ?_, ?_, fun e => absurd e hb', fun _ => ⟨h1, h2, g, f x, h3, ?_, hf g x h5⟩⟩
  · show (pl.segments.modify pl.last.toNat f).length = n
    rw [List.length_modify, h.len]
  · intro j hj
    show (pl.segments.modify pl.last.toNat f)[j]? = _
    have hne : ¬ k = j := by omega
    rw [List.getElem?_modify, hl, h.whole j hj]
    simp [hne]
  · intro j hj hn
    show (pl.segments.modify pl.last.toNat f)[j]? = _
    have hne : ¬ k = j := by omega
    rw [List.getElem?_modify, hl, h.free j hj hn]
    simp [hne]
  · show (pl.segments.modify pl.last.toNat f)[k]? = _
    rw [List.getElem?_modify, hl, h4]
    simp

theorem nextPosition_sinv {zero : D} {uri : Bytes} {n : Nat} {all : List (D × Int)} {k : Nat} {pl : Playlist D} {todo : List (D × Int)}
    (h : SInv zero uri n all k pl todo .idle) : nextPosition pl = .ok (i64 (total (all.take k))) := by
  obtain ⟨-, hl, -⟩ := h.idle rfl
  unfold nextPosition
  cases k with
  | zero =>
    rw [hl, if_neg (by decide)]
    simp [total]
    rfl
  | succ k =>
    have hlast : pl.last = (k : Int) := by rw [hl]; omega
    rw [hlast, if_pos (by omega)]
    have hk : k < all.length := h.le
    have hs := h.whole k (by omega)
    rw [histSeg_some hk] at hs
    unfold idxInt
    rw [if_pos (by omega), Int.toNat_natCast, idx, hs, go_ok_bind, go_pure]
    congr 1
    show i64 (i64 (total (all.take k)) + all[k].2) = _
    rw [i64_add, List.take_succ, total_append, List.getElem?_eq_getElem hk]
    simp [total]

/-- The adder keeps the invariant; segments only become more. -/
theorem sinv_step {zero : D} {uri : Bytes} {n : Nat} {all : List (D × Int)} {k : Nat} {s : Served D} (hn : all.length ≤ n)
    (h : SInv zero uri n all k s.pl s.todo s.adding) :
    ∃ k', k ≤ k' ∧ SInv zero uri n all k' (addStep s).pl (addStep s).todo (addStep s).adding ∧
      (addStep s).rendering = s.rendering := by
  obtain ⟨pl, todo, ad, rd⟩ := s
  dsimp only at h
  cases ad with
  | idle =>
    obtain ⟨h1, h2, h3⟩ := h.idle rfl
    cases htodo : todo with
    | nil =>
      have e : addStep (⟨pl, [], .idle, rd⟩ : Served D) = ⟨pl, [], .idle, rd⟩ := rfl
      rw [e]
      rw [htodo] at h
      exact ⟨k, Nat.le_refl _, h, rfl⟩
    | cons x t =>
      rw [htodo] at h1
      have hk : k < all.length := by
        apply Classical.byContradiction
        intro hk
        rw [List.drop_eq_nil_of_le (by omega)] at h1
        cases h1
      have hx : all.drop k = all[k] :: all.drop (k + 1) := List.drop_eq_getElem_cons hk
      rw [hx] at h1
      injection h1 with hx1 ht
      have hm : modInt (pl.last + 1) pl.segments.length = .ok (k : Int) := by
        unfold modInt
        rw [h.len, if_neg (by omega), h2]
        congr 1
        have : ((k : Int) - 1 + 1) = (k : Int) := by omega
        rw [this, ← Int.ofNat_tmod, Nat.mod_eq_of_lt (by omega)]
      have e : addStep (⟨pl, x :: t, .idle, rd⟩ : Served D) =
          ⟨{ pl with last := k }, t, .putDuration x.1 (i64 (total (all.take k))) x.2, rd⟩ := by
        rw [htodo] at h
        unfold addStep
        dsimp only
        rw [nextPosition_sinv h, hm]
      rw [e]
      refine ⟨k, Nat.le_refl _, ⟨h.version, h.uri, h.len, h.le, h.first, h.whole, h.free, fun e => by (cases e), fun _ => ?_⟩, rfl⟩
      refine ⟨ht, rfl, _, _, histSeg_some hk, h3 (by omega), rfl, ?_⟩
      rw [hx1]
  | putDuration d pos len =>
    refine ⟨k, Nat.le_refl _, sinv_put h (fun e => by (cases e)) (fun e => by (cases e)) _ ?_, rfl⟩
    rintro g x ⟨rfl, rfl⟩
    exact ⟨rfl, rfl, rfl⟩
  | putPosition pos len =>
    refine ⟨k, Nat.le_refl _, sinv_put h (fun e => by (cases e)) (fun e => by (cases e)) _ ?_, rfl⟩
    rintro g x ⟨rfl, rfl, rfl⟩
    exact ⟨rfl, rfl⟩
  | putLength len =>
    refine ⟨k, Nat.le_refl _, sinv_put h (fun e => by (cases e)) (fun e => by (cases e)) _ ?_, rfl⟩
    rintro g x ⟨rfl, rfl⟩
    exact rfl
  | putFirst =>
    obtain ⟨h1, h2, g, x, h3, h4, h5⟩ := h.busy (fun e => by (cases e))
    have hx : x = g := h5
    subst hx
    have hk := histSeg_lt h3
    refine ⟨k + 1, by omega, ⟨h.version, h.uri, h.len, hk, ?_, ?_, fun j hj hn => h.free j (by omega) hn, fun _ => ?_, fun e => absurd rfl e⟩, rfl⟩
    · show (if pl.first = pl.last then pl.first + 1 else if pl.first < 0 then pl.last else pl.first) = _
      rw [h.first, h2, if_neg (by omega : ¬ k + 1 = 0)]
      by_cases hk0 : k = 0
      · subst hk0; rfl
      · rw [if_neg hk0, if_neg (by omega), if_neg (by omega)]
    · intro j hj
      by_cases hjk : j = k
      · subst hjk; exact h4.trans h3.symm
      · exact h.whole j (by omega)
    · exact ⟨h1, by show pl.last = _; rw [h2]; omega, fun hn => h.free (k + 1) (by omega) hn⟩

/-- A value copied from the field of slot `i` while the segment `l` is the last that is looked at: right, or still empty if
the slot is the last and its segment was not complete when `String` was called. -/
def Copied {α : Type} (k0 l i : Nat) (empty right v : α) : Prop := v = right ∨ (i = l ∧ k0 ≤ l ∧ v = empty)

/-- What the rendering goroutine has gathered. -/
def ShowInv (zero : D) (fmt : D → Bytes) (uri : Bytes) (all : List (D × Int)) (k0 k : Nat) : Rendering D → Prop
  | .start => k0 ≤ k
  | .gotFirst f => k0 ≤ k ∧ ((f = -1 ∧ k0 = 0) ∨ (f = 0 ∧ 1 ≤ k))
  | .atSegment l i body => ∃ li ii : Nat, ∃ segs : List (Segment D), l = li ∧ i = ii ∧ ii ≤ li ∧ li < all.length ∧ k0 ≤ li + 1 ∧ li ≤ k ∧ k0 ≤ k ∧
      body = segs.flatMap (segmentText fmt uri) ∧ segs.length = ii ∧ ∀ j, j < ii → segs[j]? = histSeg all j
  | .gotDuration l i body d => ∃ li ii : Nat, ∃ segs : List (Segment D), ∃ g : Segment D, l = li ∧ i = ii ∧ ii ≤ li ∧ li < all.length ∧ k0 ≤ li + 1 ∧ li ≤ k ∧ k0 ≤ k ∧
      body = segs.flatMap (segmentText fmt uri) ∧ segs.length = ii ∧ (∀ j, j < ii → segs[j]? = histSeg all j) ∧
      histSeg all ii = some g ∧ Copied k0 li ii zero g.duration d
  | .gotPosition l i body d pos => ∃ li ii : Nat, ∃ segs : List (Segment D), ∃ g : Segment D, l = li ∧ i = ii ∧ ii ≤ li ∧ li < all.length ∧ k0 ≤ li + 1 ∧ li ≤ k ∧ k0 ≤ k ∧
      body = segs.flatMap (segmentText fmt uri) ∧ segs.length = ii ∧ (∀ j, j < ii → segs[j]? = histSeg all j) ∧
      histSeg all ii = some g ∧ Copied k0 li ii zero g.duration d ∧ Copied k0 li ii 0 g.position pos
  | .done txt => (k0 = 0 ∧ txt = text (playlistLines fmt uri [])) ∨
      ∃ li : Nat, ∃ segs : List (Segment D), ∃ g x : Segment D, li < all.length ∧ k0 ≤ li + 1 ∧
        segs.length = li ∧ (∀ j, j < li → segs[j]? = histSeg all j) ∧ histSeg all li = some g ∧
        txt = text (playlistLines fmt uri ((segs ++ [x]).map toListed)) ∧
        Copied k0 li li zero g.duration x.duration ∧ Copied k0 li li 0 g.position x.position ∧ Copied k0 li li 0 g.length x.length
  | .crashed _ => False

theorem showInv_mono {zero : D} {fmt : D → Bytes} {uri : Bytes} {all : List (D × Int)} {k0 k k' : Nat} (hk : k ≤ k') {r : Rendering D}
    (h : ShowInv zero fmt uri all k0 k r) : ShowInv zero fmt uri all k0 k' r := by
  cases r with
  | start => exact Nat.le_trans h hk
  | gotFirst f => exact ⟨Nat.le_trans h.1 hk, h.2.imp id fun e => ⟨e.1, Nat.le_trans e.2 hk⟩⟩
  | atSegment l i body =>
    obtain ⟨li, ii, segs, h1, h2, h3, h4, h5, h6, h7, h8⟩ := h
    exact ⟨li, ii, segs, h1, h2, h3, h4, h5, by omega, by omega, h8⟩
  | gotDuration l i body d =>
    obtain ⟨li, ii, segs, g, h1, h2, h3, h4, h5, h6, h7, h8⟩ := h
    exact ⟨li, ii, segs, g, h1, h2, h3, h4, h5, by omega, by omega, h8⟩
  | gotPosition l i body d pos =>
    obtain ⟨li, ii, segs, g, h1, h2, h3, h4, h5, h6, h7, h8⟩ := h
    exact ⟨li, ii, segs, g, h1, h2, h3, h4, h5, by omega, by omega, h8⟩
  | done txt => exact h
  | crashed p => exact h

theorem framed_text {fmt : D → Bytes} {uri : Bytes} {pl : Playlist D} (hv : pl.version = 4) (segs : List (Segment D)) :
    framed pl (segs.flatMap (segmentText fmt uri)) = text (playlistLines fmt uri (segs.map toListed)) := by
  unfold framed playlistLines
  rw [hv, segs_text, text_append, text_append]
  simp [text]
  rfl

/-- A slot that may be looked at: its segment, and what is in it. -/
theorem slot_read {zero : D} {uri : Bytes} {n : Nat} {all : List (D × Int)} {k k0 li ii : Nat} {pl : Playlist D} {todo : List (D × Int)} {ad : Adding D}
    (h : SInv zero uri n all k pl todo ad) (hn : all.length ≤ n) (h3 : ii ≤ li) (h4 : li < all.length) (h6 : li ≤ k) (h7 : k0 ≤ k) :
    ∃ g x, histSeg all ii = some g ∧ idxInt pl.segments (ii : Int) = .ok x ∧ Copied k0 li ii zero g.duration x.duration ∧
      Copied k0 li ii 0 g.position x.position ∧ Copied k0 li ii 0 g.length x.length := by
  have hg := histSeg_some (all := all) (k := ii) (by omega)
  have hidx : ∀ x, pl.segments[ii]? = some x → idxInt pl.segments (ii : Int) = .ok x := by
    intro x hx
    unfold idxInt
    rw [if_pos (by omega), Int.toNat_natCast, idx, hx]
  by_cases hk : ii < k
  · exact ⟨_, _, hg, hidx _ ((h.whole ii hk).trans hg), .inl rfl, .inl rfl, .inl rfl⟩
  · obtain rfl : ii = k := by omega
    obtain rfl : li = ii := by omega
    have hcase : ∃ x, pl.segments[li]? = some x ∧ (x.duration = zero ∨ x.duration = all[li].1) ∧
        (x.position = 0 ∨ x.position = i64 (total (all.take li))) ∧ (x.length = 0 ∨ x.length = all[li].2) := by
      by_cases hb : ad = .idle
      · obtain ⟨-, -, h8⟩ := h.idle hb
        exact ⟨_, h8 (by omega), .inl rfl, .inl rfl, .inl rfl⟩
      · obtain ⟨-, -, g, x, h8, h9, h10⟩ := h.busy hb
        rw [hg] at h8
        injection h8 with h8
        subst h8
        refine ⟨x, h9, ?_⟩
        cases ad with
        | idle => exact absurd rfl hb
        | putDuration d pos len => obtain ⟨rfl, -⟩ := h10; exact ⟨.inl rfl, .inl rfl, .inl rfl⟩
        | putPosition pos len => obtain ⟨rfl, -⟩ := h10; exact ⟨.inr rfl, .inl rfl, .inl rfl⟩
        | putLength len => obtain ⟨rfl, -⟩ := h10; exact ⟨.inr rfl, .inr rfl, .inl rfl⟩
        | putFirst =>
          have h10 : x = _ := h10
          rw [h10]
          exact ⟨.inr rfl, .inr rfl, .inr rfl⟩
    obtain ⟨x, hx, hd, hp, hl⟩ := hcase
    exact ⟨_, x, hg, hidx x hx, hd.symm.imp id fun e => ⟨rfl, h7, e⟩, hp.symm.imp id fun e => ⟨rfl, h7, e⟩, hl.symm.imp id fun e => ⟨rfl, h7, e⟩⟩

theorem copied_before {α : Type} {k0 l i : Nat} {empty right v : α} (h : Copied k0 l i empty right v) (hi : i < l) : v = right := by
  rcases h with h | ⟨h, -⟩
  · exact h
  · omega

theorem showInv_step {zero : D} {fmt : D → Bytes} {uri : Bytes} {n : Nat} {all : List (D × Int)} {k k0 : Nat} {pl : Playlist D} {todo : List (D × Int)} {ad : Adding D}
    (h : SInv zero uri n all k pl todo ad) (hn : all.length ≤ n) {r : Rendering D} (hr : ShowInv zero fmt uri all k0 k r) :
    ShowInv zero fmt uri all k0 k (renderStep fmt pl r) := by
  cases r with
  | start =>
    show k0 ≤ k ∧ _
    refine ⟨hr, ?_⟩
    have hr : k0 ≤ k := hr
    rw [h.first]
    by_cases hk : k = 0
    · rw [if_pos hk]; exact .inl ⟨rfl, by omega⟩
    · rw [if_neg hk]; exact .inr ⟨rfl, by omega⟩
  | gotFirst f =>
    obtain ⟨hk, ⟨rfl, h0⟩ | ⟨rfl, h1⟩⟩ := hr
    · exact .inl ⟨h0, framed_text (fmt := fmt) (uri := uri) h.version []⟩
    · show ShowInv zero fmt uri all k0 k (.atSegment pl.last 0 [])
      by_cases hb : ad = .idle
      · obtain ⟨-, h2, -⟩ := h.idle hb
        have := h.le
        exact ⟨k - 1, 0, [], by rw [h2]; omega, rfl, by omega, by omega, by omega, by omega, hk, rfl, rfl, fun j hj => by omega⟩
      · obtain ⟨-, h2, g, x, h3, -⟩ := h.busy hb
        have := histSeg_lt h3
        exact ⟨k, 0, [], h2, rfl, by omega, this, by omega, by omega, hk, rfl, rfl, fun j hj => by omega⟩
  | atSegment l i body =>
    obtain ⟨li, ii, segs, rfl, rfl, h3, h4, h5, h6, h7, h8, h9, h10⟩ := hr
    obtain ⟨g, x, hg, hx, c1, c2, c3⟩ := slot_read h hn h3 h4 h6 h7
    rw [renderStep, hx]
    exact ⟨li, ii, segs, g, rfl, rfl, h3, h4, h5, h6, h7, h8, h9, h10, hg, c1⟩
  | gotDuration l i body d =>
    obtain ⟨li, ii, segs, g', rfl, rfl, h3, h4, h5, h6, h7, h8, h9, h10, hg', c⟩ := hr
    obtain ⟨g, x, hg, hx, c1, c2, c3⟩ := slot_read h hn h3 h4 h6 h7
    rw [hg] at hg'
    injection hg' with hg'
    subst hg'
    rw [renderStep, hx]
    exact ⟨li, ii, segs, g, rfl, rfl, h3, h4, h5, h6, h7, h8, h9, h10, hg, c, c2⟩
  | gotPosition l i body d pos =>
    obtain ⟨li, ii, segs, g', rfl, rfl, h3, h4, h5, h6, h7, h8, h9, h10, hg', c, c'⟩ := hr
    obtain ⟨g, x, hg, hx, c1, c2, c3⟩ := slot_read h hn h3 h4 h6 h7
    rw [hg] at hg'
    injection hg' with hg'
    subst hg'
    rw [renderStep, hx]
    dsimp only
    have hbody : body ++ segmentText fmt pl.uri ⟨d, pos, x.length⟩ = (segs ++ [(⟨d, pos, x.length⟩ : Segment D)]).flatMap (segmentText fmt uri) := by
      rw [h8, h.uri, List.flatMap_append]
      simp
    rw [hbody]
    by_cases hl : ii = li
    · subst hl
      rw [if_pos rfl, framed_text h.version]
      exact .inr ⟨ii, segs, g, ⟨d, pos, x.length⟩, h4, h5, h9, h10, hg, rfl, c, c', c3⟩
    · rw [if_neg (by omega)]
      have hm : modInt ((ii : Int) + 1) pl.segments.length = .ok ((ii + 1 : Nat) : Int) := by
        unfold modInt
        rw [h.len, if_neg (by omega)]
        congr 1
        have : ((ii : Int) + 1) = ((ii + 1 : Nat) : Int) := by omega
        rw [this, ← Int.ofNat_tmod, Nat.mod_eq_of_lt (by omega)]
      rw [hm]
      refine ⟨li, ii + 1, _, rfl, rfl, by omega, h4, h5, h6, h7, rfl, by simp [h9], fun j hj => ?_⟩
      by_cases hj' : j < ii
      · rw [List.getElem?_append_left (by omega)]
        exact h10 j hj'
      · obtain rfl : j = ii := by omega
        rw [List.getElem?_append_right (by omega), h9, hg]
        have e1 := copied_before c (by omega)
        have e2 := copied_before c' (by omega)
        have e3 := copied_before c3 (by omega)
        simp [e1, e2, e3]
  | done txt => exact hr
  | crashed p => exact hr.elim

theorem serve_inv {zero : D} {fmt : D → Bytes} {uri : Bytes} {n : Nat} {all : List (D × Int)} {k0 : Nat} (hn : all.length ≤ n) (sch : List Who) :
    ∀ (k : Nat) (s : Served D), SInv zero uri n all k s.pl s.todo s.adding → ShowInv zero fmt uri all k0 k s.rendering →
      ∃ k', SInv zero uri n all k' (serve fmt sch s).pl (serve fmt sch s).todo (serve fmt sch s).adding ∧
        ShowInv zero fmt uri all k0 k' (serve fmt sch s).rendering := by
  induction sch with
  | nil => exact fun k s h1 h2 => ⟨k, h1, h2⟩
  | cons w t ih =>
    intro k s h1 h2
    cases w with
    | adder =>
      obtain ⟨k', hk, h3, h4⟩ := sinv_step hn h1
      exact ih k' (addStep s) h3 (by rw [h4]; exact showInv_mono hk h2)
    | renderer => exact ih k { s with rendering := renderStep fmt s.pl s.rendering } h1 (showInv_step h1 hn h2)

/-! ## The calls one after the other -/

/-- Five steps of the adder are one call of `AddSegment`. -/
theorem add_refines (fmt : D → Bytes) (pl pl' : Playlist D) (x : D × Int) (t : List (D × Int)) (r : Rendering D) (h : addSegment pl x.1 x.2 = .ok pl') :
    serve fmt (List.replicate 5 .adder) ⟨pl, x :: t, .idle, r⟩ = ⟨pl', t, .idle, r⟩ := by
  unfold addSegment at h
  cases hp : nextPosition pl with
  | error p => rw [hp] at h; cases h
  | ok pos =>
    rw [hp, go_ok_bind] at h
    cases hm : modInt (pl.last + 1) pl.segments.length with
    | error p => rw [hm] at h; cases h
    | ok last =>
      rw [hm, go_ok_bind] at h
      unfold setInt at h
      by_cases hs : 0 ≤ last ∧ last.toNat < pl.segments.length
      · rw [if_pos hs, go_ok_bind] at h
        injection h with h
        have e : addStep (⟨pl, x :: t, .idle, r⟩ : Served D) = ⟨{ pl with last := last }, t, .putDuration x.1 pos x.2, r⟩ := by
          unfold addStep
          dsimp only
          rw [hp, hm]
        have hset : (((pl.segments.modify last.toNat fun g => { g with duration := x.1 }).modify last.toNat fun g => { g with position := pos }).modify last.toNat
            fun g => { g with length := x.2 }) = pl.segments.set last.toNat ⟨x.1, pos, x.2⟩ := by
          apply List.ext_getElem?
          intro i
          rw [List.getElem?_modify, List.getElem?_modify, List.getElem?_modify, List.getElem?_set]
          by_cases hi : last.toNat = i
          · subst hi
            rw [if_pos rfl, List.getElem?_eq_getElem hs.2, if_pos hs.2]
            simp
          · rw [if_neg hi]
            simp [hi]
        show addStep (addStep (addStep (addStep (addStep _)))) = _
        rw [e, ← h]
        simp only [addStep, putField, hset]
      · rw [if_neg hs] at h; cases h

theorem adds_refine (fmt : D → Bytes) (hist more : List (D × Int)) (r : Rendering D) : ∀ (pl pl' : Playlist D), addSegments pl hist = .ok pl' →
    serve fmt (List.replicate (5 * hist.length) .adder) ⟨pl, hist ++ more, .idle, r⟩ = ⟨pl', more, .idle, r⟩ := by
  induction hist with
  | nil => intro pl pl' h; cases h; rfl
  | cons x t ih =>
    intro pl pl' h
    rw [addSegments] at h
    cases ha : addSegment pl x.1 x.2 with
    | error p => rw [ha] at h; cases h
    | ok pl1 =>
      rw [ha, go_ok_bind] at h
      have e : List.replicate (5 * (x :: t).length) Who.adder = List.replicate 5 .adder ++ List.replicate (5 * t.length) .adder := by
        rw [List.replicate_append_replicate, List.length_cons]
        congr 1
        omega
      rw [e, serve_append]
      have := add_refines fmt pl pl1 x (t ++ more) r ha
      rw [List.cons_append, this]
      exact ih pl1 pl' h

theorem sinv_new (zero : D) (uri : Bytes) (n : Nat) (all : List (D × Int)) : SInv zero uri n all 0 (newPlaylist zero uri n) all .idle := by
  refine ⟨rfl, rfl, by simp [newPlaylist], by omega, rfl, fun j hj => by omega, fun j h1 h2 => ?_, fun _ => ⟨rfl, rfl, fun h => ?_⟩, fun h => absurd rfl h⟩
  · simp [newPlaylist, List.getElem?_replicate, h2]
  · simp [newPlaylist, List.getElem?_replicate, h]

theorem sinv_hist {zero : D} {uri : Bytes} {n : Nat} {hist more : List (D × Int)} (hn : (hist ++ more).length ≤ n) {pl : Playlist D}
    (h : addSegments (newPlaylist zero uri n) hist = .ok pl) : SInv zero uri n (hist ++ more) hist.length pl more .idle := by
  obtain ⟨k, h1, -⟩ := serve_inv (zero := zero) (fmt := fun _ => []) (uri := uri) (n := n) (k0 := 0) hn (List.replicate (5 * hist.length) .adder) 0
    ⟨newPlaylist zero uri n, hist ++ more, .idle, .start⟩ (sinv_new zero uri n _) (Nat.le_refl 0)
  rw [adds_refine _ hist more _ _ _ h] at h1
  have h2 := (h1.idle rfl).1
  have h3 := h1.le
  have h4 := congrArg List.length h2
  simp only [List.length_drop, List.length_append] at h3 h4
  obtain rfl : k = hist.length := by omega
  exact h1

/-! ## C146 -/

/-- **C146**, part: `String` runs alone. It returns the text of the moment. Missing: `AddSegment` at the same time
(`C146_refuted`). -/
theorem C146_alone_partial (fmt : D → Bytes) (zero : D) (uri : Bytes) (n : Nat) (hn : 1 ≤ n) (hist more : List (D × Int)) (hk : hist.length < 2 * n)
    (hr : FileInRange hist) {pl : Playlist D} (h : addSegments (newPlaylist zero uri n) hist = .ok pl) :
    ∃ steps, (serve fmt (List.replicate steps .renderer) (servedFrom pl more)).rendering = .done (playlistShowing fmt uri (newest n (listed 0 hist))) := by
  obtain ⟨pl', h', hs⟩ := C38_newest_partial fmt zero uri n hn hist hk hr
  rw [h] at h'
  injection h' with h'
  subst h'
  obtain ⟨steps, hst⟩ := string_alone fmt pl _ hs
  refine ⟨steps, ?_⟩
  rw [serve_replicate]
  exact hst

/-- **C146**, part: while there are free slots. Whatever the schedule, `String` does not panic, and all segments but the last
are shown as they are; every segment that was complete when it was called is shown, complete; fields of the last may be missing
if it was added meanwhile. Missing: the fields of the last (`C146_refuted`), and a ring in which slots are used again
(`C146_order_refuted`). -/
theorem C146_room_partial (fmt : D → Bytes) (zero : D) (uri : Bytes) (n : Nat) (hist more : List (D × Int)) (hn : (hist ++ more).length ≤ n)
    (hr : FileInRange (hist ++ more)) {pl : Playlist D} (h : addSegments (newPlaylist zero uri n) hist = .ok pl) (sch : List Who) :
    (∀ p, (serve fmt sch (servedFrom pl more)).rendering ≠ .crashed p) ∧
    ∀ txt, (serve fmt sch (servedFrom pl more)).rendering = .done txt →
      (hist = [] ∧ txt = playlistShowing fmt uri []) ∨
      ∃ (m : Nat) (whole x : Listed D), hist.length ≤ m + 1 ∧ (listed 0 (hist ++ more))[m]? = some whole ∧
        txt = playlistShowing fmt uri (listed 0 ((hist ++ more).take m) ++ [x]) ∧ PartlyFilled zero whole x ∧ (m < hist.length → x = whole) := by
  obtain ⟨k, -, hR⟩ := serve_inv (zero := zero) (fmt := fmt) (uri := uri) (n := n) (all := hist ++ more) (k0 := hist.length) hn sch hist.length
    (servedFrom pl more) (sinv_hist hn h) (Nat.le_refl _)
  refine ⟨fun p hp => by rw [hp] at hR; exact hR, fun txt ht => ?_⟩
  rw [ht] at hR
  rcases hR with ⟨h0, h1⟩ | ⟨m, segs, g, x, h1, h2, h3, h4, h5, h6, h7, h8, h9⟩
  · exact .inl ⟨List.length_eq_zero_iff.1 h0, h1⟩
  · rw [histSeg_some h1, take_in_range hr] at h5
    injection h5 with h5
    subst h5
    have hwhole : (listed 0 (hist ++ more))[m]? = some ⟨(hist ++ more)[m].1, total ((hist ++ more).take m), (hist ++ more)[m].2⟩ := by
      rw [listed_get, List.getElem?_eq_getElem h1]
      simp
    refine .inr ⟨m, _, toListed x, h2, hwhole, ?_, ⟨?_, ?_, ?_⟩, fun hm => ?_⟩
    · rw [h6]
      unfold playlistShowing
      rw [List.map_append]
      congr 3
      apply List.ext_getElem?
      intro j
      rw [List.getElem?_map, listed_get]
      by_cases hj : j < m
      · rw [h4 j hj, histSeg_some (by omega), take_in_range hr, List.getElem?_take_of_lt hj, List.getElem?_eq_getElem (by omega)]
        simp only [Option.map_some, toListed, Int.zero_add, List.take_take]
        rw [Nat.min_eq_left (by omega)]
      · rw [List.getElem?_eq_none (by omega), List.getElem?_eq_none (by rw [List.length_take]; omega)]
        rfl
    · exact (h7.imp id fun e => e.2.2).symm
    · exact (h8.imp id fun e => e.2.2).symm
    · exact (h9.imp id fun e => e.2.2).symm
    · have e1 := h7.resolve_right fun e => by have := e.2.1; omega
      have e2 := h8.resolve_right fun e => by have := e.2.1; omega
      have e3 := h9.resolve_right fun e => by have := e.2.1; omega
      unfold toListed
      rw [e1, e2, e3]

theorem addSegments_append (a b : List (D × Int)) : ∀ (pl pl' : Playlist D), addSegments pl a = .ok pl' → addSegments pl (a ++ b) = addSegments pl' b := by
  induction a with
  | nil => intro pl pl' h; cases h; rfl
  | cons x t ih =>
    intro pl pl' h
    rw [addSegments] at h
    rw [List.cons_append, addSegments]
    cases ha : addSegment pl x.1 x.2 with
    | error p => rw [ha] at h; cases h
    | ok pl1 =>
      rw [ha, go_ok_bind] at h
      rw [go_ok_bind]
      exact ih pl1 pl' h

theorem showing_lines (fmt : D → Bytes) (uri : Bytes) (hu : (10 : UInt8) ∉ uri) (hf : ∀ d, (10 : UInt8) ∉ fmt d) {a b : List (Listed D)}
    (h : playlistShowing fmt uri a = playlistShowing fmt uri b) : a.flatMap (segmentLines fmt uri) = b.flatMap (segmentLines fmt uri) := by
  have h1 := split_text _ (lines_no_nl fmt uri hu hf a)
  have h2 := split_text _ (lines_no_nl fmt uri hu hf b)
  unfold playlistShowing at h
  rw [h, h2] at h1
  have h3 := List.append_cancel_right h1
  unfold playlistLines at h3
  exact (List.append_cancel_left (List.append_cancel_right h3)).symm

/-- After three writes of `AddSegment` the playlist is what adding an empty segment would have made it. -/
theorem half_added (fmt : D → Bytes) {zero : D} {uri : Bytes} {n : Nat} {hist : List (D × Int)} {d : D} {len : Int} (h1 : hist ≠ []) (hk : hist.length < n)
    {pl : Playlist D} (h : SInv zero uri n (hist ++ [(d, len)]) hist.length pl [(d, len)] .idle) {pl' : Playlist D} (ha : addSegment pl d 0 = .ok pl') :
    serve fmt [.adder, .adder, .adder] (servedFrom pl [(d, len)]) = ⟨pl', [], .putLength len, .start⟩ := by
  obtain ⟨-, hlast, hslot⟩ := h.idle rfl
  have hfirst := h.first
  have hl : hist.length ≠ 0 := fun e => h1 (List.length_eq_zero_iff.1 e)
  rw [if_neg hl] at hfirst
  have hslot := hslot hk
  unfold addSegment at ha
  cases hp : nextPosition pl with
  | error p => rw [hp] at ha; cases ha
  | ok pos =>
    rw [hp, go_ok_bind] at ha
    have hm : modInt (pl.last + 1) pl.segments.length = .ok (hist.length : Int) := by
      unfold modInt
      rw [h.len, if_neg (by omega), hlast]
      congr 1
      rw [show (hist.length : Int) - 1 + 1 = hist.length by omega, ← Int.ofNat_tmod, Nat.mod_eq_of_lt hk]
    rw [hm, go_ok_bind] at ha
    unfold setInt at ha
    have hs : 0 ≤ (hist.length : Int) ∧ (hist.length : Int).toNat < pl.segments.length := ⟨by omega, by rw [h.len]; omega⟩
    rw [if_pos hs, go_ok_bind] at ha
    injection ha with ha
    have e : addStep (servedFrom pl [(d, len)]) = ⟨{ pl with last := hist.length }, [], .putDuration d pos len, .start⟩ := by
      unfold addStep servedFrom
      dsimp only
      rw [hp, hm]
    have hset : ((pl.segments.modify (hist.length : Int).toNat fun g => { g with duration := d }).modify (hist.length : Int).toNat fun g => { g with position := pos }) =
        pl.segments.set (hist.length : Int).toNat ⟨d, pos, 0⟩ := by
      apply List.ext_getElem?
      intro i
      rw [List.getElem?_modify, List.getElem?_modify, List.getElem?_set]
      by_cases hi : (hist.length : Int).toNat = i
      · rw [if_pos hi, ← hi, if_pos hs.2, Int.toNat_natCast, hslot]
        simp
      · rw [if_neg hi]
        rw [Int.toNat_natCast] at hi
        simp [hi]
    show addStep (addStep (addStep _)) = _
    rw [e, ← ha]
    simp only [addStep, putField, hset, hfirst]
    rw [if_neg (by omega), if_neg (by omega)]

/-- **C146** does not hold: whenever the ring has a segment and a free slot, `String` called in the middle of `AddSegment`
shows the new segment with no bytes, in a text that is not that of any moment. -/
theorem C146_refuted (fmt : D → Bytes) (hf : ∀ d, (10 : UInt8) ∉ fmt d) (zero : D) (uri : Bytes) (hu : (10 : UInt8) ∉ uri) (n : Nat) (hist : List (D × Int))
    (h1 : hist ≠ []) (hk : hist.length < n) (d : D) (len : Int) (hlen : len ≠ 0) (hr : FileInRange (hist ++ [(d, len)])) {pl : Playlist D}
    (h : addSegments (newPlaylist zero uri n) hist = .ok pl) :
    ∃ sch txt, (serve fmt sch (servedFrom pl [(d, len)])).rendering = .done txt ∧ txt = playlistShowing fmt uri (listed 0 (hist ++ [(d, 0)])) ∧
      ¬ OfAMoment fmt uri n hist [(d, len)] txt := by
  have hpos : ∀ x ∈ hist ++ [(d, (0 : Int))], 0 ≤ x.2 := by
    intro x hx
    rcases List.mem_append.1 hx with hx | hx
    · exact hr.1 x (List.mem_append_left _ hx)
    · rw [List.mem_singleton.1 hx]; exact Int.le_refl _
  have hr0 : FileInRange (hist ++ [(d, (0 : Int))]) := by
    refine ⟨hpos, ?_⟩
    have h2 := hr.2
    have h3 := hr.1 (d, len) (by simp)
    rw [total_append] at h2 ⊢
    simp only [total] at h2 ⊢
    dsimp only at h3
    omega
  have hl0 : (hist ++ [(d, (0 : Int))]).length ≤ n := by rw [List.length_append, List.length_singleton]; omega
  have hS := sinv_hist (more := [(d, len)]) (by rw [List.length_append, List.length_singleton]; omega) h
  obtain ⟨pl', hp', hs⟩ := C38_newest_partial fmt zero uri n (by omega) (hist ++ [(d, 0)]) (by omega) hr0
  rw [addSegments_append _ _ _ _ h] at hp'
  have ha : addSegment pl d 0 = .ok pl' := by
    rw [addSegments] at hp'
    cases ha : addSegment pl d 0 with
    | error p => rw [ha] at hp'; cases hp'
    | ok pl1 => rw [ha, go_ok_bind] at hp'; exact hp'
  obtain ⟨steps, hst⟩ := string_alone fmt pl' _ hs
  have hlisted : ∀ (l : List (D × Int)) (p : Int), (listed p l).length = l.length := by
    intro l
    induction l with
    | nil => intro p; rfl
    | cons x t ih => intro p; simp [listed, ih]
  have happ : ∀ (l : List (D × Int)) (p : Int) (y : D × Int), listed p (l ++ [y]) = listed p l ++ [⟨y.1, p + total l, y.2⟩] := by
    intro l
    induction l with
    | nil => intro p y; simp [listed, total]
    | cons x t ih => intro p y; simp [listed, total, ih, Int.add_assoc]
  have hnew : ∀ l : List (D × Int), l.length ≤ n → newest n (listed 0 l) = listed 0 l := by
    intro l hl
    unfold newest
    rw [hlisted, Nat.sub_eq_zero_of_le hl, List.drop_zero]
  rw [hnew _ hl0] at hst
  refine ⟨[.adder, .adder, .adder] ++ List.replicate steps .renderer, _, ?_, rfl, ?_⟩
  · rw [serve_append, half_added fmt h1 hk hS ha, serve_replicate]
    exact hst
  · rintro ⟨j, hj, he⟩
    rw [List.length_singleton] at hj
    have hj : j = 0 ∨ j = 1 := by omega
    rcases hj with rfl | rfl
    · rw [List.take_zero, List.append_nil, hnew _ (by omega), happ] at he
      have h3 := showing_lines fmt uri hu hf he
      rw [List.flatMap_append] at h3
      have h4 := congrArg List.length h3
      rw [List.length_append] at h4
      simp [segmentLines] at h4
    · rw [show [(d, len)].take 1 = [(d, len)] from rfl, hnew _ (by rw [List.length_append, List.length_singleton]; omega), happ, happ] at he
      have h3 := showing_lines fmt uri hu hf he
      rw [List.flatMap_append, List.flatMap_append] at h3
      have h4 := List.append_cancel_left h3
      simp only [List.flatMap_cons, List.flatMap_nil, List.append_nil, segmentLines, List.cons.injEq, and_true, true_and] at h4
      have ht : 0 ≤ 0 + total hist := by
        have := (listed_nonneg (hist ++ [(d, len)]) 0 (Int.le_refl 0) hr.1 ⟨d, 0 + total hist, len⟩ (by rw [happ]; simp)).2
        exact this
      have hlen0 := hr.1 (d, len) (by simp)
      have h5 : itoa 0 ++ 64 :: itoa (0 + total hist) = itoa len ++ 64 :: itoa (0 + total hist) := by
        have := h4
        simp only [List.append_assoc] at this
        exact List.append_cancel_left this
      have h6 := byteRange_itoa (Int.le_refl 0) ht
      rw [h5, byteRange_itoa hlen0 ht] at h6
      injection h6 with h6
      injection h6 with h6
      dsimp only at hlen0
      omega

/-- A ring of two slots, both in use. -/
def fullRing : Playlist Unit := ⟨4, b!"/v", [⟨(), 0, 100⟩, ⟨(), 100, 200⟩], 0, 1⟩

theorem fullRing_reached : addSegments (newPlaylist () b!"/v" 2) [((), 100), ((), 200)] = .ok fullRing := by
  rfl

/-- **C146** does not hold when slots are used again either: `String` has read where the ring begins and ends, then a third
segment is added to a ring of two. It shows the third before the second, which is not the text of a moment. -/
theorem C146_order_refuted : ∃ sch txt, (serve (fun _ => b!"1") sch (servedFrom fullRing [((), 300)])).rendering = .done txt ∧
    txt = playlistShowing (fun _ => b!"1") b!"/v" [⟨(), 300, 300⟩, ⟨(), 100, 200⟩] ∧
    ¬ OfAMoment (fun _ => b!"1") b!"/v" 2 [((), 100), ((), 200)] [((), 300)] txt := by
  refine ⟨List.replicate 2 .renderer ++ List.replicate 5 .adder ++ List.replicate 6 .renderer,
    playlistShowing (fun _ => b!"1") b!"/v" [⟨(), 300, 300⟩, ⟨(), 100, 200⟩], by rfl, rfl, ?_⟩
  rintro ⟨j, hj, he⟩
  have hj : j = 0 ∨ j = 1 := by
    rw [List.length_singleton] at hj
    omega
  rcases hj with rfl | rfl
  · revert he; decide +kernel
  · revert he; decide +kernel

/-- The hypotheses are met: a ring of three slots with one segment, to which one more is added. -/
example : FileInRange ([((), 5)] ++ [((), 6)] : List (Unit × Int)) ∧ ([((), 5)] ++ [((), 6)] : List (Unit × Int)).length ≤ 3 ∧
    addSegments (newPlaylist () b!"/v" 3) [((), 5)] = .ok ⟨4, b!"/v", [⟨(), 0, 5⟩, ⟨(), 0, 0⟩, ⟨(), 0, 0⟩], 0, 0⟩ :=
  ⟨⟨by decide, by decide⟩, by decide, by rfl⟩

/-- A schedule in which `String` ends between two writes: the length is not yet there. -/
example : (serve (fun _ => b!"1") [.adder, .renderer, .renderer, .adder, .renderer, .adder, .renderer, .renderer, .renderer, .renderer, .renderer]
    (servedFrom ⟨4, b!"/v", [⟨(), 0, 5⟩, ⟨(), 0, 0⟩, ⟨(), 0, 0⟩], 0, 0⟩ [((), 6)])).rendering =
      (.done (playlistShowing (fun _ => b!"1") b!"/v" [⟨(), 0, 5⟩, ⟨(), 5, 0⟩]) : Rendering Unit) := by
  rfl

end Ouro
