import Verif.Lemmas.Hls
import Verif.Lemmas.Strings
/-! # HLS playlist: C38–C40 -/
namespace Ouro
open Spec

variable {D : Type}

/-- Segment lengths are not negative and the file fits a 63-bit offset. -/
def FileInRange (hist : List (D × Int)) : Prop := (∀ x ∈ hist, 0 ≤ x.2) ∧ total hist < 2 ^ 63

theorem total_nonneg {hist : List (D × Int)} (h : ∀ x ∈ hist, 0 ≤ x.2) : 0 ≤ total hist := by
  induction hist with
  | nil => simp [total]
  | cons x t ih =>
    obtain ⟨d, l⟩ := x
    have := h (d, l) (by simp)
    have := ih fun y hy => h y (by simp [hy])
    simp only [total]; omega

theorem take_in_range {hist : List (D × Int)} (h : FileInRange hist) (j : Nat) : i64 (total (hist.take j)) = total (hist.take j) := by
  obtain ⟨h1, h2⟩ := h
  have e := total_append (hist.take j) (hist.drop j)
  rw [List.take_append_drop] at e
  have a := total_nonneg (hist := hist.take j) fun x hx => h1 x (List.mem_of_mem_take hx)
  have b := total_nonneg (hist := hist.drop j) fun x hx => h1 x (List.mem_of_mem_drop hx)
  unfold i64; omega

theorem listed_get (hist : List (D × Int)) (pos : Int) (j : Nat) :
    (listed pos hist)[j]? = hist[j]?.map fun x => ⟨x.1, pos + total (hist.take j), x.2⟩ := by
  induction hist generalizing pos j with
  | nil => simp [listed]
  | cons x t ih =>
    obtain ⟨d, l⟩ := x
    cases j with
    | zero => simp [listed, total]
    | succ j =>
      simp only [listed, List.getElem?_cons_succ, ih, List.take_succ_cons, total]
      congr 1
      funext x
      congr 1
      omega

theorem listed_length (hist : List (D × Int)) (pos : Int) : (listed pos hist).length = hist.length := by
  induction hist generalizing pos with
  | nil => rfl
  | cons x t ih => obtain ⟨d, l⟩ := x; simp [listed, ih]

/-- A stored segment as listed. -/
def toListed (s : Segment D) : Listed D := ⟨s.duration, s.position, s.length⟩

theorem segmentText_lines (fmt : D → Bytes) (uri : Bytes) (s : Segment D) :
    segmentText fmt uri s = text (segmentLines fmt uri (toListed s)) := by
  simp [segmentText, text, segmentLines, toListed]

theorem text_append (a b : List Bytes) : text (a ++ b) = text a ++ text b := by simp [text]

theorem segs_text (fmt : D → Bytes) (uri : Bytes) (segs : List (Segment D)) :
    segs.flatMap (segmentText fmt uri) = text ((segs.map toListed).flatMap (segmentLines fmt uri)) := by
  induction segs with
  | nil => rfl
  | cons s t ih => rw [List.flatMap_cons, ih, List.map_cons, List.flatMap_cons, text_append, segmentText_lines]

/-- What `String` returns, for fewer than 2n segments. -/
theorem playlistString_ok (fmt : D → Bytes) {uri : Bytes} {n : Nat} (hn : 1 ≤ n) {hist : List (D × Int)} {pl : Playlist D}
    (h : PlInv uri n hist pl) (hk : hist.length < 2 * n) : ∃ segs : List (Segment D),
      playlistString fmt pl = .ok (text (playlistLines fmt uri (segs.map toListed))) ∧ segs.length = min hist.length n ∧
      ∀ i, i < min hist.length n → segs[i]? = histSeg hist (hist.length - n + i) := by
  unfold playlistString
  have hv : itoa pl.version = b!"4" := by rw [h.version]; rfl
  by_cases he : hist = []
  · refine ⟨[], ?_, by simp [he], fun i hi => by simp [he] at hi⟩
    rw [(h.empty he).1, if_neg (by decide), go_pure, go_ok_bind, hv]
    rfl
  · have hl : 0 < hist.length := List.length_pos_iff.2 he
    rw [h.first he, if_pos (by omega), h.len]
    have hb : min (hist.length - n) n = (hist.length - n) % n := by
      rw [Nat.mod_eq_of_lt (by omega)]; omega
    obtain ⟨segs, h1, h2, h3⟩ := playlistLoop_ok fmt hn h he (min hist.length n - 1) (hist.length - n) (n + 1) (by omega) (by omega) (by omega)
    refine ⟨segs, ?_, by omega, fun i hi => h3 i (by omega)⟩
    rw [hb, h1, go_ok_bind, hv, segs_text]
    unfold playlistLines
    rw [text_append, text_append]
    simp [text, go_pure]

theorem playlistString_panics (fmt : D → Bytes) {uri : Bytes} {n : Nat} (hn : 1 ≤ n) {hist : List (D × Int)} {pl : Playlist D}
    (h : PlInv uri n hist pl) (hk : 2 * n ≤ hist.length) : Panics (playlistString fmt pl) := by
  have he : hist ≠ [] := by intro e; subst e; simp at hk; omega
  unfold playlistString
  rw [h.first he, if_pos (by omega), playlistLoop, idxInt, if_pos (by omega), Int.toNat_natCast, idx,
    List.getElem?_eq_none (by rw [h.len]; omega)]
  exact ⟨_, rfl⟩

/-- **C40**, exact: with n ≥ 1 slots, adding segments never panics, and rendering panics exactly after 2n or more of them. -/
theorem C40_panics_iff (fmt : D → Bytes) (zero : D) (uri : Bytes) (n : Nat) (hn : 1 ≤ n) (hist : List (D × Int)) :
    ∃ pl, addSegments (newPlaylist zero uri n) hist = .ok pl ∧ (Panics (playlistString fmt pl) ↔ 2 * n ≤ hist.length) := by
  obtain ⟨pl, h1, h2⟩ := addSegments_ok hn hist (plInv_new zero uri n)
  rw [List.nil_append] at h2
  refine ⟨pl, h1, ?_, playlistString_panics fmt hn h2⟩
  rintro ⟨p, hp⟩
  apply Classical.byContradiction
  intro hk
  obtain ⟨segs, hs, _⟩ := playlistString_ok fmt hn h2 (by omega)
  rw [hs] at hp; cases hp

/-- **C40** does not hold: a playlist with one slot cannot be rendered after two segments. -/
theorem C40_refuted : ∃ pl, addSegments (newPlaylist () b!"/live/cam.ts" 1) [((), 1000), ((), 2000)] = .ok pl ∧
    Panics (playlistString (fun _ => b!"10") pl) := by
  obtain ⟨pl, h1, h2⟩ := C40_panics_iff (fun _ : Unit => b!"10") () b!"/live/cam.ts" 1 (by decide) [((), 1000), ((), 2000)]
  exact ⟨pl, h1, h2.2 (by decide)⟩

/-- With no slots, the first segment panics. -/
theorem C40_no_slots (zero d : D) (uri : Bytes) (l : Int) : addSegment (newPlaylist zero uri 0) d l = .error .divZero := rfl

theorem split_text (lines : List Bytes) (h : ∀ l ∈ lines, (10 : UInt8) ∉ l) : split 10 (text lines) = lines ++ [[]] := by
  induction lines with
  | nil => rfl
  | cons l t ih =>
    have : text (l :: t) = l ++ 10 :: text t := by simp [text]
    rw [this, split_append _ (h l (by simp)), ih fun x hx => h x (by simp [hx])]
    rfl

theorem itoa_no_nl (i : Int) : (10 : UInt8) ∉ itoa i := by
  intro h
  rcases itoa_bytes i _ h with h | h
  · exact absurd h (by decide)
  · exact absurd h (by decide)

/-- **C40**, part. After fewer than 2n segments the text consists of the lines EXTM3U, version 4, three lines for each of
min(k,n) segments, and ENDLIST, each ended by a newline. Missing: 2n segments or more. -/
theorem C40_framed_partial (fmt : D → Bytes) (zero : D) (uri : Bytes) (n : Nat) (hn : 1 ≤ n) (hist : List (D × Int))
    (hk : hist.length < 2 * n) (huri : (10 : UInt8) ∉ uri) (hfmt : ∀ d, (10 : UInt8) ∉ fmt d) :
    ∃ pl s segs, addSegments (newPlaylist zero uri n) hist = .ok pl ∧ playlistString fmt pl = .ok s ∧
      segs.length = min hist.length n ∧ split 10 s = playlistLines fmt uri segs ++ [[]] := by
  obtain ⟨pl, h1, h2⟩ := addSegments_ok hn hist (plInv_new zero uri n)
  rw [List.nil_append] at h2
  obtain ⟨segs, hs, hl, _⟩ := playlistString_ok fmt hn h2 hk
  refine ⟨pl, _, segs.map toListed, h1, hs, by simp [hl], split_text _ ?_⟩
  intro l hl
  unfold playlistLines at hl
  simp only [List.mem_append, List.mem_cons, List.not_mem_nil, or_false, List.mem_flatMap] at hl
  rcases hl with ((rfl | rfl) | ⟨s, _, hs⟩) | rfl
  · decide
  · decide
  · simp only [segmentLines, List.mem_cons, List.not_mem_nil, or_false] at hs
    have h1 := itoa_no_nl s.length
    have h2 := itoa_no_nl s.start
    have h3 := hfmt s.duration
    rcases hs with rfl | rfl | rfl
    · rw [List.mem_append, not_or]; exact ⟨by decide, h3⟩
    · simp only [List.mem_append, not_or]; exact ⟨⟨⟨by decide, h1⟩, by decide⟩, h2⟩
    · exact huri
  · decide

example : ([((), 5), ((), 6), ((), 7)] : List (Unit × Int)).length < 2 * 2 := by decide

/-- **C38**, part. After k < 2n segments the rendered playlist lists exactly the newest min(k,n) of them, oldest first, with the
byte ranges they have in the file. Missing: k ≥ 2n, where rendering panics (`C40_panics_iff`). -/
theorem C38_newest_partial (fmt : D → Bytes) (zero : D) (uri : Bytes) (n : Nat) (hn : 1 ≤ n) (hist : List (D × Int))
    (hk : hist.length < 2 * n) (hr : FileInRange hist) :
    ∃ pl, addSegments (newPlaylist zero uri n) hist = .ok pl ∧
      playlistString fmt pl = .ok (text (playlistLines fmt uri (newest n (listed 0 hist)))) := by
  obtain ⟨pl, h1, h2⟩ := addSegments_ok hn hist (plInv_new zero uri n)
  rw [List.nil_append] at h2
  obtain ⟨segs, hs, hl, hg⟩ := playlistString_ok fmt hn h2 hk
  refine ⟨pl, h1, ?_⟩
  rw [hs]
  congr 3
  apply List.ext_getElem?
  intro i
  unfold newest
  rw [List.getElem?_map, List.getElem?_drop, listed_get, listed_length]
  by_cases hi : i < min hist.length n
  · rw [hg i hi]
    unfold histSeg
    rw [List.getElem?_eq_getElem (by omega)]
    simp [toListed, take_in_range hr]
  · rw [List.getElem?_eq_none (by omega), List.getElem?_eq_none (by omega)]
    rfl

/-- **C38** does not hold for k ≥ 2n: whatever the segments, nothing is rendered any more. -/
theorem C38_refuted (fmt : D → Bytes) (zero : D) (uri : Bytes) (n : Nat) (hn : 1 ≤ n) (hist : List (D × Int)) (hk : 2 * n ≤ hist.length) :
    ∃ pl, addSegments (newPlaylist zero uri n) hist = .ok pl ∧ Panics (playlistString fmt pl) := by
  obtain ⟨pl, h1, h2⟩ := C40_panics_iff fmt zero uri n hn hist
  exact ⟨pl, h1, h2.2 hk⟩

/-- Three segments in two slots: the second and third are listed. -/
example : ∃ pl, addSegments (newPlaylist () b!"/s.ts" 2) [((), 5), ((), 6), ((), 7)] = .ok pl ∧
    playlistString (fun _ => b!"1") pl = .ok (text [b!"#EXTM3U", b!"#EXT-X-VERSION:4", b!"#EXTINF:1", b!"#EXT-X-BYTERANGE:6@5",
      b!"/s.ts", b!"#EXTINF:1", b!"#EXT-X-BYTERANGE:7@11", b!"/s.ts", b!"#EXT-X-ENDLIST"]) := by
  obtain ⟨pl, h1, h2⟩ := C38_newest_partial (fun _ : Unit => b!"1") () b!"/s.ts" 2 (by decide) [((), 5), ((), 6), ((), 7)] (by decide)
    ⟨by decide, by decide⟩
  exact ⟨pl, h1, by rw [h2]; rfl⟩

/-- **C39**. After any number of segments, the record of each of the newest n starts at the sum of the lengths of all segments
before it, whether or not those are still in the window. -/
theorem C39_contiguous (zero : D) (uri : Bytes) (n : Nat) (hn : 1 ≤ n) (hist : List (D × Int)) (hr : FileInRange hist) :
    ∃ pl, addSegments (newPlaylist zero uri n) hist = .ok pl ∧
      ∀ j, hist.length - n ≤ j → j < hist.length → ∃ s d l, pl.segments[j % n]? = some s ∧ hist[j]? = some (d, l) ∧
        s.duration = d ∧ s.length = l ∧ s.position = total (hist.take j) := by
  obtain ⟨pl, h1, h2⟩ := addSegments_ok hn hist (plInv_new zero uri n)
  rw [List.nil_append] at h2
  refine ⟨pl, h1, fun j hj hj' => ?_⟩
  have hg : hist[j]? = some hist[j] := List.getElem?_eq_getElem hj'
  refine ⟨⟨hist[j].1, i64 (total (hist.take j)), hist[j].2⟩, hist[j].1, hist[j].2, ?_, hg, rfl, rfl, take_in_range hr j⟩
  rw [h2.slots j hj' (by omega)]
  unfold histSeg
  rw [hg]; rfl

example : FileInRange ([((), 1000), ((), 0), ((), 70000)] : List (Unit × Int)) := ⟨by decide, by decide⟩

end Ouro
