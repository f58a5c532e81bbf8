import Verif.Spec.Playlist
import Verif.Props.Hls
import Verif.Props.Media
/-! # C102: a player and the playlist -/
namespace Ouro
open Spec

variable {D : Type}

theorem decimal_snoc (ds : Bytes) (c : UInt8) : decimal (ds ++ [c]) = decimal ds * 10 + (c.toNat - 48) := by
  unfold decimal
  rw [List.foldl_append]; rfl

theorem decimal_natDigits (n : Nat) : decimal (natDigits n) = n := by
  refine natDigits_induct (P := fun n b => decimal b = n) ?_ ?_ n
  · intro n hn
    have := (digit_val ⟨n, hn⟩).1
    show 0 * 10 + _ = n
    rw [Nat.zero_mul, Nat.zero_add]; exact this
  · intro n hn ih
    rw [decimal_snoc, ih]
    have := (digit_val ⟨n % 10, Nat.mod_lt _ (by omega)⟩).1
    dsimp only at this
    omega

theorem itoa_decimalInteger {i : Int} (h : 0 ≤ i) : decimalInteger (itoa i) = some i.toNat := by
  unfold itoa
  rw [if_neg (by omega)]
  unfold decimalInteger
  rw [if_pos, decimal_natDigits]
  · congr 1; omega
  · refine ⟨natDigits_ne_nil _, fun c hc => ?_⟩
    have := natDigits_digit _ c hc
    unfold isDigit at this
    simpa using this

theorem byteRange_itoa {a b : Int} (ha : 0 ≤ a) (hb : 0 ≤ b) : byteRange (itoa a ++ 64 :: itoa b) = some (a.toNat, b.toNat) := by
  have ht : (itoa a ++ 64 :: itoa b).takeWhile (· ≠ 64) = itoa a := by
    refine (takeWhile_stop (p := (· ≠ (64 : UInt8))) (fun c hc => ?_) (.inr ⟨64, _, rfl, rfl⟩)).1
    rcases itoa_bytes a c hc with h | h
    · rw [decide_eq_true_iff]; rintro rfl; cases h
    · subst h; rfl
  unfold byteRange
  rw [ht, itoa_decimalInteger ha]
  have : (itoa a ++ 64 :: itoa b).drop ((itoa a).length + 1) = itoa b := by
    rw [show (itoa a).length + 1 = (itoa a ++ [64]).length by simp, show itoa a ++ 64 :: itoa b = (itoa a ++ [64]) ++ itoa b by simp, List.drop_left]
  rw [this, itoa_decimalInteger hb]

theorem tagged_append (t v : Bytes) : tagged t (t ++ v) = some v := by
  unfold tagged
  rw [if_pos (List.prefix_append _ _), List.drop_left]

theorem tagged_other {t l : Bytes} (h : ¬ t <+: l) : tagged t l = none := if_neg h

/-- A tag is not at the start of a line that differs from it. -/
theorem not_prefix {t l : Bytes} (i : Nat) (ht : i < t.length) (h : l[i]? ≠ t[i]?) : ¬ t <+: l := by
  rintro ⟨x, rfl⟩
  rw [List.getElem?_append_left ht] at h
  exact h rfl

theorem readLines_segment (rd : Bytes → Option D) (fmt : D → Bytes) (hrd : ∀ d, rd (fmt d) = some d) (hc : ∀ d, (44 : UInt8) ∉ fmt d) (uri : Bytes) (hu : uri ≠ [])
    (hu' : uri.head? ≠ some 35) (x : Listed D) (h1 : 0 ≤ x.length) (h2 : 0 ≤ x.start) (ls : List Bytes) :
    readLines rd none none (segmentLines fmt uri x ++ ls) = (readLines rd none none ls).map (⟨x.duration, x.length.toNat, x.start.toNat, uri⟩ :: ·) := by
  have hnot : ∀ t : Bytes, t.head? = some 35 → ¬ t <+: uri := by
    rintro t ht ⟨y, rfl⟩
    apply hu'
    cases t with
    | nil => cases ht
    | cons a t => exact ht
  have htake : (fmt x.duration).takeWhile (· ≠ 44) = fmt x.duration := by
    have := takeWhile_stop (p := (· ≠ (44 : UInt8))) (a := fmt x.duration) (b := []) (fun c hcm => ?_) (.inl rfl)
    · rw [List.append_nil] at this; exact this.1
    · rw [decide_eq_true_iff]; rintro rfl; exact hc _ hcm
  unfold segmentLines
  rw [show b!"#EXT-X-BYTERANGE:" ++ itoa x.length ++ b!"@" ++ itoa x.start = b!"#EXT-X-BYTERANGE:" ++ (itoa x.length ++ 64 :: itoa x.start) by simp]
  show readLines rd none none ((b!"#EXTINF:" ++ fmt x.duration) :: (b!"#EXT-X-BYTERANGE:" ++ (itoa x.length ++ 64 :: itoa x.start)) :: uri :: ls) = _
  rw [readLines, tagged_append]
  dsimp only
  rw [htake, hrd]
  dsimp only
  rw [readLines, tagged_append, tagged_other (not_prefix (t := b!"#EXTINF:") 4 (by decide) (by rw [List.getElem?_append_left (by decide)]; decide))]
  dsimp only
  rw [byteRange_itoa h1 h2]
  dsimp only
  rw [readLines, tagged_other (hnot b!"#EXTINF:" rfl), tagged_other (hnot b!"#EXT-X-BYTERANGE:" rfl)]
  dsimp only
  rw [if_neg (not_or.2 ⟨hu, hu'⟩)]
  all_goals (intro _ _ h h'; first | (cases h'; done) | (cases h; done))

theorem readLines_segments (rd : Bytes → Option D) (fmt : D → Bytes) (hrd : ∀ d, rd (fmt d) = some d) (hc : ∀ d, (44 : UInt8) ∉ fmt d) (uri : Bytes) (hu : uri ≠ [])
    (hu' : uri.head? ≠ some 35) (segs : List (Listed D)) (hs : ∀ x ∈ segs, 0 ≤ x.length ∧ 0 ≤ x.start) :
    readLines rd none none (playlistLines fmt uri segs ++ [[]]) = some (segs.map fun x => ⟨x.duration, x.length.toNat, x.start.toNat, uri⟩) := by
  have key : ∀ segs : List (Listed D), (∀ x ∈ segs, 0 ≤ x.length ∧ 0 ≤ x.start) →
      readLines rd none none (segs.flatMap (segmentLines fmt uri) ++ [b!"#EXT-X-ENDLIST", []]) = some (segs.map fun x => ⟨x.duration, x.length.toNat, x.start.toNat, uri⟩) := by
    intro segs
    induction segs with
    | nil => intro _; rfl
    | cons x t ih =>
      intro h
      rw [List.flatMap_cons, List.append_assoc, readLines_segment rd fmt hrd hc uri hu hu' x (h x (by simp)).1 (h x (by simp)).2, ih fun y hy => h y (by simp [hy])]
      rfl
  have := key segs hs
  unfold playlistLines
  rw [List.append_assoc, List.append_assoc]
  exact this

theorem listed_nonneg : ∀ (hist : List (D × Int)) (p : Int), 0 ≤ p → (∀ x ∈ hist, 0 ≤ x.2) → ∀ x ∈ listed p hist, 0 ≤ x.length ∧ 0 ≤ x.start := by
  intro hist
  induction hist with
  | nil => intro p _ _ x hx; cases hx
  | cons y t ih =>
    intro p hp h x hx
    obtain ⟨d, l⟩ := y
    have hl : 0 ≤ l := h (d, l) (by simp)
    rcases List.mem_cons.1 hx with rfl | hx
    · exact ⟨hl, hp⟩
    · exact ih (p + l) (by omega) (fun y hy => h y (by simp [hy])) x hx

theorem lines_no_nl (fmt : D → Bytes) (uri : Bytes) (huri : (10 : UInt8) ∉ uri) (hfmt : ∀ d, (10 : UInt8) ∉ fmt d) (segs : List (Listed D)) :
    ∀ l ∈ playlistLines fmt uri segs, (10 : UInt8) ∉ l := by
  intro l hl
  unfold playlistLines at hl
  simp only [List.mem_append, List.mem_cons, List.not_mem_nil, or_false, List.mem_flatMap] at hl
  rcases hl with ((rfl | rfl) | ⟨s, _, hs⟩) | rfl
  · decide
  · decide
  · simp only [segmentLines, List.mem_cons, List.not_mem_nil, or_false] at hs
    have h1 := itoa_no_nl s.length
    have h2 := itoa_no_nl s.start
    have h3 := hfmt s.duration
    rcases hs with rfl | rfl | rfl
    · rw [List.mem_append, not_or]; exact ⟨by decide, h3⟩
    · simp only [List.mem_append, not_or]; exact ⟨⟨⟨by decide, h1⟩, by decide⟩, h2⟩
    · exact huri
  · decide

/-- Durations as they are written: `rd` reads them back, and they have neither commas nor line ends. -/
structure Durations (fmt : D → Bytes) (rd : Bytes → Option D) : Prop where
  back : ∀ d, rd (fmt d) = some d
  comma : ∀ d, (44 : UInt8) ∉ fmt d
  line : ∀ d, (10 : UInt8) ∉ fmt d

/-- An address that can stand on a line of a playlist. -/
structure OnLine (uri : Bytes) : Prop where
  nonempty : uri ≠ []
  line : (10 : UInt8) ∉ uri
  tag : uri.head? ≠ some 35

/-- C102, what holds: after fewer than 2n segments, a player reads from the text exactly the newest n segments, oldest first, each with its duration, its
place in the file and the address of the file. -/
theorem C102_read_partial (fmt : D → Bytes) (rd : Bytes → Option D) (hd : Durations fmt rd) (zero : D) (uri : Bytes) (hu : OnLine uri) (n : Nat) (hn : 1 ≤ n)
    (hist : List (D × Int)) (hk : hist.length < 2 * n) (hr : FileInRange hist) :
    ∃ pl s, addSegments (newPlaylist zero uri n) hist = .ok pl ∧ playlistString fmt pl = .ok s ∧
      readPlaylist rd s = some ((newest n (listed 0 hist)).map fun x => ⟨x.duration, x.length.toNat, x.start.toNat, uri⟩) := by
  obtain ⟨pl, h1, h2⟩ := C38_newest_partial fmt zero uri n hn hist hk hr
  refine ⟨pl, _, h1, h2, ?_⟩
  unfold readPlaylist linesOf
  rw [split_text _ (lines_no_nl fmt uri hu.line hd.line _), if_pos (by rfl)]
  exact readLines_segments rd fmt hd.back hd.comma uri hu.nonempty hu.tag _ (fun x hx => listed_nonneg hist 0 (by decide) hr.1 x (List.mem_of_mem_drop hx))

/-- The lines of whatever is rendered. -/
theorem rendered_lines (fmt : D → Bytes) (zero : D) (uri : Bytes) (hu : OnLine uri) (hf : ∀ d, (10 : UInt8) ∉ fmt d) (n : Nat) (hn : 1 ≤ n)
    (hist : List (D × Int)) (pl : Playlist D) (s : Bytes) (h1 : addSegments (newPlaylist zero uri n) hist = .ok pl) (h2 : playlistString fmt pl = .ok s) :
    ∃ segs : List (Listed D), segs.length = min hist.length n ∧ linesOf s = playlistLines fmt uri segs ++ [[]] := by
  obtain ⟨pl', k1, k2⟩ := addSegments_ok hn hist (plInv_new zero uri n)
  rw [List.nil_append] at k2
  rw [h1] at k1
  injection k1 with k1
  subst k1
  have hk : hist.length < 2 * n := by
    apply Classical.byContradiction
    intro hk
    obtain ⟨p, hp⟩ := playlistString_panics fmt hn k2 (by omega)
    rw [h2] at hp; cases hp
  obtain ⟨segs, hs, hl, _⟩ := playlistString_ok fmt hn k2 hk
  rw [h2] at hs
  injection hs with hs
  subst hs
  exact ⟨segs.map toListed, by rw [List.length_map, hl], split_text _ (lines_no_nl fmt uri hu.line hf _)⟩

/-- What a line of a playlist can be. -/
theorem line_cases {fmt : D → Bytes} {uri : Bytes} {segs : List (Listed D)} {l : Bytes} (h : l ∈ playlistLines fmt uri segs ++ [[]]) :
    l = b!"#EXTM3U" ∨ l = b!"#EXT-X-VERSION:4" ∨ l = b!"#EXT-X-ENDLIST" ∨ l = [] ∨ l = uri ∨
    ∃ x ∈ segs, l = b!"#EXTINF:" ++ fmt x.duration ∨ l = b!"#EXT-X-BYTERANGE:" ++ (itoa x.length ++ b!"@" ++ itoa x.start) := by
  unfold playlistLines segmentLines at h
  simp only [List.mem_append, List.mem_cons, List.not_mem_nil, or_false, List.mem_flatMap] at h
  rcases h with (((h | h) | ⟨x, hx, h | h | h⟩) | h) | h
  · exact .inl h
  · exact .inr (.inl h)
  · exact .inr (.inr (.inr (.inr (.inr ⟨x, hx, .inl h⟩))))
  · exact .inr (.inr (.inr (.inr (.inr ⟨x, hx, .inr (by rw [h]; simp)⟩))))
  · exact .inr (.inr (.inr (.inr (.inl h))))
  · exact .inr (.inr (.inl h))
  · exact .inr (.inr (.inr (.inl h)))

/-- A tag that is never written. -/
theorem line_untagged {fmt : D → Bytes} {uri : Bytes} (hu : OnLine uri) {segs : List (Listed D)} {l : Bytes} (h : l ∈ playlistLines fmt uri segs ++ [[]]) (t : Bytes)
    (h0 : t.head? = some 35) (ht : ¬ t <+: b!"#EXTM3U" ∧ ¬ t <+: b!"#EXT-X-VERSION:4" ∧ ¬ t <+: b!"#EXT-X-ENDLIST")
    (h1 : 8 < t.length) (h2 : t.take 8 ≠ b!"#EXTINF:") (h3 : 17 ≤ t.length) (h4 : t.take 17 ≠ b!"#EXT-X-BYTERANGE:") : tagged t l = none := by
  apply tagged_other
  rintro ⟨y, hy⟩
  rcases line_cases h with rfl | rfl | rfl | rfl | rfl | ⟨x, _, rfl | rfl⟩
  · exact ht.1 ⟨y, hy⟩
  · exact ht.2.1 ⟨y, hy⟩
  · exact ht.2.2 ⟨y, hy⟩
  · have := congrArg List.length hy
    simp at this
    rw [this.1] at h1
    cases h1
  · apply hu.tag
    rw [← hy]
    cases t with
    | nil => cases h0
    | cons a t => exact h0
  · apply h2
    have := congrArg (List.take 8) hy
    rw [List.take_append_of_le_length (by omega), List.take_append_of_le_length (by decide)] at this
    exact this
  · apply h4
    have := congrArg (List.take 17) hy
    rw [List.take_append_of_le_length (by omega), List.take_append_of_le_length (by decide)] at this
    exact this

/-- C102 fails: no playlist ever has a target duration. -/
theorem C102_target_refuted (fmt : D → Bytes) (zero : D) (uri : Bytes) (hu : OnLine uri) (hf : ∀ d, (10 : UInt8) ∉ fmt d) (n : Nat) (hn : 1 ≤ n)
    (hist : List (D × Int)) (pl : Playlist D) (s : Bytes) (h1 : addSegments (newPlaylist zero uri n) hist = .ok pl) (h2 : playlistString fmt pl = .ok s) :
    ¬ HasTargetDuration s := by
  obtain ⟨segs, _, hs⟩ := rendered_lines fmt zero uri hu hf n hn hist pl s h1 h2
  rintro ⟨l, hl, h⟩
  rw [hs] at hl
  rw [line_untagged hu hl _ rfl (by decide) (by decide) (by decide) (by decide) (by decide)] at h
  cases h

/-- C102 fails: the comma after the duration is missing in each playlist that lists a segment. -/
theorem C102_comma_refuted (fmt : D → Bytes) (zero : D) (uri : Bytes) (hu : OnLine uri) (hf : ∀ d, (10 : UInt8) ∉ fmt d) (hc : ∀ d, (44 : UInt8) ∉ fmt d) (n : Nat) (hn : 1 ≤ n)
    (hist : List (D × Int)) (hne : hist ≠ []) (pl : Playlist D) (s : Bytes) (h1 : addSegments (newPlaylist zero uri n) hist = .ok pl)
    (h2 : playlistString fmt pl = .ok s) : ¬ EveryDurationHasComma s := by
  obtain ⟨segs, hl, hs⟩ := rendered_lines fmt zero uri hu hf n hn hist pl s h1 h2
  have hlen : 0 < hist.length := List.length_pos_iff.2 hne
  intro h
  cases segs with
  | nil => rw [List.length_nil] at hl; omega
  | cons x t =>
    refine hc x.duration (h (b!"#EXTINF:" ++ fmt x.duration) ?_ _ (tagged_append _ _))
    rw [hs]
    unfold playlistLines segmentLines
    simp

/-- C102 fails: every playlist says that it is complete. A segment that is added later is read by nobody who believes it. -/
theorem C102_ended_refuted (fmt : D → Bytes) (zero : D) (uri : Bytes) (hu : OnLine uri) (hf : ∀ d, (10 : UInt8) ∉ fmt d) (n : Nat) (hn : 1 ≤ n)
    (hist : List (D × Int)) (pl : Playlist D) (s : Bytes) (h1 : addSegments (newPlaylist zero uri n) hist = .ok pl) (h2 : playlistString fmt pl = .ok s) : SaysEnded s := by
  obtain ⟨segs, _, hs⟩ := rendered_lines fmt zero uri hu hf n hn hist pl s h1 h2
  unfold SaysEnded
  rw [hs]
  unfold playlistLines
  simp

theorem untagged_sequence (fmt : D → Bytes) (zero : D) (uri : Bytes) (hu : OnLine uri) (hf : ∀ d, (10 : UInt8) ∉ fmt d) (n : Nat) (hn : 1 ≤ n)
    (hist : List (D × Int)) (pl : Playlist D) (s : Bytes) (h1 : addSegments (newPlaylist zero uri n) hist = .ok pl) (h2 : playlistString fmt pl = .ok s) : mediaSequence s = 0 := by
  obtain ⟨segs, _, hs⟩ := rendered_lines fmt zero uri hu hf n hn hist pl s h1 h2
  unfold mediaSequence
  have : (linesOf s).filterMap (tagged b!"#EXT-X-MEDIA-SEQUENCE:") = [] := by
    rw [List.filterMap_eq_nil_iff]
    intro l hl
    rw [hs] at hl
    exact line_untagged hu hl _ rfl (by decide) (by decide) (by decide) (by decide) (by decide)
  rw [this]; rfl

/-- C102 fails: when the window moves, the number 0 passes from one segment to the next. Here `a` is the oldest of n segments in n slots, `b` the one after it;
with one more segment, the player sees `b` with the number that `a` had. -/
theorem C102_sequence_refuted (fmt : D → Bytes) (rd : Bytes → Option D) (hd : Durations fmt rd) (zero : D) (uri : Bytes) (hu : OnLine uri) (n : Nat) (hn : 2 ≤ n)
    (hist : List (D × Int)) (hk : n ≤ hist.length) (x : D × Int) (hk' : hist.length + 1 < 2 * n) (hr : FileInRange (hist ++ [x])) :
    ∃ pl s pl' s' a b t t', addSegments (newPlaylist zero uri n) hist = .ok pl ∧ playlistString fmt pl = .ok s ∧
      addSegments (newPlaylist zero uri n) (hist ++ [x]) = .ok pl' ∧ playlistString fmt pl' = .ok s' ∧
      mediaSequence s = 0 ∧ readPlaylist rd s = some (a :: b :: t) ∧ mediaSequence s' = 0 ∧ readPlaylist rd s' = some (b :: t') := by
  have hr0 : FileInRange hist := by
    refine ⟨fun y hy => hr.1 y (by simp [hy]), ?_⟩
    have e := total_append hist [x]
    have := total_nonneg (hist := [x]) fun y hy => hr.1 y (by simp at hy; simp [hy])
    have := hr.2
    omega
  obtain ⟨pl, s, h1, h2, h3⟩ := C102_read_partial fmt rd hd zero uri hu n (by omega) hist (by omega) hr0
  obtain ⟨pl', s', k1, k2, k3⟩ := C102_read_partial fmt rd hd zero uri hu n (by omega) (hist ++ [x]) (by simpa using hk') hr
  have q1 := untagged_sequence fmt zero uri hu hd.line n (by omega) hist pl s h1 h2
  have q2 := untagged_sequence fmt zero uri hu hd.line n (by omega) _ pl' s' k1 k2
  have hlist : ∀ (h : List (D × Int)) (p : Int), ∃ y, listed p (h ++ [x]) = listed p h ++ [y] := by
    intro h
    induction h with
    | nil => intro p; exact ⟨_, rfl⟩
    | cons z h ih => intro p; obtain ⟨y, hy⟩ := ih (p + z.2); exact ⟨y, by show _ :: listed (p + z.2) (h ++ [x]) = _; rw [hy]; rfl⟩
  obtain ⟨y, hy⟩ := hlist hist 0
  have hl := listed_length hist 0
  unfold newest at h3 k3
  rw [hy] at k3
  rw [hl] at h3
  rw [List.length_append, hl, List.length_singleton] at k3
  have e1 : (listed 0 hist).drop (hist.length - n) = (listed 0 hist)[hist.length - n]'(by omega) :: (listed 0 hist)[hist.length - n + 1]'(by omega) :: (listed 0 hist).drop (hist.length - n + 2) := by
    rw [List.drop_eq_getElem_cons (by omega), List.drop_eq_getElem_cons (by omega)]
  have e2 : (listed 0 hist ++ [y]).drop (hist.length + 1 - n) = (listed 0 hist)[hist.length - n + 1]'(by omega) :: ((listed 0 hist).drop (hist.length - n + 2) ++ [y]) := by
    rw [show hist.length + 1 - n = hist.length - n + 1 by omega, List.drop_append_of_le_length (by omega), List.drop_eq_getElem_cons (by omega)]
    rfl
  rw [e1] at h3
  rw [e2] at k3
  exact ⟨pl, s, pl', s', _, _, _, _, h1, h2, k1, k2, q1, h3, q2, k3⟩

/-- Addresses made by `NewPlaylist` are lines of their own, if they are not empty and do not begin with `#`. -/
example : OnLine b!"https://example.com/media/video.ts" := ⟨by decide, by decide, by decide⟩

example : Durations (fun _ : Unit => b!"3.014") (fun b => if b = b!"3.014" then some () else none) :=
  ⟨fun _ => rfl, fun _ => by decide, fun _ => by decide⟩

example : FileInRange ([((), 5), ((), 6), ((), 7)] ++ [((), 8)] : List (Unit × Int)) := ⟨by decide, by decide⟩

example : readPlaylist (fun b => some b) (b!"#EXTM3U\n#EXT-X-VERSION:4\n#EXTINF:3.014\n#EXT-X-BYTERANGE:96448@82560\nhttps://example.com/media/video.ts\n#EXT-X-ENDLIST\n") =
    some [⟨b!"3.014", 96448, 82560, b!"https://example.com/media/video.ts"⟩] := by decide +kernel

end Ouro
