import Verif.Lemmas.ParamSets
import Verif.Lemmas.Nal2
/-! # Lemmas about `ParseSPS` -/
namespace Ouro
open Spec

/-- Decoded form of the high profile part. -/
def highInfo (h : SpsHigh) : SpsHighInfo :=
  ⟨h.chroma_format_idc, h.separate_colour_plane_flag, h.bit_depth_luma_minus8, h.bit_depth_chroma_minus8,
   h.qpprime_y_zero_transform_bypass_flag, h.scaling_matrix.isSome,
   match h.scaling_matrix with | none => ScalingMatrix.zero | some ls => matrixInfo ls⟩

theorem parses_high (h : SpsHigh) (hv : h.Valid) : Parses parseSpsHigh h.bits (highInfo h) := by
  obtain ⟨h1, h2, h3, h4, h5⟩ := hv
  obtain ⟨chroma, sep, dl, dc, bp, mat⟩ := h
  dsimp only at h1 h2 h3 h4 h5
  unfold SpsHigh.bits parseSpsHigh highInfo
  dsimp only
  simp only [List.append_assoc]
  refine (parses_ue (by omega)).bind ?_
  refine Parses.bind (a := sep) ?_ ?_
  · by_cases hc : chroma = 3
    · rw [if_pos hc, if_pos hc]; exact parses_flag _
    · rw [if_neg hc, if_neg hc]
      have : sep = false := by cases sep; rfl; exact absurd (h2 rfl) hc
      subst this; exact Parses.pure _
  refine (parses_ue (by omega)).bind ?_
  refine (parses_ue (by omega)).bind ?_
  refine (parses_flag _).bind ?_
  cases mat with
  | none =>
    dsimp only
    refine Parses.last (parses_flag false) ?_
    exact Parses.bind0 (a := ScalingMatrix.zero) (Parses.pure _) (Parses.pure _)
  | some ls =>
    obtain ⟨g1, g2⟩ := h5 ls rfl
    dsimp only
    refine Parses.bind (b1 := [true]) (parses_flag true) ?_
    refine Parses.last (a := matrixInfo ls) ?_ (Parses.pure _)
    rw [if_pos rfl, ← g1]
    exact parses_matrix ls (by rw [g1]; split <;> decide) g2

/-- Decoded form of the order count part. -/
def pocInfo : Poc → SpsPocInfo
  | .type0 l => ⟨0, l, false, 0, 0, 0⟩
  | .type1 d a b rs => ⟨1, 0, d, a, b, rs.length⟩
  | .type2 => ⟨2, 0, false, 0, 0, 0⟩

/-- Offsets small enough for the reader at every alignment. -/
def PocSmall : Poc → Prop
  | .type0 _ => True
  | .type1 _ a b rs => ∀ x ∈ a :: b :: rs, -(2 ^ 24) ≤ x ∧ x ≤ 2 ^ 24
  | .type2 => False

theorem parses_poc (p : Poc) (hv : p.Valid) (hs : PocSmall p) : Parses parseSpsPoc p.bits (pocInfo p) := by
  unfold parseSpsPoc
  cases p with
  | type0 l =>
    have hl : l ≤ 12 := hv
    refine Parses.bind (parses_ue (v := 0) (by decide)) ?_
    rw [if_pos rfl]
    exact Parses.last (parses_ue (by omega)) (Parses.pure _)
  | type2 => exact hs.elim
  | type1 d a b rs =>
    obtain ⟨_, hl⟩ := hv
    simp only [Poc.bits, List.append_assoc]
    refine Parses.bind (parses_ue (v := 1) (by decide)) ?_
    rw [if_neg (by decide)]
    refine (parses_flag _).bind ?_
    refine (parses_se (hs a (by simp)).1 (hs a (by simp)).2).bind ?_
    refine (parses_se (hs b (by simp)).1 (hs b (by simp)).2).bind ?_
    refine (parses_ue (by omega)).bind ?_
    exact Parses.last (parses_skipSigned rs fun x hx => hs x (by simp [hx])) (Parses.pure _)

theorem parses_crop (c : Crop) (h : c.left < 2 ^ 25 ∧ c.right < 2 ^ 25 ∧ c.top < 2 ^ 25 ∧ c.bottom < 2 ^ 25) :
    Parses (parseSpsCrop true) (ueBits c.left ++ ueBits c.right ++ ueBits c.top ++ ueBits c.bottom)
      (c.left, c.right, c.top, c.bottom) := by
  obtain ⟨h1, h2, h3, h4⟩ := h
  simp only [parseSpsCrop, if_true, List.append_assoc]
  refine (parses_ue (by omega)).bind ?_
  refine (parses_ue (by omega)).bind ?_
  refine (parses_ue (by omega)).bind ?_
  exact (parses_ue (by omega)).last (Parses.pure _)

/-- Decoded form of the high part or its defaults. -/
def highOrDefault : Option SpsHigh → SpsHighInfo
  | none => ⟨1, false, 0, 0, false, false, ScalingMatrix.zero⟩
  | some h => highInfo h

/-- The profiles the code does not know to carry the high part, and the profile it treats specially. -/
def OddProfile (p : UInt8) : Prop := p = 139 ∨ p = 134 ∨ p = 135 ∨ p = 183

theorem isHighProfile_iff (p : UInt8) (h : ¬ OddProfile p) : isHighProfile p = true ↔ p ∈ highProfiles := by
  unfold OddProfile at h
  simp only [not_or] at h
  obtain ⟨h1, h2, h3, _⟩ := h
  simp [isHighProfile, highProfiles, h1, h2, h3, or_assoc]

theorem crop_bounds (s : Sps) (hv : s.Valid) : (s.cropOffsets.left < 2 ^ 21 ∧ s.cropOffsets.right < 2 ^ 21) ∧
    s.cropOffsets.top < 2 ^ 21 ∧ s.cropOffsets.bottom < 2 ^ 21 := by
  have hx := hv.cropX
  have hy := hv.cropY
  have hw := hv.width
  have hh := hv.height
  have ux : 1 ≤ s.cropUnitX := by unfold Sps.cropUnitX; split <;> decide
  have uy : 1 ≤ s.cropUnitY := by
    unfold Sps.cropUnitY; split <;> split <;> decide
  have a := Nat.mul_le_mul_right (s.cropOffsets.left + s.cropOffsets.right) ux
  have b := Nat.mul_le_mul_right (s.cropOffsets.top + s.cropOffsets.bottom) uy
  split at hy <;> omega

/-- The whole of `ParseSPS` up to the frame/field flag. -/
structure SpsPrefix where
  profile : UInt8
  constraint : UInt8
  level : UInt8
  id : Nat
  hi : SpsHighInfo
  fn : Nat
  poc : SpsPocInfo
  refs : Nat
  gaps : Bool
  w : Nat
  h : Nat

/-- The part of `ParseSPS` after the height. -/
def parseSpsTail (p : SpsPrefix) : BR SPSInfo := do
  let f0 ← readUnsignedGolomb
  let f := if (p.constraint &&& 2) ≠ 0 ∧ (p.profile = 77 ∨ p.profile = 88 ∨ p.profile = 100) then 1 else f0
  let mbaff ← (if f ≠ 0 then readFlag else pure false : BR Bool)
  let direct ← readFlag
  let cropping ← readFlag
  let (cl, cr, ct, cb) ← parseSpsCrop cropping
  let vui ← readFlag
  pure {
    profileIdc := p.profile, constraintSet := p.constraint, levelIdc := p.level, spsID := p.id,
    chromaFormatIdc := p.hi.chroma, separateColorPlane := p.hi.separate, bitDepthLuma := p.hi.depthLuma,
    bitDepthChroma := p.hi.depthChroma, zeroTransformBypass := p.hi.bypass, scalingMatrixPresent := p.hi.matrixPresent,
    scaling := p.hi.matrix, log2MaxFrameNum := p.fn, picOrderCntType := p.poc.typ,
    log2MaxPicOrderCnt := p.poc.log2Max, deltaPicOrderAlways0 := p.poc.deltaAlways0,
    offsetForNonRefPic := p.poc.offNonRef,
    offsetForTopToBottomField := p.poc.offTopBottom, numRefFramesInPicOrderCntCycle := p.poc.numRef,
    maxNumRefFrames := p.refs, gapsInFrameNumValueAllowed := p.gaps, picWidthInMbsMinus1 := p.w,
    picHeightInMapUnitsMinus1 := p.h, frameMbsOnly := f, mbAdaptiveFrameField := mbaff, direct8x8Inference := direct,
    frameCropping := cropping, cropLeft := cl, cropRight := cr, cropTop := ct, cropBottom := cb,
    vuiParametersPresent := vui,
    width := spsWidth p.w cl cr (subWidthC p.hi.separate p.hi.chroma),
    height := spsHeight f p.h ct cb (subHeightC p.hi.separate p.hi.chroma) }

def prefixOf (s : Sps) : SpsPrefix :=
  ⟨s.profile_idc, s.constraint_flags, s.level_idc, s.seq_parameter_set_id, highOrDefault s.high,
   s.log2_max_frame_num_minus4, pocInfo s.poc, s.max_num_ref_frames, s.gaps_in_frame_num_value_allowed_flag,
   s.pic_width_in_mbs_minus1, s.pic_height_in_map_units_minus1⟩

/-- Everything up to the height. -/
theorem steps_sps_prefix (s : Sps) (hv : s.Valid) (hodd : ¬ OddProfile s.profile_idc) (hpoc : PocSmall s.poc)
    : Steps parseSpsBits s.prefixBits (parseSpsTail (prefixOf s)) := by
  have h1 := hv.id
  have h2 := hv.frameNum
  have h3 := hv.refs
  have h4 := hv.width
  have h5 := hv.height
  unfold Sps.prefixBits parseSpsBits
  simp only [List.append_assoc]
  refine Steps.bind (parses_byte _) ?_
  refine Steps.bind (parses_byte _) ?_
  refine Steps.bind (parses_byte _) ?_
  refine Steps.bind (parses_ue (by omega)) ?_
  refine Steps.bind (a := highOrDefault s.high) ?_ ?_
  · cases hh : s.high with
    | none =>
      have hn : ¬ isHighProfile s.profile_idc = true := by
        rw [isHighProfile_iff _ hodd, ← hv.high_iff, hh]; simp
      have h183 : s.profile_idc ≠ 183 := fun h => hodd (.inr (.inr (.inr h)))
      rw [if_neg hn, if_pos h183]
      exact Parses.pure _
    | some h =>
      have hn : isHighProfile s.profile_idc = true := by
        rw [isHighProfile_iff _ hodd, ← hv.high_iff, hh]; simp
      rw [if_pos hn]
      exact parses_high h (hv.high h hh)
  refine Steps.bind (parses_ue (by omega)) ?_
  refine Steps.bind (parses_poc _ hv.poc hpoc) ?_
  refine Steps.bind (parses_ue (by omega)) ?_
  refine Steps.bind (parses_flag _) ?_
  refine Steps.bind (parses_ue (by omega)) ?_
  exact Steps.last (parses_ue (by omega)) (Steps.refl _)

theorem ueBits_zero : ueBits 0 = [true] := by decide

set_option maxRecDepth 100000 in
theorem u8_and2_of_and3 (c : UInt8) (h : c &&& 3 = 0) : c &&& 2 = 0 := by
  revert h; revert c; apply forall_u8; decide

/-- What is stored for a frame-only sequence parameter set. -/
def progressiveInfo (s : Sps) : SPSInfo :=
  let p := prefixOf s
  let c := s.cropOffsets
  { profileIdc := p.profile, constraintSet := p.constraint, levelIdc := p.level, spsID := p.id,
    chromaFormatIdc := p.hi.chroma, separateColorPlane := p.hi.separate, bitDepthLuma := p.hi.depthLuma,
    bitDepthChroma := p.hi.depthChroma, zeroTransformBypass := p.hi.bypass, scalingMatrixPresent := p.hi.matrixPresent,
    scaling := p.hi.matrix, log2MaxFrameNum := p.fn, picOrderCntType := p.poc.typ,
    log2MaxPicOrderCnt := p.poc.log2Max, deltaPicOrderAlways0 := p.poc.deltaAlways0,
    offsetForNonRefPic := p.poc.offNonRef,
    offsetForTopToBottomField := p.poc.offTopBottom, numRefFramesInPicOrderCntCycle := p.poc.numRef,
    maxNumRefFrames := p.refs, gapsInFrameNumValueAllowed := p.gaps, picWidthInMbsMinus1 := p.w,
    picHeightInMapUnitsMinus1 := p.h, frameMbsOnly := 0, mbAdaptiveFrameField := false,
    direct8x8Inference := s.direct_8x8_inference_flag,
    frameCropping := s.crop.isSome, cropLeft := c.left, cropRight := c.right, cropTop := c.top, cropBottom := c.bottom,
    vuiParametersPresent := s.vui_parameters_present_flag,
    width := spsWidth p.w c.left c.right (subWidthC p.hi.separate p.hi.chroma),
    height := spsHeight 0 p.h c.top c.bottom (subHeightC p.hi.separate p.hi.chroma) }

theorem parses_progressive (s : Sps) (hv : s.Valid) (hodd : ¬ OddProfile s.profile_idc) (hpoc : PocSmall s.poc)
    (hf : s.frame_mbs_only_flag = true) : Parses parseSpsBits s.bits (progressiveInfo s) := by
  have hb : s.bits = s.prefixBits ++ (ueBits 0 ++ ([s.direct_8x8_inference_flag] ++ (cropBits s.crop ++ [s.vui_parameters_present_flag]))) := by
    simp [Sps.bits, hf, ueBits_zero]
  rw [hb]
  refine (steps_sps_prefix s hv hodd hpoc).parses ?_
  unfold parseSpsTail
  refine (parses_ue (by decide)).bind ?_
  have hcs : ¬ ((prefixOf s).constraint &&& 2 ≠ 0 ∧ ((prefixOf s).profile = 77 ∨ (prefixOf s).profile = 88 ∨ (prefixOf s).profile = 100)) :=
    fun h => h.1 (u8_and2_of_and3 _ hv.reserved)
  rw [if_neg hcs]
  dsimp only
  rw [if_neg (by decide)]
  refine Parses.bind0 (Parses.pure false) ?_
  refine (parses_flag _).bind ?_
  have cb := crop_bounds s hv
  cases hc : s.crop with
  | none =>
    refine Parses.bind (b1 := [false]) (parses_flag false) ?_
    refine Parses.bind0 (a := (0, 0, 0, 0)) (Parses.pure _) ?_
    dsimp only
    refine (parses_flag _).last ?_
    simp only [progressiveInfo, Sps.cropOffsets, hc]
    exact Parses.pure _
  | some c =>
    have hco : s.cropOffsets = c := by simp [Sps.cropOffsets, hc]
    rw [hco] at cb
    have : cropBits (some c) ++ [s.vui_parameters_present_flag] = [true] ++ ((ueBits c.left ++ ueBits c.right ++ ueBits c.top ++ ueBits c.bottom) ++ [s.vui_parameters_present_flag]) := by
      simp [cropBits]
    rw [this]
    refine (parses_flag true).bind ?_
    refine (parses_crop c (by omega)).bind ?_
    dsimp only
    refine (parses_flag _).last ?_
    simp only [progressiveInfo, hco, hc]
    exact Parses.pure _

/-- The elements up to the height are in their fields. -/
def PrefixStored (p : SpsPrefix) (i : SPSInfo) : Prop :=
  i.profileIdc = p.profile ∧ i.constraintSet = p.constraint ∧ i.levelIdc = p.level ∧ i.spsID = p.id ∧
  i.chromaFormatIdc = p.hi.chroma ∧ i.separateColorPlane = p.hi.separate ∧ i.bitDepthLuma = p.hi.depthLuma ∧
  i.bitDepthChroma = p.hi.depthChroma ∧ i.zeroTransformBypass = p.hi.bypass ∧ i.scalingMatrixPresent = p.hi.matrixPresent ∧
  i.scaling = p.hi.matrix ∧ i.log2MaxFrameNum = p.fn ∧ i.picOrderCntType = p.poc.typ ∧
  i.log2MaxPicOrderCnt = p.poc.log2Max ∧ i.deltaPicOrderAlways0 = p.poc.deltaAlways0 ∧ i.offsetForNonRefPic = p.poc.offNonRef ∧
  i.offsetForTopToBottomField = p.poc.offTopBottom ∧ i.numRefFramesInPicOrderCntCycle = p.poc.numRef ∧
  i.maxNumRefFrames = p.refs ∧ i.gapsInFrameNumValueAllowed = p.gaps ∧ i.picWidthInMbsMinus1 = p.w ∧ i.picHeightInMapUnitsMinus1 = p.h

/-- Whatever follows the prefix, what it says is stored. -/
theorem spsTail_prefix (p : SpsPrefix) : Post (parseSpsTail p) (PrefixStored p) := by
  unfold parseSpsTail
  refine Post.bind fun f => ?_
  dsimp only
  refine Post.bind fun mb => Post.bind fun d => Post.bind fun c => Post.bind fun x => ?_
  obtain ⟨cl, cr, ct, cb⟩ := x
  exact Post.bind fun v => Post.pure ⟨rfl, rfl, rfl, rfl, rfl, rfl, rfl, rfl, rfl, rfl, rfl, rfl, rfl, rfl, rfl, rfl, rfl, rfl, rfl, rfl, rfl, rfl⟩

/-- After the field flag: whatever follows, the stored flag and height depend on the misread number only. -/
theorem spsTail_post (p : SpsPrefix) (hcs : ¬ (p.constraint &&& 2 ≠ 0 ∧ (p.profile = 77 ∨ p.profile = 88 ∨ p.profile = 100)))
    (v : Nat) (hv : v + 1 < 2 ^ 26) : ∃ k : BR SPSInfo, Steps (parseSpsTail p) (ueBits v) k ∧
      Post k (fun i => i.frameMbsOnly = v ∧
        i.height = spsHeight v p.h i.cropTop i.cropBottom (subHeightC p.hi.separate p.hi.chroma)) := by
  refine ⟨_, Steps.last (parses_ue hv) (Steps.refl _), ?_⟩
  dsimp only
  rw [if_neg hcs]
  refine Post.bind fun mb => Post.bind fun d => Post.bind fun c => Post.bind fun x => ?_
  obtain ⟨cl, cr, ct, cb⟩ := x
  exact Post.bind fun v => Post.pure ⟨rfl, rfl⟩

/-- The number read where the frame/field flag stands, for a field sequence with MBAFF and one without. -/
theorem interlaced_bits (s : Sps) (hv : s.Valid) (hf : s.frame_mbs_only_flag = false) (tail : List Bool) (ht : tail ≠ []) :
    ∃ v rest, s.bits ++ tail = s.prefixBits ++ (ueBits v ++ rest) ∧
      (s.mb_adaptive_frame_field_flag = true → v = 2) ∧ (s.mb_adaptive_frame_field_flag = false → 3 ≤ v ∧ v ≤ 6) := by
  have hd := hv.direct hf
  have hb : s.bits ++ tail = s.prefixBits ++ (false :: s.mb_adaptive_frame_field_flag :: true :: (cropBits s.crop ++ s.vui_parameters_present_flag :: tail)) := by
    simp [Sps.bits, hf, hd]
  rw [hb]
  cases hm : s.mb_adaptive_frame_field_flag with
  | true => exact ⟨2, cropBits s.crop ++ s.vui_parameters_present_flag :: tail, by simp [show ueBits 2 = [false, true, true] by decide], by simp, by simp⟩
  | false =>
    obtain ⟨c, x, rest, hc⟩ : ∃ c x rest, cropBits s.crop ++ s.vui_parameters_present_flag :: tail = c :: x :: rest := by
      cases s.crop with
      | none => exact ⟨_, _, _, rfl⟩
      | some q =>
        have : ∃ x rest, (ueBits q.left ++ ueBits q.right ++ ueBits q.top ++ ueBits q.bottom) ++ s.vui_parameters_present_flag :: tail = x :: rest := by
          cases h : (ueBits q.left ++ ueBits q.right ++ ueBits q.top ++ ueBits q.bottom) ++ s.vui_parameters_present_flag :: tail with
          | nil => simp at h
          | cons x rest => exact ⟨x, rest, rfl⟩
        obtain ⟨x, rest, h⟩ := this
        exact ⟨true, x, rest, by rw [← h]; rfl⟩
    rw [hc]
    refine ⟨3 + 2 * c.toNat + x.toNat, rest, ?_, by simp, ?_⟩
    · have u3 : ueBits 3 = [false, false, true, false, false] := by decide
      have u4 : ueBits 4 = [false, false, true, false, true] := by decide
      have u5 : ueBits 5 = [false, false, true, true, false] := by decide
      have u6 : ueBits 6 = [false, false, true, true, true] := by decide
      cases c <;> cases x <;> simp [u3, u4, u5, u6]
    · cases c <;> cases x <;> simp

/-! ## Totality -/

theorem scalingMatrixLoop_safe (todo : Nat) : ∀ (i : Nat) (m : ScalingMatrix), i + todo ≤ 12 →
    Safe (scalingMatrixLoop todo i (listOffset i) (listSize i) m) := by
  induction todo with
  | zero => intro i m _; exact Safe.pure _
  | succ todo ih =>
    intro i m hi
    have hoff : listOffset (i + 1) = listOffset i + listSize i := by
      unfold listOffset listSize; split <;> split <;> split <;> omega
    have hsize : (if i ≥ 5 then 64 else listSize i) = listSize (i + 1) := by
      unfold listSize; split <;> split <;> (try split) <;> omega
    have hmax : listOffset i + listSize i ≤ 480 := by
      unfold listOffset listSize; split <;> split <;> omega
    unfold scalingMatrixLoop
    refine readFlag_safe.bind fun b => ?_
    refine Safe.bind ?_ fun m' => ?_
    · split
      · rw [if_pos ⟨hmax, by omega⟩]
        exact (readScalingList_safe _).bind fun _ => Safe.pure _
      · exact Safe.pure _
    · rw [← hoff, hsize]; exact ih (i + 1) m' (by omega)

theorem matrix_safe (n : Nat) (h : n ≤ 12) : Safe (scalingMatrixLoop n 0 0 16 ScalingMatrix.zero) :=
  scalingMatrixLoop_safe n 0 _ (by omega)

theorem skipSigned_safe (n : Nat) : Safe (skipSigned n) := by
  induction n with
  | zero => exact Safe.pure _
  | succ n ih => exact readSE_safe.bind fun _ => ih

theorem Safe.ite {α : Type} {c : Prop} [Decidable c] {m k : BR α} (hm : c → Safe m) (hk : ¬ c → Safe k) :
    Safe (if c then m else k) := by
  split
  · exact hm ‹_›
  · exact hk ‹_›

theorem parseSpsHigh_safe : Safe parseSpsHigh := by
  unfold parseSpsHigh
  refine readUE_safe.bind fun _ => ?_
  refine Safe.bind (Safe.ite (fun _ => readFlag_safe) fun _ => Safe.pure _) fun _ => ?_
  refine readUE_safe.bind fun _ => readUE_safe.bind fun _ => readFlag_safe.bind fun _ => readFlag_safe.bind fun _ => ?_
  refine Safe.bind (Safe.ite (fun _ => matrix_safe _ (by split <;> decide)) fun _ => Safe.pure _) fun _ => Safe.pure _

theorem parseSpsPoc_safe : Safe parseSpsPoc := by
  unfold parseSpsPoc
  refine readUE_safe.bind fun _ => ?_
  refine Safe.ite (fun _ => ?_) (fun _ => ?_)
  · exact readUE_safe.bind fun _ => Safe.pure _
  · exact readFlag_safe.bind fun _ => readSE_safe.bind fun _ => readSE_safe.bind fun _ => readUE_safe.bind fun _ =>
      (skipSigned_safe _).bind fun _ => Safe.pure _

theorem parseSpsCrop_safe (b : Bool) : Safe (parseSpsCrop b) := by
  unfold parseSpsCrop
  refine Safe.ite (fun _ => ?_) (fun _ => Safe.pure _)
  exact readUE_safe.bind fun _ => readUE_safe.bind fun _ => readUE_safe.bind fun _ => readUE_safe.bind fun _ => Safe.pure _

theorem parseSpsBits_safe : Safe parseSpsBits := by
  unfold parseSpsBits
  refine (readByteBits_safe (by decide)).bind fun _ => (readByteBits_safe (by decide)).bind fun _ =>
    (readByteBits_safe (by decide)).bind fun _ => readUE_safe.bind fun _ => ?_
  refine Safe.bind (Safe.ite (fun _ => parseSpsHigh_safe) fun _ => Safe.pure _) fun _ => ?_
  refine readUE_safe.bind fun _ => parseSpsPoc_safe.bind fun _ => readUE_safe.bind fun _ => readFlag_safe.bind fun _ =>
    readUE_safe.bind fun _ => readUE_safe.bind fun _ => readUE_safe.bind fun _ => ?_
  refine Safe.bind (Safe.ite (fun _ => readFlag_safe) fun _ => Safe.pure _) fun _ => ?_
  refine readFlag_safe.bind fun _ => readFlag_safe.bind fun _ => (parseSpsCrop_safe _).bind fun _ => ?_
  exact readFlag_safe.bind fun _ => Safe.pure _

end Ouro
