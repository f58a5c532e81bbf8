import Verif.Props.ParamSets
/-!
# C29, C30: decoding of sequence parameter sets

A conforming sequence parameter set is an element `s` of `Spec.Sps` with `s.Valid`; `bitsOf buf = s.bits ++ tail` says that
`buf` holds it, `tail` being the VUI parameters and the trailing bits.
-/
namespace Ouro
open Spec

/-- `l` padded with `x` to length `n`. -/
def padTo {α : Type} (n : Nat) (x : α) (l : List α) : List α := l ++ List.replicate (n - l.length) x

/-- The scaling matrix fields hold the transmitted lists (absent lists are zero). -/
def MatrixDecoded (i : ScalingMatrix) : Option (List (Option ScalingCode)) → Prop
  | none => i.present = 0 ∧ i.list = List.replicate 480 0 ∧ i.useDefault = List.replicate 12 false
  | some ls => i.present = matrixPresent 0 ls ∧ i.list = padTo 480 0 (matrixEntries 0 ls) ∧
      i.useDefault = padTo 12 false (matrixDefaults ls)

/-- The fields of the high profile part, or their inferred values. -/
def HighDecoded (i : SPSInfo) : Option SpsHigh → Prop
  | none => i.chromaFormatIdc = 1 ∧ i.separateColorPlane = false ∧ i.bitDepthLuma = 0 ∧ i.bitDepthChroma = 0 ∧
      i.zeroTransformBypass = false ∧ i.scalingMatrixPresent = false ∧ MatrixDecoded i.scaling none
  | some h => i.chromaFormatIdc = h.chroma_format_idc ∧ i.separateColorPlane = h.separate_colour_plane_flag ∧
      i.bitDepthLuma = h.bit_depth_luma_minus8 ∧ i.bitDepthChroma = h.bit_depth_chroma_minus8 ∧
      i.zeroTransformBypass = h.qpprime_y_zero_transform_bypass_flag ∧
      i.scalingMatrixPresent = h.scaling_matrix.isSome ∧ MatrixDecoded i.scaling h.scaling_matrix

def PocDecoded (i : SPSInfo) : Poc → Prop
  | .type0 l => i.picOrderCntType = 0 ∧ i.log2MaxPicOrderCnt = l
  | .type1 d a b rs => i.picOrderCntType = 1 ∧ i.deltaPicOrderAlways0 = d ∧ i.offsetForNonRefPic = a ∧
      i.offsetForTopToBottomField = b ∧ i.numRefFramesInPicOrderCntCycle = rs.length
  | .type2 => i.picOrderCntType = 2

/-- All syntax elements except `frame_mbs_only_flag` are in their fields. -/
def SpsDecodedButFlag (i : SPSInfo) (s : Sps) : Prop :=
  i.profileIdc = s.profile_idc ∧ i.constraintSet = s.constraint_flags ∧ i.levelIdc = s.level_idc ∧
  i.spsID = s.seq_parameter_set_id ∧ HighDecoded i s.high ∧ i.log2MaxFrameNum = s.log2_max_frame_num_minus4 ∧
  PocDecoded i s.poc ∧ i.maxNumRefFrames = s.max_num_ref_frames ∧
  i.gapsInFrameNumValueAllowed = s.gaps_in_frame_num_value_allowed_flag ∧
  i.picWidthInMbsMinus1 = s.pic_width_in_mbs_minus1 ∧
  i.picHeightInMapUnitsMinus1 = s.pic_height_in_map_units_minus1 ∧
  i.mbAdaptiveFrameField = s.mb_adaptive_frame_field_flag ∧ i.direct8x8Inference = s.direct_8x8_inference_flag ∧
  i.frameCropping = s.crop.isSome ∧ i.cropLeft = s.cropOffsets.left ∧ i.cropRight = s.cropOffsets.right ∧
  i.cropTop = s.cropOffsets.top ∧ i.cropBottom = s.cropOffsets.bottom ∧
  i.vuiParametersPresent = s.vui_parameters_present_flag

/-- All syntax elements are in their fields. -/
def SpsDecoded (i : SPSInfo) (s : Sps) : Prop :=
  SpsDecodedButFlag i s ∧ i.frameMbsOnly = s.frame_mbs_only_flag.toNat

/-- What the code supports: a profile it knows, order count type 0 or 1 with offsets of at most 2^24. -/
def Supported (s : Sps) : Prop := ¬ OddProfile s.profile_idc ∧ PocSmall s.poc

theorem matrixEntries_length (ls : List (Option ScalingCode)) : ∀ i, MatrixValid i ls →
    (matrixEntries i ls).length + listOffset i = listOffset (i + ls.length) := by
  induction ls with
  | nil => intro i _; simp [matrixEntries]
  | cons x ls ih =>
    intro i hv
    have hoff : listOffset (i + 1) = listOffset i + listSize i := by
      unfold listOffset listSize; split <;> split <;> split <;> omega
    have e : i + (x :: ls).length = i + 1 + ls.length := by simp only [List.length_cons]; omega
    rw [e]
    cases x with
    | none =>
      have := ih (i + 1) hv
      simp only [matrixEntries, List.length_append, List.length_replicate]; omega
    | some c =>
      obtain ⟨hc, hv⟩ := hv
      have := ih (i + 1) hv
      have := entries_length c (listSize i) hc.2.1
      simp only [matrixEntries, List.length_append]; omega

theorem matrixInfo_decoded (ls : List (Option ScalingCode)) (hv : MatrixValid 0 ls) :
    MatrixDecoded (matrixInfo ls) (some ls) := by
  have := matrixEntries_length ls 0 hv
  rw [Nat.zero_add] at this
  have h0 : listOffset 0 = 0 := rfl
  refine ⟨rfl, ?_, ?_⟩
  · unfold matrixInfo padTo; rw [show (matrixEntries 0 ls).length = listOffset ls.length by omega]
  · unfold matrixInfo padTo; rw [show (matrixDefaults ls).length = ls.length by simp [matrixDefaults]]

theorem progressiveInfo_decoded (s : Sps) (hv : s.Valid) (hf : s.frame_mbs_only_flag = true) :
    SpsDecodedButFlag (progressiveInfo s) s := by
  refine ⟨rfl, rfl, rfl, rfl, ?_, rfl, ?_, rfl, rfl, rfl, rfl, (hv.mbaff hf).symm, rfl, rfl, rfl, rfl, rfl, rfl, rfl⟩
  · simp only [progressiveInfo, prefixOf]
    cases hh : s.high with
    | none => exact ⟨rfl, rfl, rfl, rfl, rfl, rfl, rfl, rfl, rfl⟩
    | some h =>
      refine ⟨rfl, rfl, rfl, rfl, rfl, rfl, ?_⟩
      have hval := (hv.high h hh).2.2.2.2
      simp only [highOrDefault, highInfo]
      cases hm : h.scaling_matrix with
      | none => exact ⟨rfl, rfl, rfl⟩
      | some ls => exact matrixInfo_decoded ls (hval ls hm).2
  · simp only [progressiveInfo, prefixOf]
    cases s.poc with
    | type0 l => exact ⟨rfl, rfl⟩
    | type1 d a b rs => exact ⟨rfl, rfl, rfl, rfl, rfl⟩
    | type2 => rfl

theorem newBitReader_rest (buf : Bytes) : (newBitReader buf).rest = bitsOf buf := by
  simp [newBitReader, BitReader.rest, BitReader.pos]

theorem buf_ne_nil {buf : Bytes} {a t : List Bool} (h : bitsOf buf = a ++ t) (ha : a ≠ []) : buf ≠ [] := by
  rintro rfl
  apply ha
  have := congrArg List.length h
  simp [bitsOf] at this
  exact List.length_eq_zero_iff.1 (by omega)

theorem sps_bits_ne (s : Sps) : s.prefixBits ≠ [] := by simp [Sps.prefixBits, byteBits]

theorem parseSPS_progressive (st : ParameterSets) (buf : Bytes) (s : Sps) (tail : List Bool) (hv : s.Valid)
    (hs : Supported s) (hf : s.frame_mbs_only_flag = true) (hbuf : bitsOf buf = s.bits ++ tail) :
    parseSPS st buf = .ok (none, { st with spset := fun id => if id = s.seq_parameter_set_id then some (progressiveInfo s) else st.spset id }) := by
  have hne : buf ≠ [] := buf_ne_nil hbuf (by simp [Sps.bits, sps_bits_ne])
  obtain ⟨r', h, _⟩ := parses_progressive s hv hs.1 hs.2 hf (newBitReader buf) tail (newBitReader_inv _) hne
    (by rw [newBitReader_rest, hbuf])
  simp only [parseSPS, h]
  rfl

/-! ## C29 -/

/-- C29 for frame-only sequences: the set is stored under its id and every syntax element except `frame_mbs_only_flag` is
in its field. Missing from the full property: that flag itself, interlaced sequences, order count type 2, offsets
beyond 2^24, profiles 134, 135, 139. -/
theorem C29_sps_partial (st : ParameterSets) (buf : Bytes) (s : Sps) (tail : List Bool) (hv : s.Valid)
    (hs : Supported s) (hf : s.frame_mbs_only_flag = true) (hbuf : bitsOf buf = s.bits ++ tail) :
    ∃ st' i, parseSPS st buf = .ok (none, st') ∧ st'.getSPS s.seq_parameter_set_id = some i ∧
      SpsDecodedButFlag i s ∧ (∀ id, id ≠ s.seq_parameter_set_id → st'.getSPS id = st.getSPS id) ∧
      (∀ id, st'.getPPS id = st.getPPS id) := by
  refine ⟨_, progressiveInfo s, parseSPS_progressive st buf s tail hv hs hf hbuf, ?_,
    progressiveInfo_decoded s hv hf, ?_, ?_⟩
  · simp [ParameterSets.getSPS]
  · intro id hid; simp [ParameterSets.getSPS, hid]
  · intro id; rfl

/-- The syntax elements up to the height are in their fields. -/
def SpsPrefixDecoded (i : SPSInfo) (s : Sps) : Prop :=
  i.profileIdc = s.profile_idc ∧ i.constraintSet = s.constraint_flags ∧ i.levelIdc = s.level_idc ∧
  i.spsID = s.seq_parameter_set_id ∧ HighDecoded i s.high ∧ i.log2MaxFrameNum = s.log2_max_frame_num_minus4 ∧
  PocDecoded i s.poc ∧ i.maxNumRefFrames = s.max_num_ref_frames ∧
  i.gapsInFrameNumValueAllowed = s.gaps_in_frame_num_value_allowed_flag ∧
  i.picWidthInMbsMinus1 = s.pic_width_in_mbs_minus1 ∧
  i.picHeightInMapUnitsMinus1 = s.pic_height_in_map_units_minus1

theorem prefixStored_decoded {s : Sps} {i : SPSInfo} (hv : s.Valid) (h : PrefixStored (prefixOf s) i) : SpsPrefixDecoded i s := by
  obtain ⟨h1, h2, h3, h4, h5, h6, h7, h8, h9, h10, h11, h12, h13, h14, h15, h16, h17, h18, h19, h20, h21, h22⟩ := h
  refine ⟨h1, h2, h3, h4, ?_, h12, ?_, h19, h20, h21, h22⟩
  · cases hh : s.high with
    | none =>
      simp only [prefixOf, hh, highOrDefault] at h5 h6 h7 h8 h9 h10 h11
      exact ⟨h5, h6, h7, h8, h9, h10, by rw [h11]; exact ⟨rfl, rfl, rfl⟩⟩
    | some h =>
      simp only [prefixOf, hh, highOrDefault, highInfo] at h5 h6 h7 h8 h9 h10 h11
      refine ⟨h5, h6, h7, h8, h9, h10, ?_⟩
      rw [h11]
      have hval := (hv.high h hh).2.2.2.2
      cases hm : h.scaling_matrix with
      | none => exact ⟨rfl, rfl, rfl⟩
      | some ls => exact matrixInfo_decoded ls (hval ls hm).2
  · cases hp : s.poc with
    | type0 l => simp only [prefixOf, hp] at h13 h14; exact ⟨h13, h14⟩
    | type1 d a b rs => simp only [prefixOf, hp] at h13 h15 h16 h17 h18; exact ⟨h13, h15, h16, h17, h18⟩
    | type2 => simp only [prefixOf, hp] at h13; exact h13

/-- C29 for every supported set, of frames or of fields: whenever it is accepted, it is stored under its id, every syntax element up to the
height of the picture is in its field, and all other sets are as before. Missing: for fields, the elements after the height, which are read
from the wrong bits (`C29_frameMbsOnly_refuted`). -/
theorem C29_prefix_partial (st st' : ParameterSets) (buf : Bytes) (s : Sps) (tail : List Bool) (hv : s.Valid) (hs : Supported s)
    (hbuf : bitsOf buf = s.bits ++ tail) (hok : parseSPS st buf = .ok (none, st')) :
    ∃ i, st'.getSPS s.seq_parameter_set_id = some i ∧ SpsPrefixDecoded i s ∧
      (∀ id, id ≠ s.seq_parameter_set_id → st'.getSPS id = st.getSPS id) ∧ (∀ id, st'.getPPS id = st.getPPS id) := by
  have hne : buf ≠ [] := buf_ne_nil hbuf (by simp [Sps.bits, sps_bits_ne])
  obtain ⟨rest, hrest⟩ : ∃ rest, s.bits ++ tail = s.prefixBits ++ rest := ⟨_, by unfold Sps.bits; simp only [List.append_assoc]; rfl⟩
  obtain ⟨r', h1, _⟩ := steps_sps_prefix s hv hs.1 hs.2 (newBitReader buf) rest (newBitReader_inv _) hne
    (by rw [newBitReader_rest, hbuf, hrest])
  unfold parseSPS at hok
  rw [h1] at hok
  cases hkr : parseSpsTail (prefixOf s) r' with
  | error p => rw [hkr] at hok; cases hok
  | ok x =>
    obtain ⟨x, r''⟩ := x
    rw [hkr] at hok
    cases x with
    | error e => simp at hok
    | ok info =>
      simp only [Except.ok.injEq, Prod.mk.injEq, true_and] at hok
      subst hok
      have hp := prefixStored_decoded hv (spsTail_prefix _ _ _ _ hkr)
      have hid : info.spsID = s.seq_parameter_set_id := hp.2.2.2.1
      refine ⟨info, by simp [ParameterSets.getSPS, hid], hp, ?_, fun _ => rfl⟩
      intro id hne
      simp [ParameterSets.getSPS, hid, hne]

/-- A 1920x1080 constrained baseline stream: 120x68 macroblocks, four lines pairs cropped at the bottom. -/
def sps1080 : Sps :=
  { profile_idc := 66, constraint_flags := 0xC0, level_idc := 40, seq_parameter_set_id := 0, high := none,
    log2_max_frame_num_minus4 := 0, poc := .type0 2, max_num_ref_frames := 1,
    gaps_in_frame_num_value_allowed_flag := false, pic_width_in_mbs_minus1 := 119,
    pic_height_in_map_units_minus1 := 67, frame_mbs_only_flag := true, mb_adaptive_frame_field_flag := false,
    direct_8x8_inference_flag := true, crop := some ⟨0, 0, 0, 4⟩, vui_parameters_present_flag := false }

/-- A high profile 4:4:4 set with a scaling matrix of which list 1 is transmitted. -/
def spsHigh444 : Sps :=
  { sps1080 with
    profile_idc := 244, constraint_flags := 0, seq_parameter_set_id := 3, crop := none,
    high := some ⟨3, false, 0, 0, false,
      some [none, some ⟨[10, 9], [2, -1], -9⟩, none, none, none, none, none, none, none, none, none, none]⟩,
    poc := .type1 false (-3) 5 [1, -1] }

/-- An interlaced set with MBAFF. -/
def spsMbaff : Sps :=
  { sps1080 with
    profile_idc := 77, constraint_flags := 0, pic_height_in_map_units_minus1 := 33, frame_mbs_only_flag := false,
    mb_adaptive_frame_field_flag := true, crop := none, vui_parameters_present_flag := true }

theorem sps1080_valid : sps1080.Valid := by
  refine ⟨by decide, by decide, by decide, ?_, by decide, ?_, by decide, by decide, by decide, by decide, by decide,
    by decide, by decide⟩
  · intro h hh; cases hh
  · show 2 ≤ 12; decide

theorem spsHigh444_valid : spsHigh444.Valid := by
  refine ⟨by decide, by decide, by decide, ?_, by decide, ?_, by decide, by decide, by decide, by decide, by decide,
    by decide, by decide⟩
  · intro h hh
    injection hh with hh; subst hh
    refine ⟨by decide, by decide, by decide, by decide, ?_⟩
    intro ls hl
    injection hl with hl; subst hl
    refine ⟨rfl, ?_⟩
    simp [MatrixValid, ScalingCode.Valid, ScalingDeltas, listSize]
  · simp [spsHigh444, Poc.Valid]

theorem spsMbaff_valid : spsMbaff.Valid := by
  refine ⟨by decide, by decide, by decide, ?_, by decide, ?_, by decide, by decide, by decide, by decide, by decide,
    by decide, by decide⟩
  · intro h hh; cases hh
  · show 2 ≤ 12; decide

theorem sps1080_supported : Supported sps1080 := ⟨by unfold OddProfile; decide, trivial⟩
theorem spsHigh444_supported : Supported spsHigh444 :=
  ⟨by unfold OddProfile; decide, by simp [spsHigh444, PocSmall]⟩
theorem spsMbaff_supported : Supported spsMbaff := ⟨by unfold OddProfile; decide, trivial⟩

/-- The 1080p set as bytes, followed by trailing bits. -/
def buf1080 : Bytes := [66, 0xC0, 40, 237, 0, 240, 4, 79, 202, 128]
def bufMbaff : Bytes := [77, 0, 40, 237, 0, 240, 8, 154, 0, 128]

example : ∃ tail, bitsOf buf1080 = sps1080.bits ++ tail := ⟨[true, false, false, false, false, false, false, false], by decide⟩

example : ∃ tail, bitsOf [244, 0, 40, 33, 26, 145, 132, 192, 10, 28, 83, 77, 0, 240, 4, 76, 128] = spsHigh444.bits ++ tail := ⟨[true, false, false, false, false, false, false, false], by decide⟩

/-- What follows the prefix of an interlaced set: the value stored as `FrameMbsOnly`, and the height. -/
theorem parseSPS_interlaced (st st' : ParameterSets) (buf : Bytes) (s : Sps) (tail : List Bool) (hv : s.Valid)
    (hs : Supported s) (hf : s.frame_mbs_only_flag = false) (hbuf : bitsOf buf = s.bits ++ tail) (ht : tail ≠ [])
    (i : SPSInfo) (hok : parseSPS st buf = .ok (none, st')) (hi : ∃ id, st'.getSPS id = some i ∧ st.getSPS id ≠ some i) :
    ∃ v, i.frameMbsOnly = v ∧ (s.mb_adaptive_frame_field_flag = true → v = 2) ∧
      (s.mb_adaptive_frame_field_flag = false → 3 ≤ v ∧ v ≤ 6) ∧
      i.height = spsHeight v s.pic_height_in_map_units_minus1 i.cropTop i.cropBottom (subHeightC s.separatePlanes s.chromaFormat) := by
  obtain ⟨v, rest, hb, hv1, hv2⟩ := interlaced_bits s hv hf tail ht
  rw [hb] at hbuf
  have hne : buf ≠ [] := buf_ne_nil hbuf (sps_bits_ne s)
  have hcs : ¬ ((prefixOf s).constraint &&& 2 ≠ 0 ∧ ((prefixOf s).profile = 77 ∨ (prefixOf s).profile = 88 ∨ (prefixOf s).profile = 100)) :=
    fun h => h.1 (u8_and2_of_and3 _ hv.reserved)
  have hv6 : v ≤ 6 := by
    cases hm : s.mb_adaptive_frame_field_flag
    · exact (hv2 hm).2
    · have := hv1 hm; omega
  obtain ⟨k, hk1, hk2⟩ := spsTail_post (prefixOf s) hcs v (by omega)
  obtain ⟨r', h1, _⟩ := (steps_sps_prefix s hv hs.1 hs.2).trans hk1 (newBitReader buf) rest (newBitReader_inv _) hne
    (by rw [newBitReader_rest, hbuf, List.append_assoc])
  unfold parseSPS at hok
  rw [h1] at hok
  cases hkr : k r' with
  | error p => rw [hkr] at hok; cases hok
  | ok x =>
    obtain ⟨x, r''⟩ := x
    rw [hkr] at hok
    cases x with
    | error e => simp at hok
    | ok info =>
      simp only [Except.ok.injEq, Prod.mk.injEq, true_and] at hok
      obtain ⟨id, g1, g2⟩ := hi
      subst hok
      simp only [ParameterSets.getSPS] at g1 g2
      by_cases hid : id = info.spsID
      · rw [if_pos hid] at g1
        injection g1 with g1; subst g1
        obtain ⟨p1, p2⟩ := hk2 _ _ _ hkr
        refine ⟨v, p1, hv1, hv2, ?_⟩
        rw [p2]
        simp only [prefixOf, Sps.separatePlanes, Sps.chromaFormat]
        cases s.high with
        | none => rfl
        | some h => rfl
      · rw [if_neg hid] at g1; exact absurd g1 g2

/-- C29 fails for every supported sequence parameter set: whenever one is parsed successfully into an empty store, the
stored `FrameMbsOnly` differs from the transmitted flag (0 instead of 1, and at least 2 instead of 0). -/
theorem C29_frameMbsOnly_refuted (buf : Bytes) (s : Sps) (tail : List Bool) (hv : s.Valid) (hs : Supported s)
    (hbuf : bitsOf buf = s.bits ++ tail) (ht : tail ≠ []) (st' : ParameterSets) (id : Nat) (i : SPSInfo)
    (hok : parseSPS newParameterSets buf = .ok (none, st')) (hi : st'.getSPS id = some i) : ¬ SpsDecoded i s := by
  rintro ⟨_, hflag⟩
  cases hf : s.frame_mbs_only_flag with
  | true =>
    rw [parseSPS_progressive _ buf s tail hv hs hf hbuf] at hok
    injection hok with hok; injection hok with _ hok; subst hok
    simp only [ParameterSets.getSPS, newParameterSets] at hi
    split at hi
    · injection hi with hi; subst hi
      rw [hf] at hflag; cases hflag
    · cases hi
  | false =>
    obtain ⟨v, h1, h2, h3, _⟩ := parseSPS_interlaced _ st' buf s tail hv hs hf hbuf ht i hok
      ⟨id, hi, by simp [newParameterSets, ParameterSets.getSPS]⟩
    rw [hf] at hflag
    cases hm : s.mb_adaptive_frame_field_flag with
    | true => have := h2 hm; simp at hflag; omega
    | false => have := h3 hm; simp at hflag; omega

/-- The hypotheses are met by an accepted MBAFF set (with VUI parameters whose flags are all 0). -/
theorem mbaff_accepted : ∃ tail st' i, bitsOf bufMbaff = spsMbaff.bits ++ tail ∧ tail ≠ [] ∧
    parseSPS newParameterSets bufMbaff = .ok (none, st') ∧ st'.getSPS 0 = some i := by
  have hcs : ¬ ((prefixOf spsMbaff).constraint &&& 2 ≠ 0 ∧ ((prefixOf spsMbaff).profile = 77 ∨
      (prefixOf spsMbaff).profile = 88 ∨ (prefixOf spsMbaff).profile = 100)) := by decide
  have hp := (steps_sps_prefix spsMbaff spsMbaff_valid spsMbaff_supported.1 spsMbaff_supported.2)
  have ht : ∃ i, i.spsID = 0 ∧ Parses (parseSpsTail (prefixOf spsMbaff)) (ueBits 2 ++ ([false] ++ ([true] ++ ([false] ++ [false])))) i := by
    unfold parseSpsTail
    refine Parses.bind_ex (parses_ue (by decide)) ?_
    rw [if_neg hcs]
    dsimp only
    rw [if_pos (by decide)]
    refine Parses.bind_ex (parses_flag _) ?_
    refine Parses.bind_ex (parses_flag _) ?_
    refine Parses.bind_ex (parses_flag _) ?_
    refine Parses.bind_ex (b1 := []) (a := (0, 0, 0, 0)) (Parses.pure _) ?_
    dsimp only
    refine Parses.bind_ex (b1 := [false]) (b2 := []) (parses_flag _) ?_
    exact ⟨_, rfl, Parses.pure _⟩
  obtain ⟨i, hid, ht⟩ := ht
  obtain ⟨r', h, _⟩ := (hp.parses ht) (newBitReader bufMbaff) [false, false, false, false, false, false, false, true, false, false, false, false, false, false, false] (newBitReader_inv _) (by decide)
    (by rw [newBitReader_rest]; decide)
  refine ⟨[false, false, false, false, false, false, false, false, false, true, false, false, false, false, false, false, false], { newParameterSets with spset := fun id => if id = i.spsID then some i else newParameterSets.spset id }, i, by decide, by simp, by simp only [parseSPS, h], ?_⟩
  simp [ParameterSets.getSPS, hid]

/-- So are those of `C29_prefix_partial`. -/
example : ∃ st' i, parseSPS newParameterSets bufMbaff = .ok (none, st') ∧ st'.getSPS 0 = some i ∧ SpsPrefixDecoded i spsMbaff := by
  obtain ⟨tail, st', _, h1, _, h3, _⟩ := mbaff_accepted
  obtain ⟨i, h5, h6, _⟩ := C29_prefix_partial _ st' bufMbaff spsMbaff tail spsMbaff_valid spsMbaff_supported h1 h3
  exact ⟨st', i, h3, h5, h6⟩

/-- Order count type 2 (as sent by many encoders): 320x240, otherwise as simple as possible. -/
def spsPoc2 : Sps :=
  { profile_idc := 66, constraint_flags := 0xC0, level_idc := 13, seq_parameter_set_id := 0, high := none,
    log2_max_frame_num_minus4 := 0, poc := .type2, max_num_ref_frames := 1,
    gaps_in_frame_num_value_allowed_flag := false, pic_width_in_mbs_minus1 := 19,
    pic_height_in_map_units_minus1 := 14, frame_mbs_only_flag := true, mb_adaptive_frame_field_flag := false,
    direct_8x8_inference_flag := true, crop := none, vui_parameters_present_flag := false }

def bufPoc2 : Bytes := [66, 0xC0, 13, 218, 5, 7, 228]

theorem spsPoc2_valid : spsPoc2.Valid := by
  refine ⟨by decide, by decide, by decide, ?_, by decide, trivial, by decide, by decide, by decide, by decide, by decide,
    by decide, by decide⟩
  intro h hh; cases hh

/-- C29 fails for order count type 2: the conforming set above is rejected. -/
theorem C29_poc2_refuted : spsPoc2.Valid ∧ bitsOf bufPoc2 = spsPoc2.bits ++ [true, false, false] ∧
    parseSPS newParameterSets bufPoc2 = .ok (some .unexpectedEOF, newParameterSets) := by
  refine ⟨spsPoc2_valid, by decide, ?_⟩
  have hb : bitsOf bufPoc2 = byteBits 66 ++ (byteBits 0xC0 ++ (byteBits 13 ++ (ueBits 0 ++ (ueBits 0 ++
      ((ueBits 2 ++ ([false] ++ (seBits 0 ++ (seBits 40 ++ (ueBits 2 ++ [0, 0].flatMap seBits))))) ++ (ueBits 0 ++ ([true] ++ (ueBits 3 ++ List.replicate 0 false)))))))) := by
    decide
  have : FailsOn parseSpsBits (bitsOf bufPoc2) .unexpectedEOF := by
    rw [hb]
    unfold parseSpsBits
    refine FailsOn.bind (parses_byte _) ?_
    refine FailsOn.bind (parses_byte _) ?_
    refine FailsOn.bind (parses_byte _) ?_
    refine FailsOn.bind (parses_ue (by decide)) ?_
    refine FailsOn.bind0 (Parses.pure _) ?_
    refine FailsOn.bind (parses_ue (by decide)) ?_
    refine FailsOn.bind (a := ⟨2, 0, false, 0, 40, 2⟩) ?_ ?_
    · unfold parseSpsPoc
      refine (parses_ue (by decide)).bind ?_
      rw [if_neg (by decide)]
      refine (parses_flag _).bind ?_
      refine (parses_se (by decide) (by decide)).bind ?_
      refine (parses_se (by decide) (by decide)).bind ?_
      refine (parses_ue (by decide)).bind ?_
      exact Parses.last (parses_skipSigned [0, 0] (by decide)) (Parses.pure _)
    refine FailsOn.bind (parses_ue (by decide)) ?_
    refine FailsOn.bind (parses_flag _) ?_
    refine FailsOn.bind (parses_ue (by decide)) ?_
    exact (failsOn_ue_zeros 0).here
  obtain ⟨n, r', h, _⟩ := this (newBitReader bufPoc2) (newBitReader_inv _) (by decide) (newBitReader_rest _)
  simp only [parseSPS, h]

/-! ## C30 -/

theorem highOrDefault_chroma (s : Sps) : (highOrDefault s.high).chroma = s.chromaFormat ∧
    (highOrDefault s.high).separate = s.separatePlanes := by
  unfold Sps.chromaFormat Sps.separatePlanes
  cases s.high <;> exact ⟨rfl, rfl⟩

theorem subWidthC_spec (s : Sps) : subWidthC s.separatePlanes s.chromaFormat = s.cropUnitX := by
  unfold subWidthC Sps.cropUnitX Sps.chromaArrayType
  cases s.separatePlanes with
  | true => rfl
  | false =>
    simp only [Bool.false_eq_true, if_false]
    match s.chromaFormat with
    | 0 => rfl
    | 1 => rfl
    | 2 => rfl
    | n + 3 => simp

theorem subHeightC_spec (s : Sps) (hf : s.frame_mbs_only_flag = true) :
    subHeightC s.separatePlanes s.chromaFormat = s.cropUnitY := by
  unfold subHeightC Sps.cropUnitY Sps.chromaArrayType
  rw [hf]
  cases s.separatePlanes with
  | true => rfl
  | false =>
    simp only [Bool.false_eq_true, if_false]
    match s.chromaFormat with
    | 0 => rfl
    | 1 => rfl
    | n + 2 => simp

/-- C30, width: for every supported frame-only sequence parameter set `Width` is the cropped width. -/
theorem C30_width_partial (st : ParameterSets) (buf : Bytes) (s : Sps) (tail : List Bool) (hv : s.Valid)
    (hs : Supported s) (hf : s.frame_mbs_only_flag = true) (hbuf : bitsOf buf = s.bits ++ tail) :
    ∃ st' i, parseSPS st buf = .ok (none, st') ∧ st'.getSPS s.seq_parameter_set_id = some i ∧ i.width = s.width := by
  refine ⟨_, progressiveInfo s, parseSPS_progressive st buf s tail hv hs hf hbuf, by simp [ParameterSets.getSPS], ?_⟩
  have hx := hv.cropX
  have hw := hv.width
  have hcu := subWidthC_spec s
  simp only [progressiveInfo, prefixOf, spsWidth, Sps.width, highOrDefault_chroma]
  rw [hcu]
  have ux : s.cropUnitX = 1 ∨ s.cropUnitX = 2 := by unfold Sps.cropUnitX; split <;> simp
  unfold sub32 u32
  rcases ux with ux | ux <;> rw [ux] at hx ⊢ <;> omega

/-- C30, exact height for frame-only sequences: the macroblock height is doubled, then divided by the vertical chroma
subsampling, and the crop is counted twice (32-bit arithmetic). -/
theorem C30_height_exact (st : ParameterSets) (buf : Bytes) (s : Sps) (tail : List Bool) (hv : s.Valid)
    (hs : Supported s) (hf : s.frame_mbs_only_flag = true) (hbuf : bitsOf buf = s.bits ++ tail) :
    ∃ st' i, parseSPS st buf = .ok (none, st') ∧ st'.getSPS s.seq_parameter_set_id = some i ∧
      (i.height : Int) = ((32 * (s.pic_height_in_map_units_minus1 + 1) / s.cropUnitY : Nat) -
        (2 * s.cropUnitY * (s.cropOffsets.top + s.cropOffsets.bottom) : Nat) : Int) % 4294967296 := by
  refine ⟨_, progressiveInfo s, parseSPS_progressive st buf s tail hv hs hf hbuf, by simp [ParameterSets.getSPS], ?_⟩
  have hy := hv.cropY
  have hh := hv.height
  have hcu := subHeightC_spec s hf
  rw [hf] at hy
  simp only [progressiveInfo, prefixOf, spsHeight, highOrDefault_chroma]
  rw [hcu]
  have uy : s.cropUnitY = 1 ∨ s.cropUnitY = 2 := by
    unfold Sps.cropUnitY; rw [hf]; split <;> simp
  rw [show sub32 2 0 = 2 from rfl]
  rcases uy with uy | uy
  · rw [uy] at hy ⊢
    rw [show u32 (2 * 1) = 2 from rfl]
    unfold sub32 u32
    simp only [if_true] at hy; omega
  · rw [uy] at hy ⊢
    rw [show u32 (2 * 2) = 4 from rfl]
    unfold sub32 u32
    simp only [if_true] at hy; omega

/-- C30, when the height is right: for frame-only sequences exactly when the chroma format is 4:2:0 and nothing is cropped
at the top or bottom. -/
theorem C30_height_iff (st st' : ParameterSets) (buf : Bytes) (s : Sps) (tail : List Bool) (i : SPSInfo) (hv : s.Valid)
    (hs : Supported s) (hf : s.frame_mbs_only_flag = true) (hbuf : bitsOf buf = s.bits ++ tail)
    (hok : parseSPS st buf = .ok (none, st')) (hi : st'.getSPS s.seq_parameter_set_id = some i) :
    i.height = s.height ↔ s.chromaArrayType = 1 ∧ s.cropOffsets.top = 0 ∧ s.cropOffsets.bottom = 0 := by
  obtain ⟨st2, i2, h1, h2, h3⟩ := C30_height_exact st buf s tail hv hs hf hbuf
  rw [hok] at h1
  injection h1 with h1; injection h1 with _ h1; subst h1
  rw [hi] at h2; injection h2 with h2; subst h2
  have hy := hv.cropY
  have hh := hv.height
  have cu : s.cropUnitY = if s.chromaArrayType = 1 then 2 else 1 := by
    unfold Sps.cropUnitY; rw [hf]
    match s.chromaArrayType with
    | 0 => rfl
    | 1 => rfl
    | n + 2 => simp
  unfold Sps.height
  rw [hf] at hy ⊢
  simp only [if_true] at hy ⊢
  by_cases hc : s.chromaArrayType = 1
  · rw [if_pos hc] at cu
    rw [cu] at h3 hy ⊢
    simp only [hc, true_and]
    constructor
    · intro he; omega
    · rintro ⟨a, b⟩; omega
  · rw [if_neg hc] at cu
    rw [cu] at h3 hy ⊢
    simp only [hc, false_and, iff_false]
    intro he; omega

/-- C30, interlaced with MBAFF: whenever such a set is accepted the stored height is 0. -/
theorem C30_mbaff_height (buf : Bytes) (s : Sps) (tail : List Bool) (hv : s.Valid) (hs : Supported s)
    (hf : s.frame_mbs_only_flag = false) (hm : s.mb_adaptive_frame_field_flag = true)
    (hbuf : bitsOf buf = s.bits ++ tail) (ht : tail ≠ []) (st' : ParameterSets) (id : Nat) (i : SPSInfo)
    (hok : parseSPS newParameterSets buf = .ok (none, st')) (hi : st'.getSPS id = some i) : i.height = 0 ∧ s.height ≠ 0 := by
  obtain ⟨v, h1, h2, h3, h4⟩ := parseSPS_interlaced _ st' buf s tail hv hs hf hbuf ht i hok
    ⟨id, hi, by simp [newParameterSets, ParameterSets.getSPS]⟩
  have hv2 := h2 hm
  subst hv2
  refine ⟨?_, ?_⟩
  · rw [h4]
    simp [spsHeight, sub32, u32]
  · have := hv.cropY
    unfold Sps.height
    omega

/-- C30, interlaced without MBAFF, chroma 4:2:0: whenever such a set is accepted, and what was read as vertical crop is
below 2^26, the stored height is beyond a thousand million lines, and so not the height sent. -/
theorem C30_paff_height (buf : Bytes) (s : Sps) (tail : List Bool) (hv : s.Valid) (hs : Supported s)
    (hf : s.frame_mbs_only_flag = false) (hm : s.mb_adaptive_frame_field_flag = false) (hc : s.chromaArrayType = 1)
    (hbuf : bitsOf buf = s.bits ++ tail) (ht : tail ≠ []) (st' : ParameterSets) (id : Nat) (i : SPSInfo)
    (hok : parseSPS newParameterSets buf = .ok (none, st')) (hi : st'.getSPS id = some i)
    (hcrop : i.cropTop + i.cropBottom < 67108864) : 1000000000 ≤ i.height ∧ i.height ≠ s.height := by
  obtain ⟨v, h1, h2, h3, h4⟩ := parseSPS_interlaced _ st' buf s tail hv hs hf hbuf ht i hok
    ⟨id, hi, by simp [newParameterSets, ParameterSets.getSPS]⟩
  have hv3 := h3 hm
  have hh := hv.height
  have hsub : subHeightC s.separatePlanes s.chromaFormat = 2 := by
    unfold subHeightC
    unfold Sps.chromaArrayType at hc
    split at hc
    · cases hc
    · rw [if_neg (by assumption), if_pos hc]
  rw [hsub] at h4
  have key : 1000000000 ≤ i.height := by
    rw [h4]
    have hv' : v = 3 ∨ v = 4 ∨ v = 5 ∨ v = 6 := by omega
    have e : ∀ k, 1 ≤ k → k ≤ 4 → u32 (u32 ((4294967296 - k) * u32 (s.pic_height_in_map_units_minus1 + 1)) * 16) =
        4294967296 - 16 * k * (s.pic_height_in_map_units_minus1 + 1) := by
      intro k k1 k2
      have k' : k = 1 ∨ k = 2 ∨ k = 3 ∨ k = 4 := by omega
      have e0 : u32 (s.pic_height_in_map_units_minus1 + 1) = s.pic_height_in_map_units_minus1 + 1 := by unfold u32; omega
      rw [e0]
      unfold u32
      rcases k' with rfl | rfl | rfl | rfl <;> omega
    have e2 : u32 (i.cropTop + i.cropBottom) = i.cropTop + i.cropBottom := by unfold u32; omega
    have e3 : ∀ k, 1 ≤ k → k ≤ 4 → sub32 (u32 (u32 ((4294967296 - k) * u32 (s.pic_height_in_map_units_minus1 + 1)) * 16) / 2)
        (u32 (u32 (i.cropTop + i.cropBottom) * u32 ((4294967296 - k) * 2))) ≥ 1000000000 := by
      intro k k1 k2
      rw [e k k1 k2, e2]
      have k' : k = 1 ∨ k = 2 ∨ k = 3 ∨ k = 4 := by omega
      generalize i.cropTop + i.cropBottom = y at hcrop
      have ey : u32 (y * u32 ((4294967296 - k) * 2)) = if y = 0 then 0 else 4294967296 - 2 * k * y := by
        have eC : u32 ((4294967296 - k) * 2) = 4294967296 - 2 * k := by
          unfold u32; rcases k' with rfl | rfl | rfl | rfl <;> rfl
        rw [eC]
        split
        · subst y; simp [u32]
        · obtain ⟨z, rfl⟩ : ∃ z, y = z + 1 := ⟨y - 1, by omega⟩
          have : (z + 1) * (4294967296 - 2 * k) = 4294967296 - 2 * k * (z + 1) + 4294967296 * z := by
            rcases k' with rfl | rfl | rfl | rfl <;> omega
          rw [u32, this, Nat.add_mul_mod_self_left, Nat.mod_eq_of_lt]
          rcases k' with rfl | rfl | rfl | rfl <;> omega
      rw [ey]
      have q : (4294967296 - 16 * k * (s.pic_height_in_map_units_minus1 + 1)) / 2 =
          2147483648 - 8 * k * (s.pic_height_in_map_units_minus1 + 1) := by
        rcases k' with rfl | rfl | rfl | rfl <;> omega
      rw [q]
      unfold sub32 u32
      have m0 : ∀ a, a < 4294967296 → (a + 4294967296) % 4294967296 = a := by intro a h; omega
      have hz : 8 * k * (s.pic_height_in_map_units_minus1 + 1) ≤ 2097152 := by
        rcases k' with rfl | rfl | rfl | rfl <;> omega
      split
      · rw [Nat.sub_zero, m0 _ (by omega)]; omega
      · have hy : 2 * k * y ≤ 536870912 := by rcases k' with rfl | rfl | rfl | rfl <;> omega
        rw [Nat.mod_eq_of_lt (by omega)]; omega
    unfold spsHeight
    rcases hv' with rfl | rfl | rfl | rfl
    · exact e3 1 (by omega) (by omega)
    · exact e3 2 (by omega) (by omega)
    · exact e3 3 (by omega) (by omega)
    · exact e3 4 (by omega) (by omega)
  refine ⟨key, ?_⟩
  have : s.height ≤ 16 * (2 * (s.pic_height_in_map_units_minus1 + 1)) := by
    unfold Sps.height; rw [hf]; exact Nat.sub_le _ _
  omega

/-- C30 fails for ordinary 1920x1080 video: the height stored is 1072. -/
theorem C30_height_refuted : sps1080.Valid ∧ sps1080.width = 1920 ∧ sps1080.height = 1080 ∧
    (∃ tail, bitsOf buf1080 = sps1080.bits ++ tail) ∧
    ∃ st' i, parseSPS newParameterSets buf1080 = .ok (none, st') ∧ st'.getSPS 0 = some i ∧ i.height = 1072 := by
  have hb : bitsOf buf1080 = sps1080.bits ++ [true, false, false, false, false, false, false, false] := by decide
  refine ⟨sps1080_valid, by decide, by decide, ⟨_, hb⟩, ?_⟩
  obtain ⟨st', i, h1, h2, h3⟩ := C30_height_exact newParameterSets buf1080 sps1080 _ sps1080_valid sps1080_supported rfl hb
  refine ⟨st', i, h1, h2, ?_⟩
  have e : ((32 * (sps1080.pic_height_in_map_units_minus1 + 1) / sps1080.cropUnitY : Nat) -
        (2 * sps1080.cropUnitY * (sps1080.cropOffsets.top + sps1080.cropOffsets.bottom) : Nat) : Int) % 4294967296 = 1072 := by
    decide
  omega

/-- 1280x720: chroma 4:2:0, no vertical crop; the case in which width and height are both right. -/
def sps720 : Sps :=
  { sps1080 with pic_width_in_mbs_minus1 := 79, pic_height_in_map_units_minus1 := 44, crop := none }

example : sps720.Valid ∧ Supported sps720 ∧ sps720.chromaArrayType = 1 ∧ sps720.cropOffsets.top = 0 ∧
    sps720.cropOffsets.bottom = 0 ∧ sps720.width = 1280 ∧ sps720.height = 720 := by
  refine ⟨⟨by decide, by decide, by decide, ?_, by decide, ?_, by decide, by decide, by decide, by decide, by decide,
    by decide, by decide⟩, ⟨by unfold OddProfile; decide, trivial⟩, by decide, rfl, rfl, by decide, by decide⟩
  · intro h hh; cases hh
  · show 2 ≤ 12; decide

/-- The hypotheses of `C30_mbaff_height` are met by an accepted set. -/
example : ∃ st' i, parseSPS newParameterSets bufMbaff = .ok (none, st') ∧ st'.getSPS 0 = some i ∧ i.height = 0 := by
  obtain ⟨tail, st', i, h1, h2, h3, h4⟩ := mbaff_accepted
  exact ⟨st', i, h3, h4, (C30_mbaff_height bufMbaff spsMbaff tail spsMbaff_valid spsMbaff_supported rfl rfl h1 h2 st' 0 i h3 h4).1⟩

/-- An interlaced set without MBAFF, crop or VUI parameters. -/
def spsPaff : Sps :=
  { spsMbaff with mb_adaptive_frame_field_flag := false, vui_parameters_present_flag := false }

def bufPaff : Bytes := [77, 0, 40, 237, 0, 240, 8, 137, 0]

theorem spsPaff_valid : spsPaff.Valid := by
  refine ⟨by decide, by decide, by decide, ?_, by decide, ?_, by decide, by decide, by decide, by decide, by decide,
    by decide, by decide⟩
  · intro h hh; cases hh
  · show 2 ≤ 12; decide

/-- The hypotheses of `C30_paff_height` are met by an accepted set: 1920x1088 in fields. -/
example : Supported spsPaff ∧ spsPaff.chromaArrayType = 1 ∧ spsPaff.height = 1088 ∧
    bitsOf bufPaff = spsPaff.bits ++ trailing 8 ∧
    ∃ st' i, parseSPS newParameterSets bufPaff = .ok (none, st') ∧ st'.getSPS 0 = some i ∧
      i.cropTop + i.cropBottom < 67108864 ∧ i.height ≠ 1088 := by
  have hcs : ¬ ((prefixOf spsPaff).constraint &&& 2 ≠ 0 ∧ ((prefixOf spsPaff).profile = 77 ∨
      (prefixOf spsPaff).profile = 88 ∨ (prefixOf spsPaff).profile = 100)) := by decide
  have hsup : Supported spsPaff := ⟨by unfold OddProfile; decide, trivial⟩
  have hp := steps_sps_prefix spsPaff spsPaff_valid hsup.1 hsup.2
  have hb : bitsOf bufPaff = spsPaff.bits ++ trailing 8 := by decide
  have ht : ∃ i, (i.spsID = 0 ∧ i.cropTop = 0 ∧ i.cropBottom = 0) ∧
      Parses (parseSpsTail (prefixOf spsPaff)) (ueBits 3 ++ ([true] ++ ([false] ++ ([false] ++ [false])))) i := by
    unfold parseSpsTail
    refine Parses.bind_ex (parses_ue (by decide)) ?_
    rw [if_neg hcs]
    dsimp only
    rw [if_pos (by decide)]
    refine Parses.bind_ex (parses_flag _) ?_
    refine Parses.bind_ex (parses_flag _) ?_
    refine Parses.bind_ex (parses_flag _) ?_
    refine Parses.bind_ex (b1 := []) (a := (0, 0, 0, 0)) (Parses.pure _) ?_
    dsimp only
    refine Parses.bind_ex (b1 := [false]) (b2 := []) (parses_flag _) ?_
    exact ⟨_, ⟨rfl, rfl, rfl⟩, Parses.pure _⟩
  obtain ⟨i, ⟨hid, hc1, hc2⟩, ht⟩ := ht
  obtain ⟨r', h, _⟩ := (hp.parses ht) (newBitReader bufPaff) [false, false, false, false, false] (newBitReader_inv _) (by decide)
    (by rw [newBitReader_rest]; decide)
  have hok : parseSPS newParameterSets bufPaff = .ok (none, { newParameterSets with spset := fun id => if id = i.spsID then some i else newParameterSets.spset id }) := by
    simp only [parseSPS, h]
  have hget : ({ newParameterSets with spset := fun id => if id = i.spsID then some i else newParameterSets.spset id } : ParameterSets).getSPS 0 = some i := by
    simp [ParameterSets.getSPS, hid]
  have hcrop : i.cropTop + i.cropBottom < 67108864 := by omega
  have := C30_paff_height bufPaff spsPaff _ spsPaff_valid hsup rfl rfl (by decide) hb (by simp [trailing]) _ 0 i hok hget hcrop
  exact ⟨hsup, by decide, by decide, hb, _, i, hok, hget, hcrop, by omega⟩

end Ouro
