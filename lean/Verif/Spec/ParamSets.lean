import Verif.Spec.Bits
/-!
# Specification: parameter set syntax (ITU-T H.264 7.3.2.1, 7.3.2.2, 7.4.2.1, 7.4.2.2, E)

Independent of the model: the syntax elements of a sequence/picture parameter set, the bit string they are sent as, and
the derived picture size.
-/
namespace Ouro.Spec

/-- One transmitted `scaling_list()` (7.3.2.1.1.1): the entries `es` coded by the deltas `ds`; if there are fewer than
`size` of them, the delta `d0` that makes the scale zero follows and the last scale is repeated. -/
structure ScalingCode where
  es : List Int
  ds : List Int
  d0 : Int

namespace ScalingCode
def Valid (c : ScalingCode) (size : Nat) : Prop :=
  ScalingDeltas 8 c.es c.ds ∧ c.es.length ≤ size ∧
  (c.es.length < size → -128 ≤ c.d0 ∧ c.d0 ≤ 127 ∧ (c.es.getLastD 8 + c.d0) % 256 = 0)
def bits (c : ScalingCode) (size : Nat) : List Bool :=
  c.ds.flatMap seBits ++ if c.es.length < size then seBits c.d0 else []
/-- The decoded list. -/
def entries (c : ScalingCode) (size : Nat) : List Int :=
  c.es ++ List.replicate (size - c.es.length) (c.es.getLastD 8)
/-- `UseDefaultScalingMatrixFlag`: the very first delta made the scale zero. -/
def useDefault (c : ScalingCode) : Bool := c.es.isEmpty
end ScalingCode

/-- Lists 0–5 are 4x4, the others 8x8. -/
def listSize (i : Nat) : Nat := if i < 6 then 16 else 64

/-- The lists of a scaling matrix from number `i` on: a present flag each, then the list if present. -/
def matrixBits : Nat → List (Option ScalingCode) → List Bool
  | _, [] => []
  | i, none :: ls => false :: matrixBits (i + 1) ls
  | i, some c :: ls => true :: (c.bits (listSize i) ++ matrixBits (i + 1) ls)
def MatrixValid : Nat → List (Option ScalingCode) → Prop
  | _, [] => True
  | i, none :: ls => MatrixValid (i + 1) ls
  | i, some c :: ls => c.Valid (listSize i) ∧ MatrixValid (i + 1) ls
/-- All entries in order; absent lists read as zeros. -/
def matrixEntries : Nat → List (Option ScalingCode) → List Int
  | _, [] => []
  | i, none :: ls => List.replicate (listSize i) 0 ++ matrixEntries (i + 1) ls
  | i, some c :: ls => c.entries (listSize i) ++ matrixEntries (i + 1) ls
/-- The present flags as a number, list `i` being bit `i`. -/
def matrixPresent : Nat → List (Option ScalingCode) → Nat
  | _, [] => 0
  | i, none :: ls => matrixPresent (i + 1) ls
  | i, some _ :: ls => 2 ^ i + matrixPresent (i + 1) ls
def matrixDefaults (ls : List (Option ScalingCode)) : List Bool :=
  ls.map fun | none => false | some c => c.useDefault

/-! ## Sequence parameter set -/

/-- The elements sent only for the high profiles. -/
structure SpsHigh where
  chroma_format_idc : Nat
  separate_colour_plane_flag : Bool
  bit_depth_luma_minus8 : Nat
  bit_depth_chroma_minus8 : Nat
  qpprime_y_zero_transform_bypass_flag : Bool
  scaling_matrix : Option (List (Option ScalingCode))

inductive Poc
  | type0 (log2_max_pic_order_cnt_lsb_minus4 : Nat)
  | type1 (delta_pic_order_always_zero_flag : Bool) (offset_for_non_ref_pic offset_for_top_to_bottom_field : Int)
      (offset_for_ref_frame : List Int)
  | type2

structure Crop where
  left : Nat
  right : Nat
  top : Nat
  bottom : Nat

structure Sps where
  profile_idc : UInt8
  /-- `constraint_set0_flag` … `reserved_zero_2bits`, most significant bit first -/
  constraint_flags : UInt8
  level_idc : UInt8
  seq_parameter_set_id : Nat
  high : Option SpsHigh
  log2_max_frame_num_minus4 : Nat
  poc : Poc
  max_num_ref_frames : Nat
  gaps_in_frame_num_value_allowed_flag : Bool
  pic_width_in_mbs_minus1 : Nat
  pic_height_in_map_units_minus1 : Nat
  frame_mbs_only_flag : Bool
  /-- sent only if `frame_mbs_only_flag` is 0 -/
  mb_adaptive_frame_field_flag : Bool
  direct_8x8_inference_flag : Bool
  crop : Option Crop
  vui_parameters_present_flag : Bool

/-- The profiles whose SPS carries the chroma and scaling elements (7.3.2.1.1). -/
def highProfiles : List UInt8 := [100, 110, 122, 244, 44, 83, 86, 118, 128, 138, 139, 134, 135]

def SpsHigh.bits (h : SpsHigh) : List Bool :=
  ueBits h.chroma_format_idc ++ (if h.chroma_format_idc = 3 then [h.separate_colour_plane_flag] else []) ++
  ueBits h.bit_depth_luma_minus8 ++ ueBits h.bit_depth_chroma_minus8 ++ [h.qpprime_y_zero_transform_bypass_flag] ++
  match h.scaling_matrix with
  | none => [false]
  | some ls => true :: matrixBits 0 ls

def Poc.bits : Poc → List Bool
  | .type0 l => ueBits 0 ++ ueBits l
  | .type1 d a b rs => ueBits 1 ++ [d] ++ seBits a ++ seBits b ++ ueBits rs.length ++ rs.flatMap seBits
  | .type2 => ueBits 2

def cropBits : Option Crop → List Bool
  | none => [false]
  | some c => true :: (ueBits c.left ++ ueBits c.right ++ ueBits c.top ++ ueBits c.bottom)

/-- Everything up to and including the height. -/
def Sps.prefixBits (s : Sps) : List Bool :=
  byteBits s.profile_idc ++ byteBits s.constraint_flags ++ byteBits s.level_idc ++ ueBits s.seq_parameter_set_id ++
  (match s.high with | none => [] | some h => h.bits) ++ ueBits s.log2_max_frame_num_minus4 ++ s.poc.bits ++
  ueBits s.max_num_ref_frames ++ [s.gaps_in_frame_num_value_allowed_flag] ++ ueBits s.pic_width_in_mbs_minus1 ++
  ueBits s.pic_height_in_map_units_minus1

/-- `seq_parameter_set_data()` up to `vui_parameters_present_flag`. -/
def Sps.bits (s : Sps) : List Bool :=
  s.prefixBits ++ [s.frame_mbs_only_flag] ++
  (if s.frame_mbs_only_flag then [] else [s.mb_adaptive_frame_field_flag]) ++ [s.direct_8x8_inference_flag] ++
  cropBits s.crop ++ [s.vui_parameters_present_flag]

def Sps.chromaFormat (s : Sps) : Nat := match s.high with | none => 1 | some h => h.chroma_format_idc
def Sps.separatePlanes (s : Sps) : Bool := match s.high with | none => false | some h => h.separate_colour_plane_flag
/-- `ChromaArrayType` -/
def Sps.chromaArrayType (s : Sps) : Nat := if s.separatePlanes then 0 else s.chromaFormat
def Sps.cropOffsets (s : Sps) : Crop := s.crop.getD ⟨0, 0, 0, 0⟩

/-- `CropUnitX` (7-19, 7-21) with `SubWidthC` of Table 6-1. -/
def Sps.cropUnitX (s : Sps) : Nat := match s.chromaArrayType with | 1 => 2 | 2 => 2 | _ => 1
/-- `CropUnitY` (7-20, 7-22) with `SubHeightC` of Table 6-1. -/
def Sps.cropUnitY (s : Sps) : Nat :=
  (match s.chromaArrayType with | 1 => 2 | _ => 1) * (if s.frame_mbs_only_flag then 1 else 2)

/-- Width of the cropped frame in luma samples. -/
def Sps.width (s : Sps) : Nat :=
  16 * (s.pic_width_in_mbs_minus1 + 1) - s.cropUnitX * (s.cropOffsets.left + s.cropOffsets.right)
/-- Height of the cropped frame in luma samples: `FrameHeightInMbs` is the height in map units, doubled for fields. -/
def Sps.height (s : Sps) : Nat :=
  16 * ((if s.frame_mbs_only_flag then 1 else 2) * (s.pic_height_in_map_units_minus1 + 1)) -
    s.cropUnitY * (s.cropOffsets.top + s.cropOffsets.bottom)

def SpsHigh.Valid (h : SpsHigh) : Prop :=
  h.chroma_format_idc ≤ 3 ∧ (h.separate_colour_plane_flag = true → h.chroma_format_idc = 3) ∧
  h.bit_depth_luma_minus8 ≤ 6 ∧ h.bit_depth_chroma_minus8 ≤ 6 ∧
  ∀ ls, h.scaling_matrix = some ls → ls.length = (if h.chroma_format_idc = 3 then 12 else 8) ∧ MatrixValid 0 ls

/-- The 32-bit range of the order count offsets (7.4.2.1.1). -/
def Poc.Valid : Poc → Prop
  | .type0 l => l ≤ 12
  | .type1 _ a b rs => (∀ x ∈ a :: b :: rs, -2147483647 ≤ x ∧ x ≤ 2147483647) ∧ rs.length ≤ 255
  | .type2 => True

/-- The constraints of 7.4.2.1 on the elements above. The level limits of Annex A keep the dimensions far below the
65536 macroblocks used here. -/
structure Sps.Valid (s : Sps) : Prop where
  reserved : s.constraint_flags &&& 3 = 0
  id : s.seq_parameter_set_id ≤ 31
  high_iff : s.high.isSome ↔ s.profile_idc ∈ highProfiles
  high : ∀ h, s.high = some h → h.Valid
  frameNum : s.log2_max_frame_num_minus4 ≤ 12
  poc : s.poc.Valid
  refs : s.max_num_ref_frames ≤ 16
  width : s.pic_width_in_mbs_minus1 < 65536
  height : s.pic_height_in_map_units_minus1 < 65536
  mbaff : s.frame_mbs_only_flag = true → s.mb_adaptive_frame_field_flag = false
  direct : s.frame_mbs_only_flag = false → s.direct_8x8_inference_flag = true
  cropX : s.cropUnitX * (s.cropOffsets.left + s.cropOffsets.right) < 16 * (s.pic_width_in_mbs_minus1 + 1)
  cropY : s.cropUnitY * (s.cropOffsets.top + s.cropOffsets.bottom) <
    16 * ((if s.frame_mbs_only_flag then 1 else 2) * (s.pic_height_in_map_units_minus1 + 1))

/-! ## Picture parameter set -/

/-- Slice groups (7.3.2.2) for `num_slice_groups_minus1 > 0`. -/
inductive GroupMap
  | interleaved (run_length_minus1 : List Nat)
  | dispersed
  | foreground (rects : List (Nat × Nat))
  /-- types 3, 4, 5 -/
  | changing (typ : Nat) (direction : Bool) (rate_minus1 : Nat)
  | explicit (ids : List Nat)

/-- `Ceil(Log2(num_slice_groups_minus1 + 1))` for 1 ≤ num_slice_groups_minus1 ≤ 7. -/
def groupBits (n : Nat) : Nat := if n ≤ 1 then 1 else if n ≤ 3 then 2 else 3

def GroupMap.bits (n : Nat) : GroupMap → List Bool
  | .interleaved rs => ueBits 0 ++ rs.flatMap ueBits
  | .dispersed => ueBits 1
  | .foreground rs => ueBits 2 ++ rs.flatMap fun (a, b) => ueBits a ++ ueBits b
  | .changing t d r => ueBits t ++ [d] ++ ueBits r
  | .explicit ids => ueBits 6 ++ ueBits (ids.length - 1) ++ ids.flatMap (uBits (groupBits n))

def GroupMap.Valid (n : Nat) : GroupMap → Prop
  | .interleaved rs => rs.length = n + 1 ∧ ∀ x ∈ rs, x < 2 ^ 25
  | .dispersed => True
  | .foreground rs => rs.length = n ∧ ∀ x ∈ rs, x.1 < 2 ^ 25 ∧ x.2 < 2 ^ 25
  | .changing t _ r => 3 ≤ t ∧ t ≤ 5 ∧ r < 2 ^ 25
  | .explicit ids => 0 < ids.length ∧ ids.length < 2 ^ 25 ∧ ∀ x ∈ ids, x ≤ n

structure PpsExt where
  transform_8x8_mode_flag : Bool
  scaling_matrix : Option (List (Option ScalingCode))
  second_chroma_qp_index_offset : Int

structure Pps where
  pic_parameter_set_id : Nat
  seq_parameter_set_id : Nat
  entropy_coding_mode_flag : Bool
  bottom_field_pic_order_in_frame_present_flag : Bool
  num_slice_groups_minus1 : Nat
  /-- sent only if `num_slice_groups_minus1 > 0` -/
  groups : GroupMap
  num_ref_idx_l0_default_active_minus1 : Nat
  num_ref_idx_l1_default_active_minus1 : Nat
  weighted_pred_flag : Bool
  weighted_bipred_idc : Nat
  pic_init_qp_minus26 : Int
  pic_init_qs_minus26 : Int
  chroma_qp_index_offset : Int
  deblocking_filter_control_present_flag : Bool
  constrained_intra_pred_flag : Bool
  redundant_pic_cnt_present_flag : Bool
  /-- the elements guarded by `more_rbsp_data()` -/
  ext : Option PpsExt

/-- The elements before `more_rbsp_data()`. -/
def Pps.baseBits (p : Pps) : List Bool :=
  ueBits p.pic_parameter_set_id ++ ueBits p.seq_parameter_set_id ++ [p.entropy_coding_mode_flag] ++
  [p.bottom_field_pic_order_in_frame_present_flag] ++ ueBits p.num_slice_groups_minus1 ++
  (if 0 < p.num_slice_groups_minus1 then p.groups.bits p.num_slice_groups_minus1 else []) ++
  ueBits p.num_ref_idx_l0_default_active_minus1 ++ ueBits p.num_ref_idx_l1_default_active_minus1 ++
  [p.weighted_pred_flag] ++ uBits 2 p.weighted_bipred_idc ++ seBits p.pic_init_qp_minus26 ++
  seBits p.pic_init_qs_minus26 ++ seBits p.chroma_qp_index_offset ++ [p.deblocking_filter_control_present_flag] ++
  [p.constrained_intra_pred_flag] ++ [p.redundant_pic_cnt_present_flag]

def PpsExt.bits (e : PpsExt) : List Bool :=
  [e.transform_8x8_mode_flag] ++
  (match e.scaling_matrix with | none => [false] | some ls => true :: matrixBits 0 ls) ++
  seBits e.second_chroma_qp_index_offset

def Pps.bits (p : Pps) : List Bool := p.baseBits ++ match p.ext with | none => [] | some e => e.bits

/-- `rbsp_trailing_bits()` (and any zero bytes after them): a one bit, then zero bits. -/
def trailing (k : Nat) : List Bool := true :: List.replicate k false

/-- Number of scaling lists in a picture parameter set (7.3.2.2). -/
def ppsLists (chroma : Nat) (t8x8 : Bool) : Nat := 6 + (if t8x8 then (if chroma = 3 then 6 else 2) else 0)

def PpsExt.Valid (chroma : Nat) (e : PpsExt) : Prop :=
  (∀ ls, e.scaling_matrix = some ls →
    ls.length = ppsLists chroma e.transform_8x8_mode_flag ∧ MatrixValid 0 ls) ∧
  -12 ≤ e.second_chroma_qp_index_offset ∧ e.second_chroma_qp_index_offset ≤ 12

/-- The constraints of 7.4.2.2, `chroma` being the chroma format of the sequence parameter set referred to. -/
structure Pps.Valid (chroma : Nat) (p : Pps) : Prop where
  id : p.pic_parameter_set_id ≤ 255
  sid : p.seq_parameter_set_id ≤ 31
  groupsMax : p.num_slice_groups_minus1 ≤ 7
  groups : 0 < p.num_slice_groups_minus1 → p.groups.Valid p.num_slice_groups_minus1
  l0 : p.num_ref_idx_l0_default_active_minus1 ≤ 31
  l1 : p.num_ref_idx_l1_default_active_minus1 ≤ 31
  bipred : p.weighted_bipred_idc ≤ 2
  qp : -62 ≤ p.pic_init_qp_minus26 ∧ p.pic_init_qp_minus26 ≤ 25
  qs : -26 ≤ p.pic_init_qs_minus26 ∧ p.pic_init_qs_minus26 ≤ 25
  cqp : -12 ≤ p.chroma_qp_index_offset ∧ p.chroma_qp_index_offset ≤ 12
  ext : ∀ e, p.ext = some e → e.Valid chroma

end Ouro.Spec
