import Verif.Lemmas.Pps
import Verif.Props.Sps
import Verif.Props.Bits
import Verif.Lemmas.Rtp
/-! # C32, C33: picture parameter sets -/
namespace Ouro
open Spec

/-! ## C32 -/

/-- The slice group elements of `g` are in their fields. -/
def GroupsDecoded (i : PPSInfo) : GroupMap → Prop
  | .interleaved rs => i.sliceGroupMapType = 0 ∧ i.runLengthMinus1 = padTo 8 0 rs
  | .dispersed => i.sliceGroupMapType = 1
  | .foreground rs => i.sliceGroupMapType = 2 ∧ i.topLeft = padTo 8 0 (rs.map (·.1)) ∧
      i.bottomRight = padTo 8 0 (rs.map (·.2))
  | .changing t d r => i.sliceGroupMapType = t ∧ i.sliceGroupChangeDirection = d ∧ i.sliceGroupChangeRateMinus1 = r
  | .explicit ids => i.sliceGroupMapType = 6 ∧ i.picSizeInMapUnitsMinus1 + 1 = ids.length ∧
      i.sliceGroupID = ids.map UInt8.ofNat

/-- The elements of the extension are in their fields; without one they have the values 7.4.2.2 infers (the offset is then
that of the other chroma component, which the caller can read). -/
def ExtDecoded (i : PPSInfo) : Option PpsExt → Prop
  | none => i.transform8x8Mode = false ∧ i.scalingMatrixPresent = false
  | some e => i.transform8x8Mode = e.transform_8x8_mode_flag ∧ i.scalingMatrixPresent = e.scaling_matrix.isSome ∧
      MatrixDecoded i.scaling e.scaling_matrix ∧ i.secondChromaQpIndexOffset = e.second_chroma_qp_index_offset

/-- Every syntax element of `p` is in the field of that name. -/
def PpsDecoded (i : PPSInfo) (p : Pps) : Prop :=
  i.ppsID = p.pic_parameter_set_id ∧ i.spsID = p.seq_parameter_set_id ∧
  i.entropyCodingMode = p.entropy_coding_mode_flag ∧
  i.bottomFieldPicOrder = p.bottom_field_pic_order_in_frame_present_flag ∧
  i.numSliceGroupsMinus1 = p.num_slice_groups_minus1 ∧
  (0 < p.num_slice_groups_minus1 → GroupsDecoded i p.groups) ∧
  i.numRefIdxL0DefaultActiveMinus1 = p.num_ref_idx_l0_default_active_minus1 ∧
  i.numRefIdxL1DefaultActiveMinus1 = p.num_ref_idx_l1_default_active_minus1 ∧
  i.weightedPred = p.weighted_pred_flag ∧ i.weightedBipredIdc.toNat = p.weighted_bipred_idc ∧
  i.picInitQpMinus26 = p.pic_init_qp_minus26 ∧ i.picInitQsMinus26 = p.pic_init_qs_minus26 ∧
  i.chromaQpIndexOffset = p.chroma_qp_index_offset ∧
  i.deblockingFilterControlPresent = p.deblocking_filter_control_present_flag ∧
  i.constrainedIntraPred = p.constrained_intra_pred_flag ∧
  i.redundantPicCntPresent = p.redundant_pic_cnt_present_flag ∧ ExtDecoded i p.ext

theorem pps_bits_ne (p : Pps) : p.baseBits ≠ [] := by simp [Pps.baseBits]

theorem ppsInfo_decoded (chroma : Nat) (p : Pps) (hv : p.Valid chroma) : PpsDecoded (ppsInfo p) p := by
  have hb := hv.bipred
  refine ⟨rfl, rfl, rfl, rfl, rfl, ?_, rfl, rfl, rfl, ?_, rfl, rfl, rfl, rfl, rfl, rfl, ?_⟩
  · intro hn
    unfold ppsInfo ppsInfoOf
    simp only [if_pos hn]
    have hg := hv.groups hn
    cases hgr : p.groups with
    | interleaved rs => exact ⟨rfl, rfl⟩
    | dispersed => rfl
    | foreground rs =>
      refine ⟨rfl, ?_, ?_⟩ <;> simp [groupInfo, padTo]
    | changing t d r => exact ⟨rfl, rfl, rfl⟩
    | explicit ids =>
      rw [hgr] at hg
      refine ⟨rfl, ?_, rfl⟩
      have := hg.1
      show ids.length - 1 + 1 = ids.length
      omega
  · show (UInt8.ofNat p.weighted_bipred_idc).toNat = p.weighted_bipred_idc
    rw [UInt8.toNat_ofNat']
    omega
  · have hx := hv.ext
    unfold ppsInfo ppsInfoOf
    cases he : p.ext with
    | none => exact ⟨rfl, rfl⟩
    | some e =>
      refine ⟨rfl, rfl, ?_, rfl⟩
      have h1 := (hx e he).1
      show MatrixDecoded (match e.scaling_matrix with | none => ScalingMatrix.zero | some ls => matrixInfo ls) _
      cases hm : e.scaling_matrix with
      | none => exact ⟨rfl, rfl, rfl⟩
      | some ls => exact matrixInfo_decoded ls (h1 ls hm).2

/-- A set is stored if it is valid for the chroma format the parser takes. -/
theorem pps_stored (inf : Nat) (st : ParameterSets) (buf : Bytes) (p : Pps) (chroma : Nat) (tail : List Bool)
    (hc : (st.spset p.seq_parameter_set_id = none ∧ chroma = 3) ∨ ∃ sps, st.spset p.seq_parameter_set_id = some sps ∧ sps.chromaFormatIdc = chroma) (hv : p.Valid chroma)
    (hg : 0 < p.num_slice_groups_minus1 → ¬ UnreadGroups p.groups) (hext : p.ext ≠ none)
    (hbuf : bitsOf buf = p.bits ++ tail) :
    ∃ st' i, parsePPS inf st buf = .ok (none, st') ∧ st'.getPPS p.pic_parameter_set_id = some i ∧ PpsDecoded i p ∧
      (∀ id, id ≠ p.pic_parameter_set_id → st'.getPPS id = st.getPPS id) ∧ (∀ id, st'.getSPS id = st.getSPS id) := by
  have hne : buf ≠ [] := buf_ne_nil hbuf (by simp [Pps.bits, pps_bits_ne])
  have hs := steps_pps inf st.spset _ p hv hg
  have hs : Steps (parsePpsBits inf st.spset) p.baseBits (parsePpsExt chroma >>= fun e => pure (ppsInfoOf p e)) := by
    rcases hc with ⟨h, rfl⟩ | ⟨sps, h, rfl⟩ <;> (rw [h] at hs; exact hs)
  obtain ⟨e, he⟩ := Option.ne_none_iff_exists'.1 hext
  have hp : Parses (parsePpsBits inf st.spset) p.bits (ppsInfo p) := by
    unfold Pps.bits ppsInfo
    rw [he]
    exact hs.parses ((parses_ext _ e (hv.ext e he)).last (Parses.pure _))
  obtain ⟨r', h, _⟩ := hp (newBitReader buf) tail (newBitReader_inv _) hne (by rw [newBitReader_rest, hbuf])
  refine ⟨{ st with ppset := fun id => if id = p.pic_parameter_set_id then some (ppsInfo p) else st.ppset id },
    ppsInfo p, ?_, ?_, ppsInfo_decoded _ p hv, ?_, ?_⟩
  · unfold parsePPS
    rw [h]
    rfl
  · simp [ParameterSets.getPPS]
  · intro id hid; simp [ParameterSets.getPPS, hid]
  · intro id; rfl

/-- C32 for sets with the extension: a conforming picture parameter set whose sequence parameter set is known is stored
under its id, every element in its field, and nothing else changes. Missing from the full property: sets without the
extension (`C32_no_extension_refuted`), slice group types 3 and 4 (`C32_types34_refuted`), and sets sent before
their sequence parameter set. -/
theorem C32_pps_partial (inf : Nat) (st : ParameterSets) (buf : Bytes) (p : Pps) (sps : SPSInfo) (tail : List Bool)
    (hsps : st.getSPS p.seq_parameter_set_id = some sps) (hv : p.Valid sps.chromaFormatIdc)
    (hg : 0 < p.num_slice_groups_minus1 → ¬ UnreadGroups p.groups) (hext : p.ext ≠ none)
    (hbuf : bitsOf buf = p.bits ++ tail) :
    ∃ st' i, parsePPS inf st buf = .ok (none, st') ∧ st'.getPPS p.pic_parameter_set_id = some i ∧ PpsDecoded i p ∧
      (∀ id, id ≠ p.pic_parameter_set_id → st'.getPPS id = st.getPPS id) ∧ (∀ id, st'.getSPS id = st.getSPS id) :=
  have hsps' : st.spset p.seq_parameter_set_id = some sps := hsps
  pps_stored inf st buf p sps.chromaFormatIdc tail (.inr ⟨sps, hsps', rfl⟩) hv hg hext hbuf

/-- C32 for a set that comes before the sequence parameter set it refers to (which will have the chroma format `chroma`): it is stored in the same way if the
number of its scaling lists does not depend on the chroma format, that is, without a scaling matrix or without the 8x8 transform, or if the format is 4:4:4. -/
theorem C32_early_partial (inf : Nat) (st : ParameterSets) (buf : Bytes) (p : Pps) (chroma : Nat) (tail : List Bool)
    (hsps : st.getSPS p.seq_parameter_set_id = none) (hv : p.Valid chroma)
    (hm : chroma = 3 ∨ ∀ e, p.ext = some e → e.scaling_matrix = none ∨ e.transform_8x8_mode_flag = false)
    (hg : 0 < p.num_slice_groups_minus1 → ¬ UnreadGroups p.groups) (hext : p.ext ≠ none)
    (hbuf : bitsOf buf = p.bits ++ tail) :
    ∃ st' i, parsePPS inf st buf = .ok (none, st') ∧ st'.getPPS p.pic_parameter_set_id = some i ∧ PpsDecoded i p ∧
      (∀ id, id ≠ p.pic_parameter_set_id → st'.getPPS id = st.getPPS id) ∧ (∀ id, st'.getSPS id = st.getSPS id) := by
  have hsps' : st.spset p.seq_parameter_set_id = none := hsps
  refine pps_stored inf st buf p 3 tail (.inl ⟨hsps', rfl⟩) ?_ hg hext hbuf
  rcases hm with rfl | hm
  · exact hv
  · refine { hv with ext := fun e he => ⟨fun ls hl => ?_, (hv.ext e he).2⟩ }
    obtain ⟨h1, h2⟩ := (hv.ext e he).1 ls hl
    refine ⟨?_, h2⟩
    rcases hm e he with h | h
    · rw [h] at hl; cases hl
    · rw [h1, h]; rfl

/-- C32 fails for every conforming set without the extension (as sent by every Baseline and Main profile encoder): the
trailing bits are taken for the extension and the set is rejected. -/
theorem C32_no_extension_refuted (inf : Nat) (st : ParameterSets) (buf : Bytes) (p : Pps) (chroma k : Nat)
    (hv : p.Valid chroma) (hg : 0 < p.num_slice_groups_minus1 → ¬ UnreadGroups p.groups) (hext : p.ext = none)
    (hbuf : bitsOf buf = p.bits ++ trailing k) :
    parsePPS inf st buf = .ok (some .unexpectedEOF, st) := by
  have hne : buf ≠ [] := buf_ne_nil hbuf (by simp [Pps.bits, pps_bits_ne])
  have hs := steps_pps inf st.spset _ p hv hg
  obtain ⟨n, r', h, _⟩ := (hs.failsOn ((failsOn_ext_trailing _ k).here)) (newBitReader buf) (newBitReader_inv _) hne
    (by rw [newBitReader_rest, hbuf]; simp [Pps.bits, hext])
  unfold parsePPS
  rw [h]

/-- A Baseline set: one slice group, CAVLC, QP 26. -/
def ppsBase : Pps :=
  { pic_parameter_set_id := 0, seq_parameter_set_id := 0, entropy_coding_mode_flag := false,
    bottom_field_pic_order_in_frame_present_flag := false, num_slice_groups_minus1 := 0, groups := .dispersed,
    num_ref_idx_l0_default_active_minus1 := 2, num_ref_idx_l1_default_active_minus1 := 0, weighted_pred_flag := false,
    weighted_bipred_idc := 0, pic_init_qp_minus26 := -3, pic_init_qs_minus26 := 0, chroma_qp_index_offset := -2,
    deblocking_filter_control_present_flag := true, constrained_intra_pred_flag := false,
    redundant_pic_cnt_present_flag := false, ext := none }

theorem ppsBase_valid : ppsBase.Valid 1 := by
  constructor <;> simp [ppsBase]

/-- A High profile set for 4:2:0 with three slice groups and two scaling lists. -/
def ppsHigh : Pps :=
  { ppsBase with
    pic_parameter_set_id := 3, seq_parameter_set_id := 1, entropy_coding_mode_flag := true, num_slice_groups_minus1 := 2,
    groups := .foreground [(5, 9), (20, 31)], weighted_bipred_idc := 2,
    ext := some { transform_8x8_mode_flag := true, second_chroma_qp_index_offset := 4,
                  scaling_matrix := some [none, some ⟨[10, 9], [2, -1], -9⟩, none, none, none, none, none, none] } }


theorem ppsHigh_valid : ppsHigh.Valid 1 := by
  refine ⟨by decide, by decide, by decide, ?_, by decide, by decide, by decide, by decide, by decide, by decide, ?_⟩
  · intro _
    exact ⟨rfl, by decide⟩
  · intro e he
    injection he with he; subst he
    refine ⟨?_, by decide, by decide⟩
    intro ls hl
    injection hl with hl; subst hl
    exact ⟨rfl, by simp [MatrixValid, ScalingCode.Valid, ScalingDeltas, listSize]⟩

example : bitsOf [203, 131, 203, 32] = ppsBase.bits ++ trailing 5 := by decide
example : bitsOf [34, 155, 48, 160, 168, 32, 116, 121, 102, 145, 132, 192, 17] = ppsHigh.bits ++ [true] := by decide
example : ¬ UnreadGroups ppsHigh.groups ∧ ppsHigh.ext ≠ none := ⟨fun h => h, by simp [ppsHigh]⟩

/-- The set above without the scaling matrix may come first. -/
def ppsEarly : Pps := { ppsHigh with ext := some { transform_8x8_mode_flag := true, second_chroma_qp_index_offset := 4, scaling_matrix := none } }

example : ppsEarly.Valid 1 ∧ (∀ e, ppsEarly.ext = some e → e.scaling_matrix = none ∨ e.transform_8x8_mode_flag = false) ∧ ¬ UnreadGroups ppsEarly.groups ∧ ppsEarly.ext ≠ none ∧
    bitsOf [34, 155, 48, 160, 168, 32, 116, 121, 100, 34] = ppsEarly.bits ++ [true, false] := by
  refine ⟨⟨by decide, by decide, by decide, fun _ => ⟨rfl, by decide⟩, by decide, by decide, by decide, by decide, by decide, by decide, ?_⟩, ?_, fun h => h, by simp [ppsEarly], by decide⟩
  · intro e he
    injection he with he; subst he
    exact ⟨fun ls hl => by (cases hl), by decide, by decide⟩
  · intro e he
    injection he with he; subst he
    exact .inl rfl

/-- C32 fails for a set with such a matrix that comes before its sequence parameter set: `ppsHigh`, for 4:2:0, is read with twelve scaling lists instead of eight
and refused at the end of the data. -/
theorem C32_early_refuted : ∃ buf, ppsHigh.Valid 1 ∧ bitsOf buf = ppsHigh.bits ++ trailing 0 ∧
    (parsePPS 0 newParameterSets buf).toOption.map (·.1) = some (some .unexpectedEOF) :=
  ⟨[34, 155, 48, 160, 168, 32, 116, 121, 102, 145, 132, 192, 17], ppsHigh_valid, by decide, by decide +kernel⟩

/-- After slice group type 3 or 4 the direction and the rate are never filled in. -/
theorem steps_pps_types34 (inf : Nat) (spset : Nat → Option SPSInfo) (p : Pps) (chroma : Nat) (hv : p.Valid chroma)
    (hn : 0 < p.num_slice_groups_minus1) (t : Nat) (d : Bool) (r : Nat) (hg : p.groups = .changing t d r)
    (ht : t = 3 ∨ t = 4) :
    ∃ (pre rest : List Bool) (k : BR PPSInfo), p.bits = pre ++ rest ∧ Steps (parsePpsBits inf spset) pre k ∧
      Post k (fun i => i.sliceGroupChangeDirection = false ∧ i.sliceGroupChangeRateMinus1 = 0 ∧ i.ppsID = p.pic_parameter_set_id) := by
  have h1 := hv.id
  have h2 := hv.sid
  have h3 := hv.groupsMax
  refine ⟨ueBits p.pic_parameter_set_id ++ (ueBits p.seq_parameter_set_id ++ ([p.entropy_coding_mode_flag] ++
    ([p.bottom_field_pic_order_in_frame_present_flag] ++ (ueBits p.num_slice_groups_minus1 ++ ueBits t)))),
    [d] ++ (ueBits r ++ (ueBits p.num_ref_idx_l0_default_active_minus1 ++ (ueBits p.num_ref_idx_l1_default_active_minus1 ++
    ([p.weighted_pred_flag] ++ (uBits 2 p.weighted_bipred_idc ++ (seBits p.pic_init_qp_minus26 ++
    (seBits p.pic_init_qs_minus26 ++ (seBits p.chroma_qp_index_offset ++ ([p.deblocking_filter_control_present_flag] ++
    ([p.constrained_intra_pred_flag] ++ ([p.redundant_pic_cnt_present_flag] ++
    (match p.ext with | none => [] | some e => e.bits)))))))))))), _, ?_,
    Steps.bind (parses_ue (by omega)) (Steps.bind (parses_ue (by omega)) (Steps.bind (parses_flag _)
      (Steps.bind (parses_flag _) (Steps.bind (parses_ue (by omega)) (Steps.last (a := { mapType := t }) ?_ (Steps.refl _)))))), ?_⟩
  · simp only [Pps.bits, Pps.baseBits, if_pos hn, hg, GroupMap.bits, List.append_assoc]
    cases p.ext <;> rfl
  · unfold parseSliceGroups
    rw [if_pos hn]
    refine (parses_ue (by omega)).last ?_
    rw [if_neg (by omega), if_neg (by omega), if_neg (by omega), if_neg (by omega)]
    exact Parses.pure _
  · dsimp only
    refine Post.bind fun _ => Post.bind fun _ => Post.bind fun _ => Post.bind fun _ => Post.bind fun _ => Post.bind fun _ =>
      Post.bind fun _ => Post.bind fun _ => Post.bind fun _ => Post.bind fun _ => Post.bind fun _ => Post.pure ⟨rfl, rfl, rfl⟩

/-- C32 fails for slice group types 3 and 4: if such a set is accepted at all, its direction and rate are lost. -/
theorem C32_types34_refuted (inf : Nat) (buf : Bytes) (p : Pps) (chroma : Nat) (tail : List Bool) (hv : p.Valid chroma)
    (hn : 0 < p.num_slice_groups_minus1) (t : Nat) (d : Bool) (r : Nat) (hg : p.groups = .changing t d r)
    (ht : t = 3 ∨ t = 4) (hdr : d = true ∨ r ≠ 0) (hbuf : bitsOf buf = p.bits ++ tail) (st' : ParameterSets)
    (hok : parsePPS inf newParameterSets buf = .ok (none, st')) (id : Nat) (i : PPSInfo) (hi : st'.getPPS id = some i) :
    ¬ PpsDecoded i p := by
  intro hd
  obtain ⟨pre, rest, k, hb, hk1, hk2⟩ := steps_pps_types34 inf newParameterSets.spset p chroma hv hn t d r hg ht
  have hne : buf ≠ [] := buf_ne_nil hbuf (by simp [Pps.bits, pps_bits_ne])
  rw [hb, List.append_assoc] at hbuf
  obtain ⟨r', h1, _⟩ := hk1 (newBitReader buf) (rest ++ tail) (newBitReader_inv _) hne (by rw [newBitReader_rest, hbuf])
  unfold parsePPS at hok
  rw [h1] at hok
  cases hkr : k r' with
  | error p => rw [hkr] at hok; cases hok
  | ok x =>
    obtain ⟨x, r''⟩ := x
    rw [hkr] at hok
    cases x with
    | error e => simp at hok
    | ok info =>
      simp only [Except.ok.injEq, Prod.mk.injEq, true_and] at hok
      subst hok
      simp only [ParameterSets.getPPS, newParameterSets] at hi
      split at hi
      · injection hi with hi; subst hi
        have hgd := hd.2.2.2.2.2.1 hn
        rw [hg] at hgd
        have := hk2 _ _ _ hkr
        rcases hdr with h | h
        · rw [← hgd.2.1, this.1] at h; cases h
        · exact h (by rw [← hgd.2.2, this.2.1])
      · cases hi

/-- A set of type 3 that is accepted. -/
def ppsType3 : Pps :=
  { ppsBase with
    num_slice_groups_minus1 := 1, groups := .changing 3 true 0, num_ref_idx_l0_default_active_minus1 := 0,
    pic_init_qp_minus26 := 0, chroma_qp_index_offset := 0, constrained_intra_pred_flag := true,
    redundant_pic_cnt_present_flag := true,
    ext := some { transform_8x8_mode_flag := true, scaling_matrix := none, second_chroma_qp_index_offset := 3 } }

example : ppsType3.Valid 1 := by
  refine ⟨by decide, by decide, by decide, ?_, by decide, by decide, by decide, by decide, by decide, by decide, ?_⟩
  · intro _; exact ⟨by decide, by decide, by decide⟩
  · intro e he
    injection he with he; subst he
    exact ⟨fun ls hl => by (cases hl), by decide, by decide⟩

def bufType3 : Bytes := [0xC4, 0x4F, 0x1F, 0xC6, 0x80]

example (inf : Nat) : ∃ st' i, bitsOf bufType3 = ppsType3.bits ++ trailing 7 ∧
    parsePPS inf newParameterSets bufType3 = .ok (none, st') ∧ st'.getPPS 0 = some i := by
  have ht : ∃ i, i.ppsID = 0 ∧ Parses (parsePpsBits inf newParameterSets.spset)
      (ueBits 0 ++ (ueBits 0 ++ ([false] ++ ([false] ++ (ueBits 1 ++ (ueBits 3 ++ (ueBits 0 ++ (ueBits 0 ++ ([true] ++
        (uBits 2 2 ++ (seBits (-3) ++ (seBits 0 ++ (seBits 0 ++ ([true] ++ ([true] ++ ([false] ++ PpsExt.bits ⟨false, none, 0⟩)))))))))))))))) i := by
    unfold parsePpsBits
    refine Parses.bind_ex (parses_ue (by decide)) ?_
    refine Parses.bind_ex (parses_ue (by decide)) ?_
    refine Parses.bind_ex (parses_flag _) ?_
    refine Parses.bind_ex (parses_flag _) ?_
    refine Parses.bind_ex (parses_ue (by decide)) ?_
    refine Parses.bind_ex (a := { mapType := 3 }) ((parses_ue (by decide)).last (Parses.pure _)) ?_
    refine Parses.bind_ex (parses_ue (by decide)) ?_
    refine Parses.bind_ex (parses_ue (by decide)) ?_
    refine Parses.bind_ex (parses_flag _) ?_
    refine Parses.bind_ex (parses_u8 (by decide) (by decide) (by decide)) ?_
    refine Parses.bind_ex (parses_se (by decide) (by decide)) ?_
    refine Parses.bind_ex (parses_se (by decide) (by decide)) ?_
    refine Parses.bind_ex (parses_se (by decide) (by decide)) ?_
    refine Parses.bind_ex (parses_flag _) ?_
    refine Parses.bind_ex (parses_flag _) ?_
    refine Parses.bind_ex (parses_flag _) ?_
    exact ⟨_, rfl, (parses_ext _ ⟨false, none, 0⟩ ⟨fun ls hl => by (cases hl), by decide, by decide⟩).last (Parses.pure _)⟩
  obtain ⟨i, hid, ht⟩ := ht
  obtain ⟨r', h, _⟩ := ht (newBitReader bufType3) [true, false, true, false, false, false, false, false, false, false] (newBitReader_inv _) (by decide)
    (by rw [newBitReader_rest]; decide)
  refine ⟨{ newParameterSets with ppset := fun id => if id = i.ppsID then some i else newParameterSets.ppset id }, i,
    by decide, by simp only [parsePPS, h], ?_⟩
  simp [ParameterSets.getPPS, hid]

/-! ## C33 -/

/-- The reads `ParsePPS` makes before the slice group data: two ids, two flags, then the number of slice groups less one,
which is returned. -/
def ppsHead : BR Nat := do
  let _ ← readUnsignedGolomb
  let _ ← readUnsignedGolomb
  let _ ← readFlag
  let _ ← readFlag
  readUnsignedGolomb

/-- `k` successive `ReadUnsignedGolomb` calls. -/
def golombs : Nat → BR Unit
  | 0 => pure ()
  | k + 1 => do
    let _ ← readUnsignedGolomb
    golombs k

/-- The call succeeds. -/
def Succeeds {α : Type} (m : BR α) (r : BitReader) : Prop := ∃ a r', m r = .ok (.ok a, r')

/-- The call panics. -/
def PanicsAt {α : Type} (m : BR α) (r : BitReader) : Prop := Panics (m r)

theorem panicsAt_bind {α β : Type} {m : BR α} {f : α → BR β} (hm : Safe m) {r : BitReader} (hi : r.Inv) :
    PanicsAt (m >>= f) r ↔ ∃ a r', m r = .ok (.ok a, r') ∧ r'.Inv ∧ r'.buffer = r.buffer ∧ PanicsAt (f a) r' := by
  obtain ⟨x, r', h1, h2, h3, _⟩ := hm r hi
  unfold PanicsAt Panics
  rw [BR.bind_apply, h1]
  cases x with
  | error e =>
    constructor
    · rintro ⟨p, hp⟩; cases hp
    · rintro ⟨a, r', h, _⟩; simp at h
  | ok a =>
    constructor
    · rintro ⟨p, hp⟩; exact ⟨a, r', rfl, h2, h3, p, hp⟩
    · rintro ⟨a', r'', h, _, _, p, hp⟩
      simp only [Except.ok.injEq, Prod.mk.injEq] at h
      obtain ⟨rfl, rfl⟩ := h
      exact ⟨p, hp⟩

theorem Safe.not_panics {α : Type} {m : BR α} (hm : Safe m) {r : BitReader} (hi : r.Inv) : ¬ PanicsAt m r := by
  obtain ⟨x, r', h1, _⟩ := hm r hi
  rintro ⟨p, hp⟩
  rw [h1] at hp; cases hp

/-- If the continuation cannot panic, only the first part can. -/
theorem panicsAt_bind_left {α β : Type} {m : BR α} {f : α → BR β} {r : BitReader} (hi : r.Inv)
    (hinv : ∀ x r', m r = .ok (x, r') → r'.Inv) (hf : ∀ a, Safe (f a)) : PanicsAt (m >>= f) r ↔ PanicsAt m r := by
  unfold PanicsAt Panics
  rw [BR.bind_apply]
  cases h : m r with
  | error p => simp
  | ok x =>
    obtain ⟨x, r'⟩ := x
    cases x with
    | error e => simp
    | ok a =>
      have := (hf a).not_panics (hinv _ _ h)
      unfold PanicsAt Panics at this
      simpa using this

theorem panicsAt_here {α β : Type} {m : BR α} {f : α → BR β} {r : BitReader} (h : PanicsAt m r) : PanicsAt (m >>= f) r := by
  obtain ⟨p, hp⟩ := h
  exact ⟨p, by rw [BR.bind_apply, hp]⟩

theorem succeeds_bind {α β : Type} {m : BR α} {f : α → BR β} {r : BitReader} :
    Succeeds (m >>= f) r ↔ ∃ a r', m r = .ok (.ok a, r') ∧ Succeeds (f a) r' := by
  unfold Succeeds
  rw [BR.bind_apply]
  cases h : m r with
  | error p => simp
  | ok x =>
    obtain ⟨x, r'⟩ := x
    cases x with
    | error e => simp
    | ok a =>
      simp only [Except.ok.injEq, Prod.mk.injEq]
      constructor
      · rintro ⟨b, r'', hb⟩; exact ⟨a, r', ⟨rfl, rfl⟩, b, r'', hb⟩
      · rintro ⟨a', r'', ⟨rfl, rfl⟩, b, r3, hb⟩; exact ⟨b, r3, hb⟩

theorem panicsAt_pure {α : Type} (a : α) (r : BitReader) : ¬ PanicsAt (Pure.pure a : BR α) r := by
  rintro ⟨p, hp⟩; rw [BR.pure_apply] at hp; cases hp

theorem runLength_panics (todo : Nat) : ∀ (i : Nat) (a : List Nat) (r : BitReader), r.Inv → i ≤ 8 →
    (PanicsAt (runLengthLoop todo i a) r ↔ 8 < i + todo ∧ Succeeds (golombs (8 - i)) r) := by
  induction todo with
  | zero =>
    intro i a r hi hle
    constructor
    · intro h; exact absurd h (panicsAt_pure _ _)
    · intro h; omega
  | succ todo ih =>
    intro i a r hi hle
    unfold runLengthLoop
    by_cases h8 : i < 8
    · rw [if_pos h8, panicsAt_bind readUE_safe hi, show 8 - i = (8 - (i + 1)) + 1 by omega]
      unfold golombs
      rw [succeeds_bind]
      constructor
      · rintro ⟨v, r', h1, h2, h3, h4⟩
        have := (ih (i + 1) _ r' h2 (by omega)).1 h4
        exact ⟨by omega, v, r', h1, this.2⟩
      · rintro ⟨hlt, v, r', h1, h2⟩
        obtain ⟨x, r2, g1, g2, g3, _⟩ := readUE_safe r hi
        rw [h1] at g1
        simp only [Except.ok.injEq, Prod.mk.injEq] at g1
        obtain ⟨_, rfl⟩ := g1
        exact ⟨v, r', h1, g2, g3, (ih (i + 1) _ r' g2 (by omega)).2 ⟨by omega, h2⟩⟩
    · rw [if_neg h8]
      have : i = 8 := by omega
      subst this
      constructor
      · intro _; exact ⟨by omega, (), r, rfl⟩
      · intro _; exact ⟨_, rfl⟩

theorem rect_panics (todo : Nat) : ∀ (i : Nat) (a b : List Nat) (r : BitReader), r.Inv → i ≤ 8 →
    (PanicsAt (rectLoop todo i a b) r ↔ 8 < i + todo ∧ Succeeds (golombs (2 * (8 - i))) r) := by
  induction todo with
  | zero =>
    intro i a b r hi hle
    constructor
    · intro h; exact absurd h (panicsAt_pure _ _)
    · intro h; omega
  | succ todo ih =>
    intro i a b r hi hle
    unfold rectLoop
    by_cases h8 : i < 8
    · rw [if_pos h8, panicsAt_bind readUE_safe hi, show 2 * (8 - i) = (2 * (8 - (i + 1))) + 1 + 1 by omega]
      unfold golombs
      rw [succeeds_bind]
      constructor
      · rintro ⟨v, r', h1, h2, h3, h4⟩
        rw [panicsAt_bind readUE_safe h2] at h4
        obtain ⟨w, r2, k1, k2, k3, k4⟩ := h4
        have := (ih (i + 1) _ _ r2 k2 (by omega)).1 k4
        refine ⟨by omega, v, r', h1, ?_⟩
        unfold golombs
        rw [succeeds_bind]
        exact ⟨w, r2, k1, this.2⟩
      · rintro ⟨hlt, v, r', h1, h2⟩
        unfold golombs at h2
        rw [succeeds_bind] at h2
        obtain ⟨w, r3, h3, h4⟩ := h2
        obtain ⟨x, r2, g1, g2, g3, _⟩ := readUE_safe r hi
        rw [h1] at g1
        simp only [Except.ok.injEq, Prod.mk.injEq] at g1
        obtain ⟨_, rfl⟩ := g1
        obtain ⟨x, r2, k1, k2, k3, _⟩ := readUE_safe r' g2
        rw [h3] at k1
        simp only [Except.ok.injEq, Prod.mk.injEq] at k1
        obtain ⟨_, rfl⟩ := k1
        refine ⟨v, r', h1, g2, g3, (panicsAt_bind readUE_safe g2).2 ?_⟩
        exact ⟨w, r3, h3, k2, k3, (ih (i + 1) _ _ r3 k2 (by omega)).2 ⟨by omega, h4⟩⟩
    · rw [if_neg h8]
      have : i = 8 := by omega
      subst this
      constructor
      · intro _; exact ⟨by omega, (), r, rfl⟩
      · intro _; exact ⟨_, rfl⟩

/-- Every normal return leaves a well-formed reader on the same buffer. -/
def Keeps {α : Type} (m : BR α) : Prop :=
  ∀ r, r.Inv → ∀ x r', m r = .ok (x, r') → r'.Inv ∧ r'.buffer = r.buffer

theorem Safe.keeps {α : Type} {m : BR α} (h : Safe m) : Keeps m := by
  intro r hi x r' hx
  obtain ⟨y, r2, h1, h2, h3, _⟩ := h r hi
  rw [h1] at hx
  injection hx with hx
  injection hx with _ hx
  subst hx; exact ⟨h2, h3⟩

theorem Keeps.bind {α β : Type} {m : BR α} {f : α → BR β} (hm : Keeps m) (hf : ∀ a, Keeps (f a)) : Keeps (m >>= f) := by
  intro r hi x r' hx
  rw [BR.bind_apply] at hx
  cases h : m r with
  | error p => rw [h] at hx; cases hx
  | ok y =>
    obtain ⟨y, r2⟩ := y
    rw [h] at hx
    obtain ⟨k1, k2⟩ := hm r hi _ _ h
    cases y with
    | error e =>
      simp only [Except.ok.injEq, Prod.mk.injEq] at hx
      obtain ⟨_, rfl⟩ := hx
      exact ⟨k1, k2⟩
    | ok a =>
      obtain ⟨g1, g2⟩ := hf a r2 k1 _ _ hx
      exact ⟨g1, g2.trans k2⟩

theorem Keeps.ite {α : Type} {c : Prop} [Decidable c] {m k : BR α} (hm : c → Keeps m) (hk : ¬ c → Keeps k) :
    Keeps (if c then m else k) := by
  by_cases h : c
  · rw [if_pos h]; exact hm h
  · rw [if_neg h]; exact hk h

theorem Keeps.panic {α : Type} (p : Panic) : Keeps (BR.panic p : BR α) := by
  intro r hi x r' hx; cases hx

theorem runLength_keeps (todo : Nat) : ∀ i a, Keeps (runLengthLoop todo i a) := by
  induction todo with
  | zero => intro i a; exact (Safe.pure _).keeps
  | succ todo ih =>
    intro i a
    unfold runLengthLoop
    exact Keeps.ite (fun _ => readUE_safe.keeps.bind fun _ => ih _ _) fun _ => Keeps.panic _

theorem rect_keeps (todo : Nat) : ∀ i a b, Keeps (rectLoop todo i a b) := by
  induction todo with
  | zero => intro i a b; exact (Safe.pure _).keeps
  | succ todo ih =>
    intro i a b
    unfold rectLoop
    exact Keeps.ite (fun _ => readUE_safe.keeps.bind fun _ => readUE_safe.keeps.bind fun _ => ih _ _ _) fun _ => Keeps.panic _

/-- On a non-empty buffer `ReadByteBits` does not panic, even for zero bits. -/
theorem readByteBits_ne (k : Nat) (r : BitReader) (hi : r.Inv) (hne : r.buffer ≠ []) :
    ∃ x r', readByteBits k r = .ok (x, r') ∧ r'.Inv ∧ r'.buffer = r.buffer := by
  by_cases hk : 0 < k
  · obtain ⟨x, r', h1, h2, h3, _⟩ := readByteBits_safe hk r hi
    exact ⟨x, r', h1, h2, h3⟩
  · have : k = 0 := by omega
    subst this
    rcases readBits_zero hi with ⟨h, _⟩ | ⟨_, r', h1, h2, h3, _⟩
    · exact absurd h hne
    · exact ⟨.ok (UInt8.ofNat 0), r', by rw [readByteBits_zero, h1], h2, h3⟩

theorem groupId_ne (k todo : Nat) : ∀ (acc : Bytes) (r : BitReader), r.Inv → r.buffer ≠ [] →
    ∃ x r', groupIdLoop k todo acc r = .ok (x, r') ∧ r'.Inv ∧ r'.buffer = r.buffer := by
  induction todo with
  | zero => intro acc r hi _; exact ⟨_, r, rfl, hi, rfl⟩
  | succ todo ih =>
    intro acc r hi hne
    unfold groupIdLoop
    obtain ⟨x, r', h1, h2, h3⟩ := readByteBits_ne k r hi hne
    rw [BR.bind_apply, h1]
    cases x with
    | error e => exact ⟨_, r', rfl, h2, h3⟩
    | ok v =>
      obtain ⟨y, r2, g1, g2, g3⟩ := ih (acc ++ [v]) r' h2 (by rw [h3]; exact hne)
      exact ⟨y, r2, g1, g2, g3.trans h3⟩

theorem groupId_keeps (k todo : Nat) (acc : Bytes) (r : BitReader) (hi : r.Inv) (hne : r.buffer ≠ []) (x : Except H264Err Bytes)
    (r' : BitReader) (h : groupIdLoop k todo acc r = .ok (x, r')) : r'.Inv ∧ r'.buffer = r.buffer := by
  obtain ⟨y, r2, g1, g2, g3⟩ := groupId_ne k todo acc r hi hne
  rw [h] at g1
  injection g1 with g1
  injection g1 with _ g1
  subst g1; exact ⟨g2, g3⟩

theorem parsePpsExt_safe (chroma : Nat) : Safe (parsePpsExt chroma) := by
  intro r hi
  unfold parsePpsExt
  split
  · refine (Safe.bind readFlag_safe fun t => Safe.bind readFlag_safe fun present => Safe.bind ?_ fun m =>
      Safe.bind readSE_safe fun _ => Safe.pure _) r hi
    refine Safe.ite (fun _ => matrix_safe _ ?_) fun _ => Safe.pure _
    split <;> (try split) <;> decide
  · exact ⟨_, r, rfl, hi, rfl, Nat.le_refl _⟩

theorem bind_ok {α β : Type} {m : BR α} {f : α → BR β} {r r' : BitReader} {b : β} :
    (m >>= f) r = .ok (.ok b, r') ↔ ∃ a r1, m r = .ok (.ok a, r1) ∧ f a r1 = .ok (.ok b, r') := by
  rw [BR.bind_apply]
  cases h : m r with
  | error p => simp
  | ok x =>
    obtain ⟨x, r1⟩ := x
    cases x with
    | error e => simp
    | ok a =>
      simp only [Except.ok.injEq, Prod.mk.injEq]
      constructor
      · intro hb; exact ⟨a, r1, ⟨rfl, rfl⟩, hb⟩
      · rintro ⟨a', r2, ⟨rfl, rfl⟩, hb⟩; exact hb

theorem u32_lt' (x : Nat) : u32 x < 2 ^ 32 := by unfold u32; omega

theorem readUE_lt : Post readUnsignedGolomb (fun v => v < 2 ^ 32) := by
  intro r v r' h
  unfold readUnsignedGolomb at h
  rw [bind_ok] at h
  obtain ⟨z, r1, _, h⟩ := h
  rw [bind_ok] at h
  obtain ⟨w, r2, _, h⟩ := h
  rw [BR.pure_apply] at h
  injection h with h; injection h with h _; injection h with h
  rw [← h]; exact u32_lt' _

theorem u32_succ_zero {x : Nat} (h : x < 2 ^ 32) (hz : u32 (x + 1) = 0) : x = 2 ^ 32 - 1 := by
  unfold u32 at hz; omega

/-- When slice group parsing panics, on a non-empty buffer. -/
theorem groups_panics (inf n : Nat) (r : BitReader) (hi : r.Inv) (hne : r.buffer ≠ []) :
    (PanicsAt (parseSliceGroups inf n) r ↔ 0 < n ∧ ∃ t r', readUnsignedGolomb r = .ok (.ok t, r') ∧
      ((t = 0 ∧ 8 ≤ n ∧ Succeeds (golombs 8) r') ∨ (t = 2 ∧ 9 ≤ n ∧ Succeeds (golombs 16) r') ∨
       (t = 6 ∧ ∃ size r'', readUnsignedGolomb r' = .ok (.ok size, r'') ∧ size = 2 ^ 32 - 1))) ∧
    (∀ x r', parseSliceGroups inf n r = .ok (x, r') → r'.Inv ∧ r'.buffer = r.buffer) := by
  unfold parseSliceGroups
  by_cases hn : ¬ n > 0
  · rw [if_neg hn]
    refine ⟨⟨fun h => absurd h (panicsAt_pure _ _), fun h => absurd h.1 hn⟩, fun x r' h => (Safe.pure _).keeps r hi x r' h⟩
  have hn : n > 0 := by omega
  rw [if_pos hn]
  constructor
  · rw [panicsAt_bind readUE_safe hi]
    constructor
    · rintro ⟨t, r', h1, h2, h3, h4⟩
      refine ⟨hn, t, r', h1, ?_⟩
      by_cases t0 : t = 0
      · rw [if_pos t0, panicsAt_bind_left h2 (fun _ _ h => (runLength_keeps _ _ _ r' h2 _ _ h).1) fun _ => Safe.pure _,
          runLength_panics _ _ _ _ h2 (by omega)] at h4
        exact .inl ⟨t0, by omega, h4.2⟩
      rw [if_neg t0] at h4
      by_cases t2 : t = 2
      · rw [if_pos t2, panicsAt_bind_left h2 (fun _ _ h => (rect_keeps _ _ _ _ r' h2 _ _ h).1) fun _ => Safe.pure _,
          rect_panics _ _ _ _ _ h2 (by omega)] at h4
        exact .inr (.inl ⟨t2, by omega, h4.2⟩)
      rw [if_neg t2] at h4
      by_cases t5 : t = 5
      · rw [if_pos t5] at h4
        exact absurd h4 ((readFlag_safe.bind fun _ => readUE_safe.bind fun _ => Safe.pure _).not_panics h2)
      rw [if_neg t5] at h4
      by_cases t6 : t = 6
      · rw [if_pos t6, panicsAt_bind readUE_safe h2] at h4
        obtain ⟨size, r2, g1, g2, g3, g4⟩ := h4
        refine .inr (.inr ⟨t6, size, r2, g1, ?_⟩)
        by_cases hz : u32 (size + 1) = 0
        · exact u32_succ_zero (readUE_lt _ _ _ g1) hz
        · rw [if_neg hz, panicsAt_bind_left g2 (fun _ _ h => (groupId_keeps _ _ _ r2 g2 (by rw [g3, h3]; exact hne) _ _ h).1)
            fun _ => Safe.pure _] at g4
          obtain ⟨y, r3, k1, _⟩ := groupId_ne (groupIdBits inf n) (size + 1) [] r2 g2 (by rw [g3, h3]; exact hne)
          obtain ⟨p, hp⟩ := g4
          rw [k1] at hp; cases hp
      · rw [if_neg t6] at h4
        exact absurd h4 (panicsAt_pure _ _)
    · rintro ⟨_, t, r', h1, h2⟩
      obtain ⟨k1, k2⟩ := readUE_safe.keeps r hi _ _ h1
      refine ⟨t, r', h1, k1, k2, ?_⟩
      rcases h2 with ⟨rfl, h8, hs⟩ | ⟨rfl, h9, hs⟩ | ⟨rfl, size, r2, hs, hz⟩
      · rw [if_pos rfl]
        exact panicsAt_here ((runLength_panics _ _ _ _ k1 (by omega)).2 ⟨by omega, hs⟩)
      · rw [if_neg (by decide), if_pos rfl]
        exact panicsAt_here ((rect_panics _ _ _ _ _ k1 (by omega)).2 ⟨by omega, hs⟩)
      · rw [if_neg (by decide), if_neg (by decide), if_neg (by decide), if_pos rfl, panicsAt_bind readUE_safe k1]
        obtain ⟨g1, g2⟩ := readUE_safe.keeps r' k1 _ _ hs
        refine ⟨size, r2, hs, g1, g2, ?_⟩
        subst hz
        exact ⟨_, rfl⟩
  · intro x r' hx
    rw [BR.bind_apply] at hx
    cases h : readUnsignedGolomb r with
    | error p => rw [h] at hx; cases hx
    | ok y =>
      obtain ⟨y, r2⟩ := y
      obtain ⟨k1, k2⟩ := readUE_safe.keeps r hi _ _ h
      rw [h] at hx
      cases y with
      | error e =>
        simp only [Except.ok.injEq, Prod.mk.injEq] at hx
        obtain ⟨_, rfl⟩ := hx
        exact ⟨k1, k2⟩
      | ok t =>
        simp only at hx
        have key : ∀ {α : Type} {m : BR α} {x r'}, Keeps m → m r2 = .ok (x, r') → r'.Inv ∧ r'.buffer = r.buffer :=
          fun hk hm => ⟨(hk r2 k1 _ _ hm).1, (hk r2 k1 _ _ hm).2.trans k2⟩
        by_cases t0 : t = 0
        · rw [if_pos t0] at hx
          exact key ((runLength_keeps _ _ _).bind fun _ => (Safe.pure _).keeps) hx
        rw [if_neg t0] at hx
        by_cases t2 : t = 2
        · rw [if_pos t2] at hx
          exact key ((rect_keeps _ _ _ _).bind fun _ => (Safe.pure _).keeps) hx
        rw [if_neg t2] at hx
        by_cases t5 : t = 5
        · rw [if_pos t5] at hx
          exact key (readFlag_safe.bind fun _ => readUE_safe.bind fun _ => Safe.pure _).keeps hx
        rw [if_neg t5] at hx
        by_cases t6 : t = 6
        · rw [if_pos t6, BR.bind_apply] at hx
          cases h' : readUnsignedGolomb r2 with
          | error p => rw [h'] at hx; cases hx
          | ok y =>
            obtain ⟨y, r3⟩ := y
            obtain ⟨j1, j2⟩ := readUE_safe.keeps r2 k1 _ _ h'
            rw [h'] at hx
            cases y with
            | error e =>
              simp only [Except.ok.injEq, Prod.mk.injEq] at hx
              obtain ⟨_, rfl⟩ := hx
              exact ⟨j1, j2.trans k2⟩
            | ok size =>
              simp only at hx
              by_cases hz : u32 (size + 1) = 0
              · rw [if_pos hz] at hx; cases hx
              · rw [if_neg hz, BR.bind_apply] at hx
                obtain ⟨y, r4, l1, l2, l3⟩ := groupId_ne (groupIdBits inf n) (size + 1) [] r3 j1 (by rw [j2, k2]; exact hne)
                rw [l1] at hx
                cases y with
                | error e =>
                  simp only [Except.ok.injEq, Prod.mk.injEq] at hx
                  obtain ⟨_, rfl⟩ := hx
                  exact ⟨l2, l3.trans (j2.trans k2)⟩
                | ok v =>
                  simp only [BR.pure_apply, Except.ok.injEq, Prod.mk.injEq] at hx
                  obtain ⟨_, rfl⟩ := hx
                  exact ⟨l2, l3.trans (j2.trans k2)⟩
        · rw [if_neg t6] at hx
          exact key (Safe.pure _).keeps hx

/-- `ParsePPS` panics exactly for the following buffers: the number of slice groups and the map type can be read, and
either there are more than 8 groups of type 0 and 8 run lengths can be read, or more than 9 groups of type 2 and 16
corners can be read, or the type is 6 and the size wraps around to zero. -/
theorem C33_panics_iff (inf : Nat) (st : ParameterSets) (buf : Bytes) :
    Panics (parsePPS inf st buf) ↔ ∃ n r, ppsHead (newBitReader buf) = .ok (.ok n, r) ∧ 0 < n ∧
      ∃ t r', readUnsignedGolomb r = .ok (.ok t, r') ∧
        ((t = 0 ∧ 8 ≤ n ∧ Succeeds (golombs 8) r') ∨ (t = 2 ∧ 9 ≤ n ∧ Succeeds (golombs 16) r') ∨
         (t = 6 ∧ ∃ size r'', readUnsignedGolomb r' = .ok (.ok size, r'') ∧ size = 2 ^ 32 - 1)) := by
  have e1 : Panics (parsePPS inf st buf) ↔ PanicsAt (parsePpsBits inf st.spset) (newBitReader buf) := by
    unfold PanicsAt Panics parsePPS
    rcases parsePpsBits inf st.spset (newBitReader buf) with p | ⟨e | i, r⟩ <;> simp
  rw [e1]
  have hi := newBitReader_inv buf
  by_cases hne : buf = []
  · subst hne
    have h0 : ∃ r, readUnsignedGolomb (newBitReader []) = .ok (.error .unexpectedEOF, r) := ⟨_, rfl⟩
    obtain ⟨r0, h0⟩ := h0
    constructor
    · intro h
      unfold parsePpsBits at h
      rw [panicsAt_bind readUE_safe hi] at h
      obtain ⟨a, r', h1, _⟩ := h
      rw [h0] at h1; simp at h1
    · rintro ⟨n, r, h1, _⟩
      unfold ppsHead at h1
      rw [BR.bind_apply, h0] at h1; simp at h1
  unfold parsePpsBits ppsHead
  rw [panicsAt_bind readUE_safe hi]
  constructor
  · rintro ⟨a1, r1, g1, i1, b1, h⟩
    rw [panicsAt_bind readUE_safe i1] at h
    obtain ⟨a2, r2, g2, i2, b2, h⟩ := h
    rw [panicsAt_bind readFlag_safe i2] at h
    obtain ⟨a3, r3, g3, i3, b3, h⟩ := h
    rw [panicsAt_bind readFlag_safe i3] at h
    obtain ⟨a4, r4, g4, i4, b4, h⟩ := h
    rw [panicsAt_bind readUE_safe i4] at h
    obtain ⟨n, r5, g5, i5, b5, h⟩ := h
    have hne5 : r5.buffer ≠ [] := by rw [b5, b4, b3, b2, b1]; exact hne
    obtain ⟨k1, k2⟩ := groups_panics inf n r5 i5 hne5
    have h' := (panicsAt_bind_left i5 (fun x r' h => (k2 x r' h).1) (fun g => readUE_safe.bind fun _ =>
      readUE_safe.bind fun _ => readFlag_safe.bind fun _ => (readByteBits_safe (by decide)).bind fun _ =>
      readSE_safe.bind fun _ => readSE_safe.bind fun _ => readSE_safe.bind fun _ => readFlag_safe.bind fun _ =>
      readFlag_safe.bind fun _ => readFlag_safe.bind fun _ => (parsePpsExt_safe _).bind fun _ => Safe.pure _)).1 h
    have h := k1.1 h'
    refine ⟨n, r5, ?_, h.1, h.2⟩
    rw [BR.bind_apply, g1]; simp only
    rw [BR.bind_apply, g2]; simp only
    rw [BR.bind_apply, g3]; simp only
    rw [BR.bind_apply, g4]; exact g5
  · rintro ⟨n, r5, h, hn, hs⟩
    rw [bind_ok] at h
    obtain ⟨a1, r1, g1, h⟩ := h
    rw [bind_ok] at h
    obtain ⟨a2, r2, g2, h⟩ := h
    rw [bind_ok] at h
    obtain ⟨a3, r3, g3, h⟩ := h
    rw [bind_ok] at h
    obtain ⟨a4, r4, g4, g5⟩ := h
    obtain ⟨i1, b1⟩ := readUE_safe.keeps _ hi _ _ g1
    obtain ⟨i2, b2⟩ := readUE_safe.keeps _ i1 _ _ g2
    obtain ⟨i3, b3⟩ := readFlag_safe.keeps _ i2 _ _ g3
    obtain ⟨i4, b4⟩ := readFlag_safe.keeps _ i3 _ _ g4
    obtain ⟨i5, b5⟩ := readUE_safe.keeps _ i4 _ _ g5
    have hne5 : r5.buffer ≠ [] := by rw [b5, b4, b3, b2, b1]; exact hne
    refine ⟨a1, r1, g1, i1, b1, (panicsAt_bind readUE_safe i1).2 ⟨a2, r2, g2, i2, b2,
      (panicsAt_bind readFlag_safe i2).2 ⟨a3, r3, g3, i3, b3, (panicsAt_bind readFlag_safe i3).2 ⟨a4, r4, g4, i4, b4,
      (panicsAt_bind readUE_safe i4).2 ⟨n, r5, g5, i5, b5, panicsAt_here ?_⟩⟩⟩⟩⟩
    exact (groups_panics inf n r5 i5 hne5).1.2 ⟨hn, hs⟩

/-- C33 where the number of slice groups is one the format allows and the map is not larger than addressable. -/
theorem C33_total_partial (inf : Nat) (st : ParameterSets) (buf : Bytes)
    (hn : ∀ n r, ppsHead (newBitReader buf) = .ok (.ok n, r) → n ≤ 7)
    (hsize : ∀ n r r' size r'', ppsHead (newBitReader buf) = .ok (.ok n, r) → readUnsignedGolomb r = .ok (.ok 6, r') →
      readUnsignedGolomb r' = .ok (.ok size, r'') → size ≠ 2 ^ 32 - 1) :
    ∃ e st', parsePPS inf st buf = .ok (e, st') := by
  rcases panics_or_ok (parsePPS inf st buf) with h | ⟨⟨e, st'⟩, h⟩
  · obtain ⟨n, r, h1, h2, t, r', h3, h4⟩ := (C33_panics_iff inf st buf).1 h
    have := hn n r h1
    rcases h4 with ⟨_, h, _⟩ | ⟨_, h, _⟩ | ⟨rfl, size, r'', h5, h6⟩
    · omega
    · omega
    · exact absurd h6 (hsize n r r' size r'' h1 h3 h5)
  · exact ⟨e, st', h⟩

/-- C33 is false: three bytes that announce nine slice groups of type 0 crash the parser, whatever it knows. -/
theorem C33_refuted (inf : Nat) (st : ParameterSets) : Panics (parsePPS inf st [0xC1, 0x3F, 0xF0]) := by
  rw [C33_panics_iff]
  have hp : Parses ppsHead (ueBits 0 ++ (ueBits 0 ++ ([false] ++ ([false] ++ ueBits 8)))) 8 := by
    unfold ppsHead
    exact (parses_ue (by decide)).bind ((parses_ue (by decide)).bind ((parses_flag _).bind ((parses_flag _).bind
      (parses_ue (by decide)))))
  have hg : ∀ k, Parses (golombs k) (List.replicate k true) () := by
    intro k
    induction k with
    | zero => exact Parses.pure _
    | succ k ih =>
      rw [List.replicate_succ]
      exact Parses.bind (b1 := [true]) (a := 0) (by have := parses_ue (v := 0) (by decide); exact this) ih
  obtain ⟨r1, h1, i1, b1, p1⟩ := hp (newBitReader [0xC1, 0x3F, 0xF0])
    ([true] ++ (List.replicate 8 true ++ [false, false, false, false])) (newBitReader_inv _) (by decide)
    (by rw [newBitReader_rest]; decide)
  have q1 : r1.rest = [true] ++ (List.replicate 8 true ++ [false, false, false, false]) :=
    rest_eq_append b1 p1 (by rw [newBitReader_rest]; decide) rfl
  have hne1 : r1.buffer ≠ [] := by rw [b1]; decide
  obtain ⟨r2, h2, i2, b2, p2⟩ := parses_ue (v := 0) (by decide) r1 _ i1 hne1 q1
  have q2 : r2.rest = List.replicate 8 true ++ [false, false, false, false] := rest_eq_append b2 p2 q1 rfl
  obtain ⟨r3, h3, _⟩ := hg 8 r2 _ i2 (by rw [b2]; exact hne1) q2
  exact ⟨8, r1, h1, by decide, 0, r2, h2, .inl ⟨rfl, by decide, (), r3, h3⟩⟩

/-- The hypotheses of `C33_total_partial` hold for the accepted set above. -/
example : ∃ r, ppsHead (newBitReader bufType3) = .ok (.ok 1, r) := by
  have hp : Parses ppsHead (ueBits 0 ++ (ueBits 0 ++ ([false] ++ ([false] ++ ueBits 1)))) 1 := by
    unfold ppsHead
    exact (parses_ue (by decide)).bind ((parses_ue (by decide)).bind ((parses_flag _).bind ((parses_flag _).bind
      (parses_ue (by decide)))))
  obtain ⟨r, h, _⟩ := hp (newBitReader bufType3) ((bitsOf bufType3).drop 7) (newBitReader_inv _) (by decide)
    (by rw [newBitReader_rest]; decide)
  exact ⟨r, h⟩

end Ouro
