import Verif.Lemmas.Sps
/-! # Lemmas about `ParsePPS` -/
namespace Ouro
open Spec

theorem parses_runLength (rs : List Nat) : ∀ (i : Nat) (pre : List Nat), pre.length = i → i + rs.length ≤ 8 →
    (∀ x ∈ rs, x < 2 ^ 25) → Parses (runLengthLoop rs.length i (pre ++ List.replicate (8 - i) 0)) (rs.flatMap ueBits)
      (pre ++ rs ++ List.replicate (8 - (i + rs.length)) 0) := by
  induction rs with
  | nil => intro i pre _ _ _; simpa [runLengthLoop] using Parses.pure _
  | cons x rs ih =>
    intro i pre hp hl hx
    simp only [List.length_cons] at hl ⊢
    unfold runLengthLoop
    rw [if_pos (by omega), List.flatMap_cons]
    refine (parses_ue (v := x) (by have := hx x (by simp); omega)).bind ?_
    have hset : (pre ++ List.replicate (8 - i) 0).set i x = pre ++ [x] ++ List.replicate (8 - (i + 1)) 0 := by
      have e : 8 - i = (8 - (i + 1)) + 1 := by omega
      rw [e, List.replicate_succ, List.set_append_right _ _ (by omega), hp]
      simp
    rw [hset]
    have := ih (i + 1) (pre ++ [x]) (by simp [hp]) (by omega) (fun y hy => hx y (by simp [hy]))
    have e : i + 1 + rs.length = i + (rs.length + 1) := by omega
    rw [e] at this
    simpa using this

theorem parses_rects (rs : List (Nat × Nat)) : ∀ (i : Nat) (pa pb : List Nat), pa.length = i → pb.length = i →
    i + rs.length ≤ 8 → (∀ x ∈ rs, x.1 < 2 ^ 25 ∧ x.2 < 2 ^ 25) →
    Parses (rectLoop rs.length i (pa ++ List.replicate (8 - i) 0) (pb ++ List.replicate (8 - i) 0))
      (rs.flatMap fun (a, b) => ueBits a ++ ueBits b)
      (pa ++ rs.map (·.1) ++ List.replicate (8 - (i + rs.length)) 0,
       pb ++ rs.map (·.2) ++ List.replicate (8 - (i + rs.length)) 0) := by
  induction rs with
  | nil => intro i pa pb _ _ _ _; simpa [rectLoop] using Parses.pure _
  | cons x rs ih =>
    intro i pa pb ha hb hl hx
    obtain ⟨v, w⟩ := x
    simp only [List.length_cons] at hl ⊢
    have hvw := hx (v, w) (by simp)
    unfold rectLoop
    rw [if_pos (by omega), List.flatMap_cons, List.append_assoc]
    refine (parses_ue (v := v) (by have := hvw.1; omega)).bind ?_
    refine (parses_ue (v := w) (by have := hvw.2; omega)).bind ?_
    have hset : ∀ (p : List Nat) (y : Nat), p.length = i →
        (p ++ List.replicate (8 - i) 0).set i y = p ++ [y] ++ List.replicate (8 - (i + 1)) 0 := by
      intro p y hp
      have e : 8 - i = (8 - (i + 1)) + 1 := by omega
      rw [e, List.replicate_succ, List.set_append_right _ _ (by omega), hp]
      simp
    rw [hset pa v ha, hset pb w hb]
    have := ih (i + 1) (pa ++ [v]) (pb ++ [w]) (by simp [ha]) (by simp [hb]) (by omega) (fun y hy => hx y (by simp [hy]))
    have e : i + 1 + rs.length = i + (rs.length + 1) := by omega
    rw [e] at this
    simpa using this

theorem uBits_length (n v : Nat) : (uBits n v).length = n := by
  induction n with
  | zero => rfl
  | succ n ih => simp [uBits, ih]

theorem parses_u8 {k v : Nat} (hk : 0 < k) (hk8 : k ≤ 8) (hv : v < 2 ^ k) :
    Parses (readByteBits k) (uBits k v) (UInt8.ofNat v) := by
  have := parses_bits (bs := uBits k v) (by rw [uBits_length]; exact hk) (by rw [uBits_length]; exact hk8)
  rw [uBits_length, bitsVal_uBits, Nat.mod_eq_of_lt hv] at this
  exact this

theorem parses_groupIds (k : Nat) (hk : 0 < k) (hk8 : k ≤ 8) (ids : List Nat) : ∀ acc : Bytes, (∀ x ∈ ids, x < 2 ^ k) →
    Parses (groupIdLoop k ids.length acc) (ids.flatMap (uBits k)) (acc ++ ids.map UInt8.ofNat) := by
  induction ids with
  | nil => intro acc _; simpa [groupIdLoop] using Parses.pure _
  | cons x ids ih =>
    intro acc hx
    rw [List.flatMap_cons, List.length_cons]
    unfold groupIdLoop
    refine (parses_u8 hk hk8 (hx x (by simp))).bind ?_
    have := ih (acc ++ [UInt8.ofNat x]) (fun y hy => hx y (by simp [hy]))
    simpa using this

theorem groupBits_eq (inf n : Nat) (h1 : 1 ≤ n) (h7 : n ≤ 7) : groupIdBits inf n = groupBits n := by
  have : n = 1 ∨ n = 2 ∨ n = 3 ∨ n = 4 ∨ n = 5 ∨ n = 6 ∨ n = 7 := by omega
  rcases this with rfl | rfl | rfl | rfl | rfl | rfl | rfl <;> rfl

theorem lt_groupBits (n x : Nat) (h : x ≤ n) (h7 : n ≤ 7) : x < 2 ^ groupBits n := by
  unfold groupBits; split
  · omega
  · split <;> omega

/-- Decoded slice group data. -/
def groupInfo : GroupMap → SliceGroups
  | .interleaved rs => { mapType := 0, runLength := rs ++ List.replicate (8 - rs.length) 0 }
  | .dispersed => { mapType := 1 }
  | .foreground rs => { mapType := 2, topLeft := rs.map (·.1) ++ List.replicate (8 - rs.length) 0,
                        bottomRight := rs.map (·.2) ++ List.replicate (8 - rs.length) 0 }
  | .changing t d r => { mapType := t, changeDirection := d, changeRate := r }
  | .explicit ids => { mapType := 6, picSize := ids.length - 1, groupID := ids.map UInt8.ofNat }

/-- Slice groups of type 3 and 4 are not read by the code. -/
def UnreadGroups : GroupMap → Prop
  | .changing t _ _ => t = 3 ∨ t = 4
  | _ => False

theorem parses_groups (inf n : Nat) (h1 : 0 < n) (h7 : n ≤ 7) (g : GroupMap) (hv : g.Valid n) (hg : ¬ UnreadGroups g) :
    Parses (parseSliceGroups inf n) (g.bits n) (groupInfo g) := by
  unfold parseSliceGroups
  rw [if_pos h1]
  cases g with
  | interleaved rs =>
    obtain ⟨hl, hx⟩ := hv
    refine (parses_ue (by decide)).bind ?_
    rw [if_pos rfl, ← hl]
    have := parses_runLength rs 0 [] rfl (by omega) hx
    simp only [List.nil_append, Nat.zero_add] at this
    exact this.last (Parses.pure _)
  | dispersed =>
    refine (parses_ue (by decide)).last ?_
    rw [if_neg (by decide), if_neg (by decide), if_neg (by decide), if_neg (by decide)]
    exact Parses.pure _
  | foreground rs =>
    obtain ⟨hl, hx⟩ := hv
    refine (parses_ue (by decide)).bind ?_
    rw [if_neg (by decide), if_pos rfl, ← hl]
    have := parses_rects rs 0 [] [] rfl rfl (by omega) hx
    simp only [List.nil_append, Nat.zero_add] at this
    exact this.last (Parses.pure _)
  | changing t d r =>
    obtain ⟨h3, h5, hr⟩ := hv
    have ht : t = 5 := by
      have : ¬ (t = 3 ∨ t = 4) := hg
      omega
    subst ht
    simp only [GroupMap.bits, List.append_assoc]
    refine (parses_ue (by decide)).bind ?_
    rw [if_neg (by decide), if_neg (by decide), if_pos rfl]
    refine (parses_flag _).bind ?_
    exact (parses_ue (by omega)).last (Parses.pure _)
  | explicit ids =>
    obtain ⟨h0, hl, hx⟩ := hv
    simp only [GroupMap.bits, List.append_assoc]
    refine (parses_ue (by decide)).bind ?_
    rw [if_neg (by decide), if_neg (by decide), if_neg (by decide), if_pos rfl]
    refine (parses_ue (by omega)).bind ?_
    rw [if_neg (by unfold u32; omega), groupBits_eq inf n h1 h7, show ids.length - 1 + 1 = ids.length by omega]
    have hk : 0 < groupBits n ∧ groupBits n ≤ 8 := by unfold groupBits; split <;> (try split) <;> decide
    have := parses_groupIds (groupBits n) hk.1 hk.2 ids [] (fun x hxm => lt_groupBits n x (hx x hxm) h7)
    exact this.last (Parses.pure _)

theorem parses_noGroups (inf : Nat) : Parses (parseSliceGroups inf 0) [] {} := Parses.pure _

/-- The optional extension. -/
def extInfo : Option PpsExt → PpsExtInfo
  | none => ⟨false, false, ScalingMatrix.zero, 0⟩
  | some e => ⟨e.transform_8x8_mode_flag, e.scaling_matrix.isSome,
      match e.scaling_matrix with | none => ScalingMatrix.zero | some ls => matrixInfo ls,
      e.second_chroma_qp_index_offset⟩

theorem parses_ext (chroma : Nat) (e : PpsExt) (hv : e.Valid chroma) :
    Parses (parsePpsExt chroma) e.bits (extInfo (some e)) := by
  intro r rest hi hne hr
  have hav : r.available > 0 := by
    rw [BitReader.available_eq_rest hi, hr]; simp [PpsExt.bits]
  have hp : Parses (do
      let t ← readFlag
      let present ← readFlag
      let m ← (if present then
          scalingMatrixLoop (if t then (if chroma = 3 then 12 else 8) else 6) 0 0 16 ScalingMatrix.zero
        else pure ScalingMatrix.zero : BR ScalingMatrix)
      let second ← readSignedGolomb
      pure ⟨t, present, m, second⟩ : BR PpsExtInfo) e.bits (extInfo (some e)) := by
    obtain ⟨h1, h2, h3⟩ := hv
    unfold PpsExt.bits
    simp only [List.append_assoc]
    refine (parses_flag _).bind ?_
    have hx : extInfo (some e) = ⟨e.transform_8x8_mode_flag, e.scaling_matrix.isSome,
      match e.scaling_matrix with | none => ScalingMatrix.zero | some ls => matrixInfo ls,
      e.second_chroma_qp_index_offset⟩ := rfl
    rw [hx]
    cases hm : e.scaling_matrix with
    | none =>
      refine Parses.bind (b1 := [false]) (parses_flag false) ?_
      refine Parses.bind0 (Parses.pure _) ?_
      exact (parses_se (by omega) (by omega)).last (Parses.pure _)
    | some ls =>
      obtain ⟨g1, g2⟩ := h1 ls hm
      have e' : (true :: matrixBits 0 ls) ++ seBits e.second_chroma_qp_index_offset =
          [true] ++ (matrixBits 0 ls ++ seBits e.second_chroma_qp_index_offset) := by simp
      dsimp only
      rw [e']
      refine (parses_flag true).bind ?_
      refine Parses.bind (a := matrixInfo ls) ?_ ((parses_se (by omega) (by omega)).last (Parses.pure _))
      have hn : (if e.transform_8x8_mode_flag then (if chroma = 3 then 12 else 8) else 6) = ls.length := by
        rw [g1]; unfold ppsLists; split <;> (try split) <;> rfl
      have hle : ls.length ≤ 12 := by rw [← hn]; split <;> (try split) <;> decide
      rw [if_pos rfl, hn]
      exact parses_matrix ls hle g2
  have := hp r rest hi hne hr
  unfold Yields at this ⊢
  unfold parsePpsExt
  rw [if_pos hav]
  exact this

theorem failsOn_ext_trailing (chroma k : Nat) : FailsOn (parsePpsExt chroma) (trailing k) .unexpectedEOF := by
  intro r hi hne hr
  have hav : r.available > 0 := by
    rw [BitReader.available_eq_rest hi, hr]; simp [trailing]
  have hp : FailsOn (do
      let t ← readFlag
      let present ← readFlag
      let m ← (if present then
          scalingMatrixLoop (if t then (if chroma = 3 then 12 else 8) else 6) 0 0 16 ScalingMatrix.zero
        else pure ScalingMatrix.zero : BR ScalingMatrix)
      let second ← readSignedGolomb
      pure ⟨t, present, m, second⟩ : BR PpsExtInfo) (trailing k) .unexpectedEOF := by
    refine FailsOn.bind (b1 := [true]) (parses_flag true) ?_
    cases k with
    | zero => exact failsOn_flag_nil.here
    | succ k =>
      rw [List.replicate_succ]
      refine FailsOn.bind (b1 := [false]) (parses_flag false) ?_
      refine FailsOn.bind0 (Parses.pure _) ?_
      exact (failsOn_se_zeros k).here
  obtain ⟨n, h⟩ := hp r hi hne hr
  refine ⟨n, ?_⟩
  unfold Fails at h ⊢
  unfold parsePpsExt
  rw [if_pos hav]
  exact h

/-- What `ParsePPS` stores. -/
def ppsInfoOf (p : Pps) (ext : PpsExtInfo) : PPSInfo :=
  let g := if 0 < p.num_slice_groups_minus1 then groupInfo p.groups else {}
  { ppsID := p.pic_parameter_set_id, spsID := p.seq_parameter_set_id, entropyCodingMode := p.entropy_coding_mode_flag,
    bottomFieldPicOrder := p.bottom_field_pic_order_in_frame_present_flag,
    numSliceGroupsMinus1 := p.num_slice_groups_minus1, sliceGroupMapType := g.mapType, runLengthMinus1 := g.runLength,
    topLeft := g.topLeft,
    bottomRight := g.bottomRight, sliceGroupChangeDirection := g.changeDirection,
    sliceGroupChangeRateMinus1 := g.changeRate, picSizeInMapUnitsMinus1 := g.picSize, sliceGroupID := g.groupID,
    numRefIdxL0DefaultActiveMinus1 := p.num_ref_idx_l0_default_active_minus1,
    numRefIdxL1DefaultActiveMinus1 := p.num_ref_idx_l1_default_active_minus1, weightedPred := p.weighted_pred_flag,
    weightedBipredIdc := UInt8.ofNat p.weighted_bipred_idc, picInitQpMinus26 := p.pic_init_qp_minus26,
    picInitQsMinus26 := p.pic_init_qs_minus26, chromaQpIndexOffset := p.chroma_qp_index_offset,
    deblockingFilterControlPresent := p.deblocking_filter_control_present_flag,
    constrainedIntraPred := p.constrained_intra_pred_flag, redundantPicCntPresent := p.redundant_pic_cnt_present_flag,
    transform8x8Mode := ext.transform8x8, scalingMatrixPresent := ext.matrixPresent, scaling := ext.matrix,
    secondChromaQpIndexOffset := ext.secondChroma }

/-- What `ParsePPS` stores, with the extension of the set. -/
def ppsInfo (p : Pps) : PPSInfo := ppsInfoOf p (extInfo p.ext)

/-- Up to the extension. -/
theorem steps_pps (inf : Nat) (spset : Nat → Option SPSInfo) (chroma : Nat) (p : Pps) (hv : p.Valid chroma)
    (hg : 0 < p.num_slice_groups_minus1 → ¬ UnreadGroups p.groups) :
    Steps (parsePpsBits inf spset) p.baseBits
        (parsePpsExt (match spset p.seq_parameter_set_id with | some sps => sps.chromaFormatIdc | none => 3) >>=
          fun e => pure (ppsInfoOf p e)) := by
  have h1 := hv.id
  have h2 := hv.sid
  have h3 := hv.groupsMax
  have h4 := hv.l0
  have h5 := hv.l1
  have h6 := hv.bipred
  have h7 := hv.qp
  have h8 := hv.qs
  have h9 := hv.cqp
  unfold parsePpsBits Pps.baseBits
  simp only [List.append_assoc]
  refine Steps.bind (parses_ue (by omega)) ?_
  refine Steps.bind (parses_ue (by omega)) ?_
  refine Steps.bind (parses_flag _) ?_
  refine Steps.bind (parses_flag _) ?_
  refine Steps.bind (parses_ue (by omega)) ?_
  refine Steps.bind (a := if 0 < p.num_slice_groups_minus1 then groupInfo p.groups else {}) ?_ ?_
  · by_cases hn : 0 < p.num_slice_groups_minus1
    · rw [if_pos hn, if_pos hn]
      exact parses_groups inf _ hn h3 _ (hv.groups hn) (hg hn)
    · rw [if_neg hn, if_neg hn, show p.num_slice_groups_minus1 = 0 by omega]
      exact parses_noGroups inf
  refine Steps.bind (parses_ue (by omega)) ?_
  refine Steps.bind (parses_ue (by omega)) ?_
  refine Steps.bind (parses_flag _) ?_
  refine Steps.bind (parses_u8 (by decide) (by decide) (by omega)) ?_
  refine Steps.bind (parses_se (by omega) (by omega)) ?_
  refine Steps.bind (parses_se (by omega) (by omega)) ?_
  refine Steps.bind (parses_se (by omega) (by omega)) ?_
  refine Steps.bind (parses_flag _) ?_
  refine Steps.bind (parses_flag _) ?_
  exact Steps.last (parses_flag _) (Steps.refl _)

end Ouro
