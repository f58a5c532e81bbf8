import Verif.Props.Sps
/-!
# C29: sequence parameter sets of interlaced streams

The flag `frame_mbs_only_flag` is one bit, and is read as an Exp-Golomb number. What comes of it for interlaced sets without cropping and VUI parameters, which end
with the stop bit and any number of alignment zeros.
-/
namespace Ouro
open Spec

theorem reserved_zero (s : Sps) (hv : s.Valid) :
    ¬ ((prefixOf s).constraint &&& 2 ≠ 0 ∧ ((prefixOf s).profile = 77 ∨ (prefixOf s).profile = 88 ∨ (prefixOf s).profile = 100)) :=
  fun h => h.1 (u8_and2_of_and3 _ hv.reserved)

/-- **C29 fails for every interlaced set with MBAFF** (macroblock-adaptive frame/field coding) without cropping and VUI parameters: it is refused, with an unexpected end of
the data. -/
theorem C29_mbaff_refuted (st : ParameterSets) (buf : Bytes) (s : Sps) (k : Nat) (hv : s.Valid) (hs : Supported s) (hf : s.frame_mbs_only_flag = false)
    (hm : s.mb_adaptive_frame_field_flag = true) (hc : s.crop = none) (hu : s.vui_parameters_present_flag = false)
    (hbuf : bitsOf buf = s.bits ++ true :: List.replicate k false) : parseSPS st buf = .ok (some .unexpectedEOF, st) := by
  have hb : s.bits ++ true :: List.replicate k false = s.prefixBits ++ (ueBits 2 ++ ([false] ++ ([false] ++ ([true] ++ List.replicate k false)))) := by
    simp [Sps.bits, hf, hm, hv.direct hf, hc, hu, cropBits, show ueBits 2 = [false, true, true] by decide]
  have : FailsOn parseSpsBits (s.bits ++ true :: List.replicate k false) .unexpectedEOF := by
    rw [hb]
    refine (steps_sps_prefix s hv hs.1 hs.2).failsOn ?_
    unfold parseSpsTail
    refine FailsOn.bind (parses_ue (by decide)) ?_
    rw [if_neg (reserved_zero s hv)]
    dsimp only
    rw [if_pos (by decide)]
    refine FailsOn.bind (parses_flag false) ?_
    refine FailsOn.bind (parses_flag false) ?_
    refine FailsOn.bind (parses_flag true) ?_
    refine FailsOn.here ?_
    unfold parseSpsCrop
    rw [if_pos rfl]
    exact (failsOn_ue_zeros k).here
  obtain ⟨n, r', h, _⟩ := this (newBitReader buf) (newBitReader_inv _) (buf_ne_nil hbuf (by simp [Sps.bits, sps_bits_ne])) (by rw [newBitReader_rest, hbuf])
  simp only [parseSPS, h]

/-- **C29, exactly, for every interlaced set without MBAFF, cropping and VUI parameters**: whether it is accepted depends on nothing but the number of alignment zeros at
its end, which must be three or more; and then both the MBAFF flag and `direct_8x8_inference_flag` are stored the wrong way round. -/
theorem C29_paff_iff (st : ParameterSets) (buf : Bytes) (s : Sps) (k : Nat) (hv : s.Valid) (hs : Supported s) (hf : s.frame_mbs_only_flag = false)
    (hm : s.mb_adaptive_frame_field_flag = false) (hc : s.crop = none) (hu : s.vui_parameters_present_flag = false)
    (hbuf : bitsOf buf = s.bits ++ true :: List.replicate k false) :
    ((∃ st', parseSPS st buf = .ok (none, st')) ↔ 3 ≤ k) ∧
    ∀ st', parseSPS st buf = .ok (none, st') → ∃ i, st'.getSPS s.seq_parameter_set_id = some i ∧ i.frameMbsOnly = 3 ∧
      i.mbAdaptiveFrameField = !s.mb_adaptive_frame_field_flag ∧ i.direct8x8Inference = !s.direct_8x8_inference_flag := by
  have hb : s.bits ++ true :: List.replicate k false = s.prefixBits ++ (ueBits 3 ++ ([true] ++ List.replicate k false)) := by
    simp [Sps.bits, hf, hm, hv.direct hf, hc, hu, cropBits, show ueBits 3 = [false, false, true, false, false] by decide]
  have hne := buf_ne_nil hbuf (by simp [Sps.bits, sps_bits_ne])
  rw [hb] at hbuf
  by_cases hk : 3 ≤ k
  · obtain ⟨j, rfl⟩ : ∃ j, k = 3 + j := ⟨k - 3, by omega⟩
    have hz : List.replicate (3 + j) false = [false] ++ ([false] ++ ([false] ++ List.replicate j false)) := by
      rw [Nat.add_comm]; rfl
    obtain ⟨i, hi, hp⟩ : ∃ i : SPSInfo, (i.spsID = s.seq_parameter_set_id ∧ i.frameMbsOnly = 3 ∧ i.mbAdaptiveFrameField = true ∧ i.direct8x8Inference = false) ∧
        Parses parseSpsBits (s.prefixBits ++ (ueBits 3 ++ ([true] ++ ([false] ++ ([false] ++ [false]))))) i := by
      refine ⟨{ progressiveInfo s with
        frameMbsOnly := 3, mbAdaptiveFrameField := true, direct8x8Inference := false, frameCropping := false, cropLeft := 0, cropRight := 0, cropTop := 0, cropBottom := 0,
        vuiParametersPresent := false, width := spsWidth (prefixOf s).w 0 0 (subWidthC (prefixOf s).hi.separate (prefixOf s).hi.chroma),
        height := spsHeight 3 (prefixOf s).h 0 0 (subHeightC (prefixOf s).hi.separate (prefixOf s).hi.chroma) }, ⟨rfl, rfl, rfl, rfl⟩, ?_⟩
      · refine (steps_sps_prefix s hv hs.1 hs.2).parses ?_
        unfold parseSpsTail
        refine (parses_ue (by decide)).bind ?_
        rw [if_neg (reserved_zero s hv)]
        dsimp only
        rw [if_pos (by decide)]
        refine (parses_flag true).bind ?_
        refine (parses_flag false).bind ?_
        refine (parses_flag false).bind ?_
        refine Parses.bind0 (a := (0, 0, 0, 0)) (Parses.pure _) ?_
        dsimp only
        exact (parses_flag false).last (Parses.pure _)
    obtain ⟨r', h, _⟩ := hp (newBitReader buf) (List.replicate j false) (newBitReader_inv _) hne (by rw [newBitReader_rest, hbuf, hz]; simp)
    have he : parseSPS st buf = .ok (none, { st with spset := fun id => if id = i.spsID then some i else st.spset id }) := by
      simp only [parseSPS, h]
    refine ⟨⟨fun _ => hk, fun _ => ⟨_, he⟩⟩, fun st' h' => ⟨i, ?_, hi.2.1, ?_, ?_⟩⟩
    · rw [he] at h'
      injection h' with h'; injection h' with _ h'
      rw [← h']
      simp [ParameterSets.getSPS, hi.1]
    · rw [hm]; exact hi.2.2.1
    · rw [hv.direct hf]; exact hi.2.2.2
  · have hfail : ∀ st', parseSPS st buf ≠ .ok (none, st') := by
      intro st' h'
      have : FailsOn parseSpsBits (s.prefixBits ++ (ueBits 3 ++ ([true] ++ List.replicate k false))) .unexpectedEOF := by
        refine (steps_sps_prefix s hv hs.1 hs.2).failsOn ?_
        unfold parseSpsTail
        refine FailsOn.bind (parses_ue (by decide)) ?_
        rw [if_neg (reserved_zero s hv)]
        dsimp only
        rw [if_pos (by decide)]
        refine FailsOn.bind (parses_flag true) ?_
        have h0 : k = 0 ∨ k = 1 ∨ k = 2 := by omega
        clear h' hb hbuf hk
        rcases h0 with rfl | rfl | rfl
        · show FailsOn _ [] _
          exact FailsOn.here failsOn_flag_nil
        · show FailsOn _ ([false] ++ []) _
          exact FailsOn.bind (parses_flag false) (FailsOn.here failsOn_flag_nil)
        · show FailsOn _ ([false] ++ ([false] ++ [])) _
          refine FailsOn.bind (parses_flag false) ?_
          refine FailsOn.bind (parses_flag false) ?_
          exact FailsOn.bind0 (a := (0, 0, 0, 0)) (Parses.pure _) (FailsOn.here failsOn_flag_nil)
      obtain ⟨n, r', h, _⟩ := this (newBitReader buf) (newBitReader_inv _) hne (by rw [newBitReader_rest, hbuf])
      simp only [parseSPS, h] at h'
      injection h' with h'; injection h' with h' _; cases h'
    exact ⟨⟨fun ⟨st', h⟩ => absurd h (hfail st'), fun h => absurd h hk⟩, fun st' h => absurd h (hfail st')⟩

/-- Interlaced sets without cropping and VUI parameters, with MBAFF and without. -/
def spsMbaffPlain : Sps := { spsMbaff with vui_parameters_present_flag := false }
def spsPaffPlain : Sps := { spsMbaffPlain with mb_adaptive_frame_field_flag := false }
/-- The same with another identifier, which leaves six zeros at the end. -/
def spsPaffSix : Sps := { spsPaffPlain with seq_parameter_set_id := 1 }

theorem plain_valid : spsMbaffPlain.Valid ∧ spsPaffPlain.Valid ∧ spsPaffSix.Valid := by
  refine ⟨?_, ?_, ?_⟩ <;>
    exact ⟨by decide, by decide, by decide, fun h hh => by (cases hh), by decide, (by decide : 2 ≤ 12), by decide, by decide, by decide, by decide, by decide, by decide, by decide⟩

example : spsMbaffPlain.Valid ∧ Supported spsMbaffPlain ∧ spsMbaffPlain.frame_mbs_only_flag = false ∧ spsMbaffPlain.mb_adaptive_frame_field_flag = true ∧
    spsMbaffPlain.crop = none ∧ spsMbaffPlain.vui_parameters_present_flag = false ∧
    bitsOf [77, 0, 40, 237, 0, 240, 8, 153] = spsMbaffPlain.bits ++ true :: List.replicate 0 false :=
  ⟨plain_valid.1, ⟨by unfold OddProfile; decide, trivial⟩, rfl, rfl, rfl, rfl, by decide⟩

/-- The first of these two sets is refused, the second accepted. -/
example : bitsOf [77, 0, 40, 237, 0, 240, 8, 137] = spsPaffPlain.bits ++ true :: List.replicate 0 false ∧ spsPaffPlain.Valid ∧
    bitsOf [77, 0, 40, 91, 64, 60, 2, 34, 64] = spsPaffSix.bits ++ true :: List.replicate 6 false ∧ spsPaffSix.Valid ∧ Supported spsPaffSix ∧
    spsPaffSix.frame_mbs_only_flag = false ∧ spsPaffSix.mb_adaptive_frame_field_flag = false ∧ spsPaffSix.crop = none ∧ spsPaffSix.vui_parameters_present_flag = false :=
  ⟨by decide, plain_valid.2.1, by decide, plain_valid.2.2, ⟨by unfold OddProfile; decide, trivial⟩, rfl, rfl, rfl, rfl⟩

end Ouro
