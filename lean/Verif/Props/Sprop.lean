import Verif.Props.Pps
import Verif.Lemmas.AnnexB
/-!
# C99: parameter sets as they are sent

A description carries parameter sets as NAL units (RFC 6184, 8.1: `sprop-parameter-sets`): the header byte and then the syntax elements
with emulation prevention bytes (H.264, 7.3.1). `unescape 0 e` is the data the bytes `e` of a NAL unit stand for.
-/
namespace Ouro
open Spec

/-- Bytes without `00 00 03` stand for themselves, whatever follows. -/
theorem unescape_clean (b : Bytes) : ∀ (a : Bytes) (z : Nat), ¬ [0, 0, 3] <:+: List.replicate z 0 ++ a →
    ∃ z', unescape z (a ++ b) = a ++ unescape z' b := by
  intro a
  induction a with
  | nil => exact fun z _ => ⟨z, rfl⟩
  | cons x a ih =>
    intro z h
    rw [List.cons_append, unescape]
    have hx : ¬ (2 ≤ z ∧ x = 3) := by
      rintro ⟨hz, rfl⟩
      refine h ⟨List.replicate (z - 2) 0, a, ?_⟩
      have e : List.replicate z (0 : UInt8) = List.replicate (z - 2) 0 ++ [0, 0] := by
        obtain ⟨y, rfl⟩ : ∃ y, z = y + 2 := ⟨z - 2, by omega⟩
        rw [Nat.add_sub_cancel, List.replicate_succ', List.replicate_succ', List.append_assoc]; rfl
      rw [e]; simp
    rw [if_neg hx]
    by_cases h0 : x = 0
    · rw [if_pos h0]
      subst h0
      have e : List.replicate z (0 : UInt8) ++ 0 :: a = List.replicate (z + 1) 0 ++ a := by
        rw [List.replicate_succ', List.append_assoc]; rfl
      rw [e] at h
      obtain ⟨z', hz⟩ := ih _ h
      exact ⟨z', by rw [hz]; rfl⟩
    · rw [if_neg h0]
      have h' : ¬ [0, 0, 3] <:+: List.replicate 0 0 ++ a := by
        rintro ⟨s, t, e⟩
        exact h ⟨List.replicate z 0 ++ x :: s, t, by rw [← show _ = a from e]; simp⟩
      obtain ⟨z', hz⟩ := ih _ h'
      exact ⟨z', by rw [hz]; rfl⟩

/-- If the first `k` bytes are clean and syntax elements that end within them were sent, then they are there. -/
theorem sent_bits {e : Bytes} {x tail : List Bool} {k : Nat} (hk : x.length ≤ 8 * k) (hc : ¬ [0, 0, 3] <:+: e.take k)
    (h : bitsOf (unescape 0 e) = x ++ tail) : ∃ tail', bitsOf e = x ++ tail' := by
  obtain ⟨z, hz⟩ := unescape_clean (e.drop k) (e.take k) 0 hc
  rw [List.take_append_drop] at hz
  rw [hz, bitsOf_append] at h
  have hb : bitsOf e = bitsOf (e.take k) ++ bitsOf (e.drop k) := by rw [← bitsOf_append, List.take_append_drop]
  by_cases hl : k ≤ e.length
  · have hlen : x.length ≤ (bitsOf (e.take k)).length := by rw [length_bitsOf, List.length_take, Nat.min_eq_left hl]; omega
    have hp : x <+: bitsOf (e.take k) := List.prefix_of_prefix_length_le ⟨tail, h.symm⟩ (List.prefix_append _ _) hlen
    obtain ⟨t, ht⟩ := hp
    exact ⟨t ++ bitsOf (e.drop k), by rw [hb, ← ht, List.append_assoc]⟩
  · have hd : e.drop k = [] := List.drop_eq_nil_of_le (by omega)
    rw [hd] at h hb
    exact ⟨tail, by rw [hb, ← h]; rfl⟩

/-- **C99**, part. A sequence parameter set in a description (one of those C29 is about) is stored with the syntax elements that were sent, provided
that no emulation prevention byte is among the bytes that hold them. There may be some after them, in the video usability information. -/
theorem C99_sps_partial (inf : Nat) (st : ParameterSets) (header : UInt8) (hh : header.toNat % 32 = 7) (e : Bytes) (s : Sps) (tail : List Bool)
    (hv : s.Valid) (hs : Supported s) (hf : s.frame_mbs_only_flag = true) (hbuf : bitsOf (unescape 0 e) = s.bits ++ tail)
    (k : Nat) (hk : s.bits.length ≤ 8 * k) (hc : ¬ [0, 0, 3] <:+: e.take k) :
    ∃ st' i, parseSprop inf st (header :: e) = .ok (none, st') ∧ st'.getSPS s.seq_parameter_set_id = some i ∧ SpsDecodedButFlag i s := by
  obtain ⟨tail', h'⟩ := sent_bits hk hc hbuf
  obtain ⟨st', i, h1, h2, h3, _⟩ := C29_sps_partial st e s tail' hv hs hf h'
  exact ⟨st', i, by rw [(C34_dispatch inf st header e).2.1 hh, h1], h2, h3⟩

/-- As most encoders send them: 320x240, order count type 0, with timing information that needs an emulation prevention byte. -/
def spsTimed : Sps :=
  { profile_idc := 66, constraint_flags := 0xC0, level_idc := 13, seq_parameter_set_id := 0, high := none,
    log2_max_frame_num_minus4 := 0, poc := .type0 0, max_num_ref_frames := 1,
    gaps_in_frame_num_value_allowed_flag := false, pic_width_in_mbs_minus1 := 19,
    pic_height_in_map_units_minus1 := 14, frame_mbs_only_flag := true, mb_adaptive_frame_field_flag := false,
    direct_8x8_inference_flag := true, crop := none, vui_parameters_present_flag := true }
def sentTimed : Bytes := [66, 192, 13, 244, 10, 15, 208, 128, 0, 0, 3, 0, 128, 0, 0, 25, 66]

example (inf : Nat) (st : ParameterSets) : ∃ st' i, parseSprop inf st (0x67 :: sentTimed) = .ok (none, st') ∧
    st'.getSPS 0 = some i ∧ SpsDecodedButFlag i spsTimed := by
  refine C99_sps_partial inf st 0x67 (by decide) sentTimed spsTimed ((bitsOf (unescape 0 sentTimed)).drop spsTimed.bits.length) ?_ ?_ rfl (by decide +kernel) 7
    (by decide +kernel) (by decide)
  · refine ⟨by decide, by decide, by decide, ?_, by decide, Nat.zero_le 12, by decide, by decide, by decide, by decide, by decide, by decide, by decide⟩
    intro h hh; cases hh
  · refine ⟨by unfold OddProfile; decide, ?_⟩
    show PocSmall (.type0 0)
    unfold PocSmall; trivial

/-- **C99**, part: the same for picture parameter sets, those C32 is about. -/
theorem C99_pps_partial (inf : Nat) (st : ParameterSets) (header : UInt8) (hh : header.toNat % 32 = 8) (e : Bytes) (p : Pps) (sps : SPSInfo) (tail : List Bool)
    (hsps : st.getSPS p.seq_parameter_set_id = some sps) (hv : p.Valid sps.chromaFormatIdc)
    (hg : 0 < p.num_slice_groups_minus1 → ¬ UnreadGroups p.groups) (hext : p.ext ≠ none) (hbuf : bitsOf (unescape 0 e) = p.bits ++ tail)
    (k : Nat) (hk : p.bits.length ≤ 8 * k) (hc : ¬ [0, 0, 3] <:+: e.take k) :
    ∃ st' i, parseSprop inf st (header :: e) = .ok (none, st') ∧ st'.getPPS p.pic_parameter_set_id = some i ∧ PpsDecoded i p := by
  obtain ⟨tail', h'⟩ := sent_bits hk hc hbuf
  obtain ⟨st', i, h1, h2, h3, _⟩ := C32_pps_partial inf st e p sps tail' hsps hv hg hext h'
  exact ⟨st', i, by rw [(C34_dispatch inf st header e).2.2.1 hh, h1], h2, h3⟩

/-- Order count type 1 with an offset of 2^23: 320x240, otherwise as simple as possible. -/
def spsPoc1 : Sps :=
  { profile_idc := 66, constraint_flags := 0xC0, level_idc := 13, seq_parameter_set_id := 0, high := none,
    log2_max_frame_num_minus4 := 0, poc := .type1 false 8388608 0 [2], max_num_ref_frames := 1,
    gaps_in_frame_num_value_allowed_flag := false, pic_width_in_mbs_minus1 := 19,
    pic_height_in_map_units_minus1 := 14, frame_mbs_only_flag := true, mb_adaptive_frame_field_flag := false,
    direct_8x8_inference_flag := true, crop := none, vui_parameters_present_flag := false }

theorem spsPoc1_valid : spsPoc1.Valid := by
  refine ⟨by decide, by decide, by decide, ?_, by decide, ?_, by decide, by decide, by decide, by decide, by decide,
    by decide, by decide⟩
  · intro h hh; cases hh
  · refine ⟨?_, by decide⟩
    show ∀ x ∈ ([8388608, 0, 2] : List Int), _
    decide

/-- Its bytes, and the same with emulation prevention bytes, as they are sent. -/
def bufPoc1 : Bytes := [66, 192, 13, 208, 0, 0, 2, 0, 0, 1, 68, 64, 160, 252, 128]
def sentPoc1 : Bytes := [66, 192, 13, 208, 0, 0, 3, 2, 0, 0, 3, 1, 68, 64, 160, 252, 128]

/-- **C99** fails: `ParseSprop` does not remove emulation prevention bytes. This set is one of those `ParseSPS` reads, it is sent as the rules say, and it is refused. -/
theorem C99_refuted (inf : Nat) : spsPoc1.Valid ∧ Supported spsPoc1 ∧ spsPoc1.frame_mbs_only_flag = true ∧ ¬ HasForbidden sentPoc1 ∧ unescape 0 sentPoc1 = bufPoc1 ∧
    (∃ tail, bitsOf bufPoc1 = spsPoc1.bits ++ tail) ∧
    (∃ st' i, parseSPS newParameterSets bufPoc1 = .ok (none, st') ∧ st'.getSPS 0 = some i ∧ SpsDecodedButFlag i spsPoc1) ∧
    ∃ err, parseSprop inf newParameterSets (0x67 :: sentPoc1) = .ok (some err, newParameterSets) := by
  have hS : Supported spsPoc1 := by
    refine ⟨by unfold OddProfile; decide, ?_⟩
    show PocSmall (.type1 false 8388608 0 [2])
    unfold PocSmall; decide
  have hb : bitsOf bufPoc1 = spsPoc1.bits ++ (bitsOf bufPoc1).drop spsPoc1.bits.length := by decide +kernel
  refine ⟨spsPoc1_valid, hS, rfl, ?_, by decide, ⟨_, hb⟩, ?_, ?_⟩
  · unfold HasForbidden sentPoc1; decide
  · obtain ⟨st', i, h1, h2, h3, _⟩ := C29_sps_partial newParameterSets bufPoc1 spsPoc1 _ spsPoc1_valid hS rfl hb
    exact ⟨st', i, h1, h2, h3⟩
  · rw [(C34_dispatch inf newParameterSets 0x67 sentPoc1).2.1 (by decide)]
    have h : (match parseSPS newParameterSets sentPoc1 with | .ok (some _, _) => true | _ => false) = true := by decide +kernel
    cases hp : parseSPS newParameterSets sentPoc1 with
    | error p => rw [hp] at h; cases h
    | ok r =>
      obtain ⟨o, st'⟩ := r
      cases o with
      | none => rw [hp] at h; cases h
      | some err => exact ⟨err, by rw [C28_failed_parse inf (.sps sentPoc1) newParameterSets st' err hp]⟩

end Ouro
