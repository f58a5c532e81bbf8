import Verif.Lemmas.Cost
import Verif.Props.Alloc
/-! # C119: steps of the parsers of parameter sets -/
namespace Ouro
open Spec

/-- C119: the counted parsers are the parsers: they return the same for all data. -/
theorem C119_same (inf : Nat) (s : ParameterSets) (buf : Bytes) :
    (cParseSPS s buf).1 = parseSPS s buf ∧ (cParsePPS inf s buf).1 = parsePPS inf s buf ∧ (cParseSprop inf s buf).1 = parseSprop inf s buf := by
  have h1 : ∀ buf, (cParseSPS s buf).1 = parseSPS s buf := by
    intro buf
    unfold cParseSPS parseSPS
    rw [← same_spsBits]
    rcases cParseSpsBits (newBitReader buf) with ⟨p | ⟨e | a, r'⟩, k⟩ <;> rfl
  have h2 : ∀ buf, (cParsePPS inf s buf).1 = parsePPS inf s buf := by
    intro buf
    unfold cParsePPS parsePPS
    rw [← same_ppsBits]
    rcases cParsePpsBits inf s.spset (newBitReader buf) with ⟨p | ⟨e | a, r'⟩, k⟩ <;> rfl
  refine ⟨h1 _, h2 _, ?_⟩
  unfold cParseSprop parseSprop
  cases buf with
  | nil => rfl
  | cons b rest =>
    dsimp only
    split
    · exact h1 _
    · split
      · exact h2 _
      · rfl

theorem Lin.bind_post {α β : Type} {P : α → Prop} {K F K1 F1 K2 F2 : Int} {c : CR α} {f : α → CR β} (h : Lin K1 F1 c)
    (hP : ∀ r a r' k, c r = (.ok (.ok a, r'), k) → P a) (hf : ∀ a, P a → Lin K2 F2 (f a))
    (hK : K1 + K2 ≤ K) (hF1 : F1 ≤ F) (hF2 : K1 + F2 ≤ F) : Lin K F (c >>= f) := by
  intro r hi
  have h1 := h r hi
  rw [CR.bind_apply]
  rcases hc : c r with ⟨p | ⟨e | a, r'⟩, k⟩ <;> rw [hc] at h1 <;> dsimp only at h1 ⊢
  · omega
  · omega
  · have h2 := hf a (hP _ _ _ _ hc) r' h1.1
    rcases hd : f a r' with ⟨p | ⟨e | b, r''⟩, k'⟩ <;> rw [hd] at h2 <;> dsimp only at h2 ⊢
    · omega
    · omega
    · exact ⟨h2.1, by omega⟩

theorem cReadUE_lt (r : BitReader) (v : Nat) (r' : BitReader) (k : Nat) (h : cReadUE r = (.ok (.ok v, r'), k)) : v < 2 ^ 32 := by
  refine readUE_lt r v r' ?_
  rw [← same_ue, h]

theorem lin_groups {inf n : Nat} (hinf : 0 < inf) (hn : n < 2 ^ 32) : Lin 0 3 (cParseSliceGroups inf n) := by
  refine .ite (fun hpos => ?_) fun _ => .pure _
  refine lin_ue.bind (K2 := 0) (F2 := 3) (fun _ => ?_) (by decide) (by decide) (by decide)
  refine .ite (fun _ => ?_) fun _ => .ite (fun _ => ?_) fun _ => .ite (fun _ => ?_) fun _ => .ite (fun _ => ?_) fun _ => .pure _
  · exact (lin_runLength _ _ _).bind (K2 := 0) (F2 := 0) (fun _ => .pure _) (by decide) (by decide) (by decide)
  · exact (lin_rect _ _ _ _).bind (K2 := 0) (F2 := 0) (fun ⟨_, _⟩ => .pure _) (by decide) (by decide) (by decide)
  · exact lin_flag.bind (K2 := 0) (F2 := 1) (fun _ => lin_ue.bind (K2 := 0) (F2 := 0) (fun _ => .pure _) (by decide) (by decide) (by decide)) (by decide) (by decide) (by decide)
  · refine lin_ue.bind (K2 := 0) (F2 := 3) (fun _ => .ite (fun _ => ?_) fun _ => ?_) (by decide) (by decide) (by decide)
    · exact (Lin.panic _).mono (Int.le_refl _) (by decide) (K := 0)
    · exact (lin_groupId (groupIdBits_pos hinf hpos hn) _ _).bind (K2 := 0) (F2 := 0) (fun _ => .pure _) (by decide) (by decide) (by decide)

theorem lin_ppsBits {inf : Nat} (hinf : 0 < inf) (spset : Nat → Option SPSInfo) : Lin 480 482 (cParsePpsBits inf spset) := by
  refine lin_ue.bind (K2 := 480) (F2 := 482) (fun _ => ?_) (by decide) (by decide) (by decide)
  refine lin_ue.bind (K2 := 480) (F2 := 482) (fun _ => ?_) (by decide) (by decide) (by decide)
  refine lin_flag.bind (K2 := 480) (F2 := 482) (fun _ => ?_) (by decide) (by decide) (by decide)
  refine lin_flag.bind (K2 := 480) (F2 := 482) (fun _ => ?_) (by decide) (by decide) (by decide)
  refine lin_ue.bind_post (K2 := 480) (F2 := 482) cReadUE_lt (fun _ hn => ?_) (by decide) (by decide) (by decide)
  refine (lin_groups hinf hn).bind (K2 := 480) (F2 := 482) (fun _ => ?_) (by decide) (by decide) (by decide)
  refine lin_ue.bind (K2 := 480) (F2 := 482) (fun _ => ?_) (by decide) (by decide) (by decide)
  refine lin_ue.bind (K2 := 480) (F2 := 482) (fun _ => ?_) (by decide) (by decide) (by decide)
  refine lin_flag.bind (K2 := 480) (F2 := 482) (fun _ => ?_) (by decide) (by decide) (by decide)
  refine (lin_byte (by decide)).bind (K2 := 480) (F2 := 482) (fun _ => ?_) (by decide) (by decide) (by decide)
  refine lin_se.bind (K2 := 480) (F2 := 482) (fun _ => ?_) (by decide) (by decide) (by decide)
  refine lin_se.bind (K2 := 480) (F2 := 482) (fun _ => ?_) (by decide) (by decide) (by decide)
  refine lin_se.bind (K2 := 480) (F2 := 482) (fun _ => ?_) (by decide) (by decide) (by decide)
  refine lin_flag.bind (K2 := 480) (F2 := 482) (fun _ => ?_) (by decide) (by decide) (by decide)
  refine lin_flag.bind (K2 := 480) (F2 := 482) (fun _ => ?_) (by decide) (by decide) (by decide)
  refine lin_flag.bind (K2 := 480) (F2 := 482) (fun _ => ?_) (by decide) (by decide) (by decide)
  exact (lin_ext _).bind (K2 := 0) (F2 := 0) (fun _ => .pure _) (by decide) (by decide) (by decide)

theorem Lin.total {α : Type} {c : CR α} (h : Lin 480 482 c) (buf : Bytes) : (c (newBitReader buf)).2 ≤ 24 * buf.length + 482 := by
  have h1 := h _ (newBitReader_inv buf)
  have h2 : (newBitReader buf).rest.length = 8 * buf.length := by rw [BitReader.length_rest]; rfl
  rcases hc : c (newBitReader buf) with ⟨p | ⟨e | a, r'⟩, k⟩ <;> rw [hc] at h1 <;> dsimp only at h1 ⊢ <;> omega

/-- C119: `ParseSPS` takes at most 24 steps for each byte of the data and 482 more, whether the data is accepted or not. -/
theorem C119_sps (s : ParameterSets) (buf : Bytes) : (cParseSPS s buf).2 ≤ 24 * buf.length + 482 := by
  have := lin_spsBits.total buf
  unfold cParseSPS
  rcases hc : cParseSpsBits (newBitReader buf) with ⟨p | ⟨e | a, r'⟩, k⟩ <;> rw [hc] at this <;> exact this

/-- C119: and so does `ParsePPS`, on machines where the conversion of minus infinity to a number, which Go leaves open, is not zero. -/
theorem C119_pps_partial (inf : Nat) (hinf : 0 < inf) (s : ParameterSets) (buf : Bytes) : (cParsePPS inf s buf).2 ≤ 24 * buf.length + 482 := by
  have := (lin_ppsBits hinf s.spset).total buf
  unfold cParsePPS
  rcases hc : cParsePpsBits inf s.spset (newBitReader buf) with ⟨p | ⟨e | a, r'⟩, k⟩ <;> rw [hc] at this <;> exact this

/-- A set that announces 65534 offsets and has 16: the parser gives up after 80 steps. -/
example : let buf : Bytes := [66, 0, 30, 0xD3, 0, 1, 0xFF, 0xFE, 0xFF, 0xFF]
    (cParseSPS newParameterSets buf).2 = 80 ∧ (match parseSPS newParameterSets buf with | .ok (some _, _) => true | _ => false) = true := by decide +kernel

/-- A set that is accepted: 56 steps for 16 bytes. -/
example : let buf : Bytes := [0x64, 0x00, 0x1f, 0xac, 0x34, 0xc8, 0x05, 0x00, 0x5b, 0xff, 0x01, 0x6e, 0x02, 0x02, 0x02, 0x80]
    (cParseSPS newParameterSets buf).2 = 56 ∧ (match parseSPS newParameterSets buf with | .ok (none, _) => true | _ => false) = true := by decide +kernel

/-- C119: the same for a set of a description, which begins with the header of the unit. -/
theorem C119_sprop_partial (inf : Nat) (hinf : 0 < inf) (s : ParameterSets) (buf : Bytes) : (cParseSprop inf s buf).2 ≤ 24 * buf.length + 482 := by
  unfold cParseSprop
  cases buf with
  | nil => exact Nat.zero_le _
  | cons b rest =>
    have h1 := C119_sps s rest
    have h2 := C119_pps_partial inf hinf s rest
    rw [List.length_cons]
    dsimp only
    split
    · omega
    · split
      · omega
      · exact Nat.zero_le _

theorem steps_first {α β : Type} (c : CR α) (f : α → CR β) (r : BitReader) : (c r).2 ≤ ((c >>= f) r).2 := by
  rw [CR.bind_apply]
  rcases c r with ⟨p | ⟨e | a, r'⟩, k⟩
  · exact Nat.le_refl _
  · exact Nat.le_refl _
  · exact Nat.le_add_right _ _

theorem steps_then {α β : Type} {c : CR α} {m : BR α} (hs : SameRead c m) {f : α → CR β} {r r' : BitReader} {a : α} (h : m r = .ok (.ok a, r')) : (f a r').2 ≤ ((c >>= f) r).2 := by
  rw [CR.bind_apply]
  have := hs r
  rcases hc : c r with ⟨x, k⟩
  rw [hc, h] at this
  dsimp only at this
  subst this
  exact Nat.le_add_left _ _

theorem steps_ids (todo : Nat) : ∀ (acc : Bytes) (r : BitReader), r.Inv → r.buffer ≠ [] → todo ≤ (cGroupIdLoop 0 todo acc r).2 := by
  induction todo with
  | zero => intro acc r _ _; exact Nat.zero_le _
  | succ todo ih =>
    intro acc r hi hb
    obtain ⟨r', g1, g2, g3, _⟩ := readBits_yields hi (n := 0) (by omega) (by omega) hb
    have hy : ∃ v, readByteBits 0 r = .ok (.ok v, r') := by
      unfold readByteBits
      exact ⟨_, bind_ok.2 ⟨_, _, g1, rfl⟩⟩
    obtain ⟨v, hv⟩ := hy
    have h1 := steps_then (same_byte 0) (f := fun v => cGroupIdLoop 0 todo (acc ++ [v])) hv
    have h2 := ih (acc ++ [v]) r' g2 (by rw [g3]; exact hb)
    show todo + 1 ≤ 1 + ((cReadByteBits 0 >>= fun v => cGroupIdLoop 0 todo (acc ++ [v])) r).2
    omega

/-- C119 fails where that conversion gives zero: for every number below 2^26, sixteen bytes that announce 2^32 slice groups make the parser take more steps than that. -/
theorem C119_refuted (st : ParameterSets) (size : Nat) (hs : size + 1 < 2 ^ 26) :
    ∃ buf : Bytes, buf.length = 16 ∧ size < (cParsePPS 0 st buf).2 := by
  have hz : (size + 1).log2 ≤ 25 := by
    have := Nat.log2_lt (n := size + 1) (k := 26) (by omega)
    omega
  have hbig : (ueBits (2 ^ 32 - 1)).length = 65 := by decide
  obtain ⟨buf, pad, hl, hb⟩ := bytes_of_bits 16 ((ueBits 0 ++ (ueBits 0 ++ ([false] ++ ([false] ++ ueBits (2 ^ 32 - 1))))) ++ (ueBits 6 ++ ueBits size))
    (by
      have : (ueBits 0).length = 1 := (by decide)
      have : (ueBits 6).length = 5 := (by decide)
      simp only [List.length_append, List.length_singleton, hbig, ueBits_length size]
      omega)
  refine ⟨buf, hl, ?_⟩
  have hne : buf ≠ [] := by intro h; rw [h] at hl; cases hl
  have q0 : (newBitReader buf).rest = ueBits 0 ++ (ueBits 0 ++ ([false] ++ ([false] ++ (ueBits (2 ^ 32 - 1) ++ (ueBits 6 ++ (ueBits size ++ pad)))))) := by
    rw [newBitReader_rest, hb]; simp only [List.append_assoc]
  obtain ⟨r1, h1, i1, b1, p1⟩ := parses_ue (v := 0) (by decide) (newBitReader buf) _ (newBitReader_inv _) hne q0
  have q1 := rest_eq_append b1 p1 q0 rfl
  have n1 : r1.buffer ≠ [] := by rw [b1]; exact hne
  obtain ⟨r2, h2, i2, b2, p2⟩ := parses_ue (v := 0) (by decide) r1 _ i1 n1 q1
  have q2 := rest_eq_append b2 p2 q1 rfl
  have n2 : r2.buffer ≠ [] := by rw [b2]; exact n1
  obtain ⟨r3, h3, i3, b3, p3⟩ := parses_flag false r2 _ i2 n2 q2
  have q3 := rest_eq_append b3 p3 q2 rfl
  have n3 : r3.buffer ≠ [] := by rw [b3]; exact n2
  obtain ⟨r4, h4, i4, b4, p4⟩ := parses_flag false r3 _ i3 n3 q3
  have q4 := rest_eq_append b4 p4 q3 rfl
  have n4 : r4.buffer ≠ [] := by rw [b4]; exact n3
  obtain ⟨r5, h5, i5, b5, p5⟩ := readUE_code i4 q4 (by decide)
  have q5 := rest_eq_append b5 p5 q4 rfl
  have n5 : r5.buffer ≠ [] := by rw [b5]; exact n4
  have h5' : readUnsignedGolomb r4 = .ok (.ok (2 ^ 32 - 1), r5) := by
    rw [h5]
    have hl2 : (2 ^ 32 - 1 + 1).log2 = 32 := by decide
    dsimp only
    rw [hl2]
    split
    · rfl
    · rw [show 2 ^ 32 - 1 + 1 - 2 ^ 32 = 0 from by decide, Nat.zero_mod]
  obtain ⟨r6, h6, i6, b6, p6⟩ := parses_ue (v := 6) (by decide) r5 _ i5 n5 q5
  have q6 := rest_eq_append b6 p6 q5 rfl
  have n6 : r6.buffer ≠ [] := by rw [b6]; exact n5
  obtain ⟨r7, h7, i7, b7, p7⟩ := readUE_parses i6 q6 hs
  have n7 : r7.buffer ≠ [] := by rw [b7]; exact n6
  have hids := steps_ids (size + 1) [] r7 i7 n7
  have hg : size < (cParseSliceGroups 0 (2 ^ 32 - 1) r5).2 := by
    unfold cParseSliceGroups
    rw [if_pos (by decide)]
    refine Nat.lt_of_lt_of_le ?_ (steps_then same_ue h6)
    rw [if_neg (by decide), if_neg (by decide), if_neg (by decide), if_pos rfl]
    refine Nat.lt_of_lt_of_le ?_ (steps_then same_ue h7)
    rw [if_neg (by unfold u32; omega)]
    refine Nat.lt_of_lt_of_le ?_ (steps_first _ _ _)
    rw [show groupIdBits 0 (2 ^ 32 - 1) = 0 from by decide]
    omega
  have hp : size < (cParsePpsBits 0 st.spset (newBitReader buf)).2 := by
    unfold cParsePpsBits
    refine Nat.lt_of_lt_of_le ?_ (steps_then same_ue h1)
    refine Nat.lt_of_lt_of_le ?_ (steps_then same_ue h2)
    refine Nat.lt_of_lt_of_le ?_ (steps_then same_flag h3)
    refine Nat.lt_of_lt_of_le ?_ (steps_then same_flag h4)
    refine Nat.lt_of_lt_of_le ?_ (steps_then same_ue h5')
    exact Nat.lt_of_lt_of_le hg (steps_first _ _ _)
  unfold cParsePPS
  rcases hc : cParsePpsBits 0 st.spset (newBitReader buf) with ⟨p | ⟨e | a, r'⟩, k⟩ <;> rw [hc] at hp <;> exact hp

end Ouro
