import Verif.Model.Cost
import Verif.Lemmas.Golomb
/-! # Lemmas about the counted parsers -/
namespace Ouro
open Spec

/-! ## They return the same -/

/-- A counted method returns what the method returns. -/
def SameRead {α : Type} (c : CR α) (m : BR α) : Prop := ∀ r, (c r).1 = m r

theorem CR.bind_apply {α β : Type} (m : CR α) (f : α → CR β) (r : BitReader) :
    (m >>= f) r = (match m r with
      | (.error p, k) => (.error p, k)
      | (.ok (.error e, r'), k) => (.ok (.error e, r'), k)
      | (.ok (.ok a, r'), k) => ((f a r').1, k + (f a r').2)) := rfl

theorem SameRead.bind {α β : Type} {c : CR α} {m : BR α} {f : α → CR β} {g : α → BR β} (h : SameRead c m) (hf : ∀ a, SameRead (f a) (g a)) : SameRead (c >>= f) (m >>= g) := by
  intro r
  rw [CR.bind_apply, BR.bind_apply, ← h r]
  rcases c r with ⟨p | ⟨e | a, r'⟩, k⟩
  · rfl
  · rfl
  · exact hf a r'

theorem SameRead.pure {α : Type} (a : α) : SameRead (Pure.pure a) (Pure.pure a) := fun _ => rfl

theorem SameRead.panic {α : Type} (p : Panic) : SameRead (CR.panic (α := α) p) (BR.panic p) := fun _ => rfl

theorem SameRead.round {α : Type} {c : CR α} {m : BR α} (h : SameRead c m) : SameRead (CR.round >>= fun _ => c) m := fun r => h r

theorem SameRead.ite {α : Type} {p : Prop} [Decidable p] {c d : CR α} {m n : BR α} (h : p → SameRead c m) (k : ¬ p → SameRead d n) : SameRead (if p then c else d) (if p then m else n) := by
  split
  · exact h ‹_›
  · exact k ‹_›

theorem same_bits (n : Nat) : SameRead (cReadBits n) (readBits n) := fun _ => rfl
theorem same_byte (n : Nat) : SameRead (cReadByteBits n) (readByteBits n) := (same_bits _).bind fun _ => .pure _
theorem same_flag : SameRead cReadFlag readFlag := (same_bits _).bind fun _ => .pure _

theorem same_zeros (fuel : Nat) : ∀ z, SameRead (cGolombZeros fuel z) (golombZeros fuel z) := by
  induction fuel with
  | zero => intro z; exact .panic _
  | succ fuel ih => intro z; exact (same_bits 1).bind fun _ => .ite (fun _ => ih _) fun _ => .pure _

theorem same_ue : SameRead cReadUE readUnsignedGolomb := fun r => ((same_zeros _ _).bind fun _ => (same_bits _).bind fun _ => .pure _) r

theorem same_se : SameRead cReadSE readSignedGolomb := same_ue.bind fun _ => .ite (fun _ => .pure _) fun _ => .pure _

theorem same_scaling (todo : Nat) : ∀ done first last next ud, SameRead (cScalingLoop todo done first last next ud) (scalingLoop todo done first last next ud) := by
  induction todo with
  | zero => intro done first last next ud; exact .pure _
  | succ todo ih =>
    intro done first last next ud
    exact .round (SameRead.bind (.ite (fun _ => same_se.bind fun _ => .pure _) fun _ => .pure _) fun ⟨_, _⟩ => .ite (fun _ => ih _ _ _ _ _) fun _ => ih _ _ _ _ _)

theorem same_matrix (todo : Nat) : ∀ i off size m, SameRead (cScalingMatrixLoop todo i off size m) (scalingMatrixLoop todo i off size m) := by
  induction todo with
  | zero => intro i off size m; exact .pure _
  | succ todo ih =>
    intro i off size m
    exact .round (same_flag.bind fun _ => SameRead.bind
      (.ite (fun _ => .ite (fun _ => (same_scaling _ _ _ _ _ _).bind fun ⟨_, _⟩ => .pure _) fun _ => .panic _) fun _ => .pure _) fun _ => ih _ _ _ _)

theorem same_high : SameRead cParseSpsHigh parseSpsHigh :=
  same_ue.bind fun _ => SameRead.bind (.ite (fun _ => same_flag) fun _ => .pure _) fun _ => same_ue.bind fun _ => same_ue.bind fun _ =>
    same_flag.bind fun _ => same_flag.bind fun _ => SameRead.bind (.ite (fun _ => same_matrix _ _ _ _ _) fun _ => .pure _) fun _ => .pure _

theorem same_skip (n : Nat) : SameRead (cSkipSigned n) (skipSigned n) := by
  induction n with
  | zero => exact .pure _
  | succ n ih => exact .round (same_se.bind fun _ => ih)

theorem same_poc : SameRead cParseSpsPoc parseSpsPoc :=
  same_ue.bind fun _ => .ite (fun _ => same_ue.bind fun _ => .pure _) fun _ => same_flag.bind fun _ => same_se.bind fun _ => same_se.bind fun _ =>
    same_ue.bind fun _ => (same_skip _).bind fun _ => .pure _

theorem same_crop (b : Bool) : SameRead (cParseSpsCrop b) (parseSpsCrop b) :=
  .ite (fun _ => same_ue.bind fun _ => same_ue.bind fun _ => same_ue.bind fun _ => same_ue.bind fun _ => .pure _) fun _ => .pure _

theorem same_spsBits : SameRead cParseSpsBits parseSpsBits :=
  (same_byte _).bind fun _ => (same_byte _).bind fun _ => (same_byte _).bind fun _ => same_ue.bind fun _ =>
    SameRead.bind (.ite (fun _ => same_high) fun _ => .pure _) fun _ => same_ue.bind fun _ => same_poc.bind fun _ => same_ue.bind fun _ =>
    same_flag.bind fun _ => same_ue.bind fun _ => same_ue.bind fun _ => same_ue.bind fun _ =>
    SameRead.bind (.ite (fun _ => same_flag) fun _ => .pure _) fun _ => same_flag.bind fun _ => same_flag.bind fun _ => (same_crop _).bind fun ⟨_, _, _, _⟩ =>
    same_flag.bind fun _ => .pure _

theorem same_runLength (todo : Nat) : ∀ i a, SameRead (cRunLengthLoop todo i a) (runLengthLoop todo i a) := by
  induction todo with
  | zero => intro i a; exact .pure _
  | succ todo ih => intro i a; exact .round (.ite (fun _ => same_ue.bind fun _ => ih _ _) fun _ => .panic _)

theorem same_rect (todo : Nat) : ∀ i a b, SameRead (cRectLoop todo i a b) (rectLoop todo i a b) := by
  induction todo with
  | zero => intro i a b; exact .pure _
  | succ todo ih => intro i a b; exact .round (.ite (fun _ => same_ue.bind fun _ => same_ue.bind fun _ => ih _ _ _) fun _ => .panic _)

theorem same_groupId (bits todo : Nat) : ∀ acc, SameRead (cGroupIdLoop bits todo acc) (groupIdLoop bits todo acc) := by
  induction todo with
  | zero => intro acc; exact .pure _
  | succ todo ih => intro acc; exact .round ((same_byte _).bind fun _ => ih _)

theorem same_groups (inf n : Nat) : SameRead (cParseSliceGroups inf n) (parseSliceGroups inf n) :=
  .ite (fun _ => same_ue.bind fun _ => .ite (fun _ => (same_runLength _ _ _).bind fun _ => .pure _) fun _ =>
    .ite (fun _ => (same_rect _ _ _ _).bind fun ⟨_, _⟩ => .pure _) fun _ => .ite (fun _ => same_flag.bind fun _ => same_ue.bind fun _ => .pure _) fun _ =>
    .ite (fun _ => same_ue.bind fun _ => .ite (fun _ => .panic _) fun _ => (same_groupId _ _ _).bind fun _ => .pure _) fun _ => .pure _) fun _ => .pure _

theorem same_ext (chroma : Nat) : SameRead (cParsePpsExt chroma) (parsePpsExt chroma) := by
  intro r
  unfold cParsePpsExt parsePpsExt
  split
  · exact (same_flag.bind fun _ => same_flag.bind fun _ => SameRead.bind (.ite (fun _ => same_matrix _ _ _ _ _) fun _ => .pure _) fun _ => same_se.bind fun _ => .pure _) r
  · rfl

theorem same_ppsBits (inf : Nat) (spset : Nat → Option SPSInfo) : SameRead (cParsePpsBits inf spset) (parsePpsBits inf spset) :=
  same_ue.bind fun _ => same_ue.bind fun _ => same_flag.bind fun _ => same_flag.bind fun _ => same_ue.bind fun _ => (same_groups _ _).bind fun _ =>
    same_ue.bind fun _ => same_ue.bind fun _ => same_flag.bind fun _ => (same_byte _).bind fun _ => same_se.bind fun _ => same_se.bind fun _ => same_se.bind fun _ =>
    same_flag.bind fun _ => same_flag.bind fun _ => same_flag.bind fun _ => (same_ext _).bind fun _ => .pure _

/-! ## How many steps they take -/

/-- A method takes at most three steps for each bit it consumes, and `K` more; if it fails or panics, three for each bit there was and `F` more. -/
def Lin {α : Type} (K F : Int) (c : CR α) : Prop := ∀ r : BitReader, r.Inv →
  match c r with
  | (.error _, k) => (k : Int) ≤ 3 * r.rest.length + F
  | (.ok (.error _, _), k) => (k : Int) ≤ 3 * r.rest.length + F
  | (.ok (.ok _, r'), k) => r'.Inv ∧ (k : Int) + 3 * r'.rest.length ≤ 3 * r.rest.length + K

theorem Lin.mono {α : Type} {K F K' F' : Int} {c : CR α} (h : Lin K F c) (hK : K ≤ K') (hF : F ≤ F') : Lin K' F' c := by
  intro r hi
  have := h r hi
  rcases hc : c r with ⟨p | ⟨e | a, r'⟩, k⟩ <;> rw [hc] at this <;> dsimp only at this ⊢
  · omega
  · omega
  · exact ⟨this.1, by omega⟩

theorem Lin.bind {α β : Type} {K F K1 F1 K2 F2 : Int} {c : CR α} {f : α → CR β} (h : Lin K1 F1 c) (hf : ∀ a, Lin K2 F2 (f a))
    (hK : K1 + K2 ≤ K) (hF1 : F1 ≤ F) (hF2 : K1 + F2 ≤ F) : Lin K F (c >>= f) := by
  intro r hi
  have h1 := h r hi
  rw [CR.bind_apply]
  rcases hc : c r with ⟨p | ⟨e | a, r'⟩, k⟩ <;> rw [hc] at h1 <;> dsimp only at h1 ⊢
  · omega
  · omega
  · have h2 := hf a r' h1.1
    rcases hd : f a r' with ⟨p | ⟨e | b, r''⟩, k'⟩ <;> rw [hd] at h2 <;> dsimp only at h2 ⊢
    · omega
    · omega
    · exact ⟨h2.1, by omega⟩

theorem Lin.pure {α : Type} (a : α) {F : Int} : Lin 0 F (Pure.pure a : CR α) := by
  intro r hi
  exact ⟨hi, by omega⟩

theorem Lin.panic {α : Type} (p : Panic) {K : Int} : Lin K 0 (CR.panic (α := α) p) := by
  intro r hi
  show ((0 : Nat) : Int) ≤ _
  omega

theorem Lin.ite {α : Type} {p : Prop} [Decidable p] {K F : Int} {c d : CR α} (h : p → Lin K F c) (k : ¬ p → Lin K F d) : Lin K F (if p then c else d) := by
  split
  · exact h ‹_›
  · exact k ‹_›

theorem Lin.round {α : Type} {K F K' F' : Int} {c : CR α} (h : Lin K F c) (hK : 1 + K ≤ K') (hF : 1 + F ≤ F') : Lin K' F' (CR.round >>= fun _ => c) := by
  have h0 : Lin 1 F' CR.round := fun r hi => ⟨hi, by simp; omega⟩
  exact h0.bind (fun _ => h) hK (Int.le_refl _) hF

theorem lin_bits {n : Nat} (hn : 0 < n) : Lin (-2) 1 (cReadBits n) := by
  intro r hi
  unfold cReadBits
  by_cases hc : 32 < n ∨ r.rest.length < n
  · rw [readBits_err hi hc]
    dsimp only
    omega
  · have hb : r.buffer ≠ [] := by
      intro hb
      have : r.rest.length = 0 := by rw [BitReader.length_rest, hb]; simp
      omega
    obtain ⟨r', g1, g2, g3, g4⟩ := readBits_yields hi (n := n) (by omega) (by omega) hb
    rw [g1]
    refine ⟨g2, ?_⟩
    rw [BitReader.rest_of g3 g4, List.length_drop]
    omega

theorem lin_byte {n : Nat} (hn : 0 < n) : Lin (-2) 1 (cReadByteBits n) :=
  (lin_bits (n := if n > 8 then 8 else n) (by split <;> omega)).bind (fun _ => .pure _ (F := 0)) (by decide) (by decide) (by decide)

theorem lin_flag : Lin (-2) 1 cReadFlag := (lin_bits (by decide)).bind (fun _ => .pure _ (F := 0)) (by decide) (by decide) (by decide)

theorem lin_bits_any (n : Nat) : Lin 1 1 (cReadBits n) := by
  by_cases hn : 0 < n
  · exact (lin_bits hn).mono (by decide) (by decide)
  · obtain rfl : n = 0 := by omega
    intro r hi
    unfold cReadBits
    by_cases hb : r.buffer = []
    · have : ∃ p, readBits 0 r = .error p := by
        unfold readBits
        rw [if_neg (by omega), hb]
        exact ⟨_, rfl⟩
      obtain ⟨p, hp⟩ := this
      rw [hp]
      show ((1 : Nat) : Int) ≤ _
      omega
    · obtain ⟨r', g1, g2, g3, g4⟩ := readBits_yields hi (n := 0) (by omega) (by omega) hb
      rw [g1]
      refine ⟨g2, ?_⟩
      rw [BitReader.rest_of g3 g4, List.length_drop]
      omega

theorem lin_zeros (fuel : Nat) : ∀ z, Lin (-2) 1 (cGolombZeros fuel z) := by
  induction fuel with
  | zero => intro z; exact (Lin.panic _).mono (by decide) (by decide) (K := -2)
  | succ fuel ih =>
    intro z
    exact (lin_bits (by decide)).bind (K2 := 0) (F2 := 1) (fun _ => .ite (fun _ => (ih _).mono (by decide) (by decide)) fun _ => .pure _) (by decide) (by decide) (by decide)

theorem lin_ue : Lin (-1) 1 cReadUE := fun r hi =>
  ((lin_zeros _ _).bind (fun _ => (lin_bits_any _).bind (K := 1) (F := 1) (fun _ => .pure _ (F := 0)) (by decide) (by decide) (by decide)) (by decide) (by decide) (by decide) : Lin (-1) 1 _) r hi

theorem lin_se : Lin (-1) 1 cReadSE := lin_ue.bind (fun _ => .ite (fun _ => .pure _ (F := 0)) fun _ => .pure _) (by decide) (by decide) (by decide)

theorem lin_scaling (todo : Nat) : ∀ done first last next ud, Lin todo (todo + 2) (cScalingLoop todo done first last next ud) := by
  induction todo with
  | zero => intro done first last next ud; exact .pure _
  | succ todo ih =>
    intro done first last next ud
    refine Lin.round (K := todo) (F := todo + 2) (Lin.bind (K1 := 0) (F1 := 1) (K2 := todo) (F2 := todo + 2)
      (.ite (fun _ => lin_se.bind (fun _ => .pure _ (F := 0)) (by decide) (by decide) (by decide)) fun _ => .pure _)
      (fun ⟨_, _⟩ => .ite (fun _ => ih _ _ _ _ _) fun _ => ih _ _ _ _ _) (by omega) (by omega) (by omega)) (by omega) (by omega)

theorem lin_matrix (todo : Nat) : ∀ i off size m, Lin ((480 - off : Nat) : Int) ((480 - off : Nat) + 2) (cScalingMatrixLoop todo i off size m) := by
  induction todo with
  | zero => intro i off size m; exact (Lin.pure _).mono (by omega) (Int.le_refl _)
  | succ todo ih =>
    intro i off size m
    refine Lin.round (K := ((480 - off : Nat) : Int) - 1) (F := (480 - off : Nat) + 1) (lin_flag.bind (K2 := ((480 - off : Nat) : Int) + 1) (F2 := ((480 - off : Nat) + 3)) (fun _ => ?_)
      (by omega) (by omega) (by omega)) (by omega) (by omega)
    refine Lin.bind (K1 := ((480 - off : Nat) : Int) - (480 - (off + size) : Nat)) (F1 := ((480 - off : Nat) + 2)) (.ite (fun _ => .ite (fun h => ?_) fun _ => ?_) fun _ => ?_)
      (fun _ => ih _ _ _ _) (by omega) (by omega) (by omega)
    · exact (lin_scaling _ _ _ _ _ _).bind (K2 := 0) (F2 := 0) (fun ⟨_, _⟩ => .pure _) (by omega) (by omega) (by omega)
    · exact (Lin.panic _).mono (Int.le_refl _) (by omega)
    · exact (Lin.pure _ (F := 0)).mono (by omega) (by omega)

theorem lin_high : Lin 480 482 cParseSpsHigh := by
  refine lin_ue.bind (K2 := 481) (F2 := 483) (fun _ => ?_) (by decide) (by decide) (by decide)
  refine Lin.bind (K1 := 0) (F1 := 1) (K2 := 481) (F2 := 483) (.ite (fun _ => lin_flag.mono (by decide) (by decide)) fun _ => .pure _) (fun _ => ?_) (by decide) (by decide) (by decide)
  refine lin_ue.bind (K2 := 482) (F2 := 484) (fun _ => ?_) (by decide) (by decide) (by decide)
  refine lin_ue.bind (K2 := 483) (F2 := 485) (fun _ => ?_) (by decide) (by decide) (by decide)
  refine lin_flag.bind (K2 := 485) (F2 := 487) (fun _ => ?_) (by decide) (by decide) (by decide)
  refine lin_flag.bind (K2 := 487) (F2 := 489) (fun _ => ?_) (by decide) (by decide) (by decide)
  exact Lin.bind (K1 := 480) (F1 := 482) (K2 := 0) (F2 := 0) (.ite (fun _ => lin_matrix _ _ _ _ _) fun _ => (Lin.pure _ (F := 0)).mono (by decide) (by decide)) (fun _ => .pure _)
    (by decide) (by decide) (by decide)

theorem lin_skip (n : Nat) : Lin 0 2 (cSkipSigned n) := by
  induction n with
  | zero => exact .pure _
  | succ n ih => exact Lin.round (K := -1) (F := 1) (lin_se.bind (fun _ => ih) (by decide) (by decide) (by decide)) (by decide) (by decide)

theorem lin_poc : Lin 0 2 cParseSpsPoc := by
  refine lin_ue.bind (K2 := 1) (F2 := 3) (fun _ => .ite (fun _ => ?_) fun _ => ?_) (by decide) (by decide) (by decide)
  · exact lin_ue.bind (fun _ => .pure _ (F := 0)) (by decide) (by decide) (by decide)
  · exact lin_flag.bind (K2 := 0) (F2 := 3) (fun _ => lin_se.bind (K2 := 0) (F2 := 3) (fun _ => lin_se.bind (K2 := 0) (F2 := 3) (fun _ => lin_ue.bind (K2 := 0) (F2 := 3)
      (fun _ => (lin_skip _).bind (fun _ => .pure _ (F := 0)) (by decide) (by decide) (by decide)) (by decide) (by decide) (by decide)) (by decide) (by decide) (by decide))
      (by decide) (by decide) (by decide)) (by decide) (by decide) (by decide)

theorem lin_crop (b : Bool) : Lin 0 1 (cParseSpsCrop b) := by
  refine .ite (fun _ => ?_) fun _ => .pure _
  refine lin_ue.bind (K2 := 0) (F2 := 1) (fun _ => ?_) (by decide) (by decide) (by decide)
  refine lin_ue.bind (K2 := 0) (F2 := 1) (fun _ => ?_) (by decide) (by decide) (by decide)
  refine lin_ue.bind (K2 := 0) (F2 := 1) (fun _ => ?_) (by decide) (by decide) (by decide)
  exact lin_ue.bind (K2 := 0) (F2 := 1) (fun _ => .pure _) (by decide) (by decide) (by decide)

theorem lin_opt {p : Prop} [Decidable p] {b : Bool} : Lin 0 1 (if p then cReadFlag else pure b) :=
  .ite (fun _ => lin_flag.mono (by decide) (by decide)) fun _ => .pure _

theorem lin_spsBits : Lin 480 482 cParseSpsBits := by
  refine (lin_byte (by decide)).bind (K2 := 482) (F2 := 484) (fun _ => ?_) (by decide) (by decide) (by decide)
  refine (lin_byte (by decide)).bind (K2 := 482) (F2 := 484) (fun _ => ?_) (by decide) (by decide) (by decide)
  refine (lin_byte (by decide)).bind (K2 := 482) (F2 := 484) (fun _ => ?_) (by decide) (by decide) (by decide)
  refine lin_ue.bind (K2 := 482) (F2 := 484) (fun _ => ?_) (by decide) (by decide) (by decide)
  refine Lin.bind (K1 := 480) (F1 := 482) (K2 := 0) (F2 := 3) (.ite (fun _ => lin_high) fun _ => (Lin.pure _ (F := 0)).mono (by decide) (by decide)) (fun _ => ?_) (by decide) (by decide) (by decide)
  refine lin_ue.bind (K2 := 0) (F2 := 3) (fun _ => ?_) (by decide) (by decide) (by decide)
  refine lin_poc.bind (K2 := 0) (F2 := 3) (fun _ => ?_) (by decide) (by decide) (by decide)
  refine lin_ue.bind (K2 := 0) (F2 := 3) (fun _ => ?_) (by decide) (by decide) (by decide)
  refine lin_flag.bind (K2 := 0) (F2 := 3) (fun _ => ?_) (by decide) (by decide) (by decide)
  refine lin_ue.bind (K2 := 0) (F2 := 3) (fun _ => ?_) (by decide) (by decide) (by decide)
  refine lin_ue.bind (K2 := 0) (F2 := 3) (fun _ => ?_) (by decide) (by decide) (by decide)
  refine lin_ue.bind (K2 := 0) (F2 := 3) (fun _ => ?_) (by decide) (by decide) (by decide)
  refine lin_opt.bind (K2 := 0) (F2 := 3) (fun _ => ?_) (by decide) (by decide) (by decide)
  refine lin_flag.bind (K2 := 0) (F2 := 3) (fun _ => ?_) (by decide) (by decide) (by decide)
  refine lin_flag.bind (K2 := 0) (F2 := 3) (fun _ => ?_) (by decide) (by decide) (by decide)
  refine (lin_crop _).bind (K2 := 0) (F2 := 3) (fun ⟨_, _, _, _⟩ => ?_) (by decide) (by decide) (by decide)
  exact lin_flag.bind (K2 := 0) (F2 := 3) (fun _ => .pure _) (by decide) (by decide) (by decide)

theorem lin_runLength (todo : Nat) : ∀ i a, Lin 0 2 (cRunLengthLoop todo i a) := by
  induction todo with
  | zero => intro i a; exact .pure _
  | succ todo ih =>
    intro i a
    exact Lin.round (K := -1) (F := 1) (.ite (fun _ => lin_ue.bind (fun _ => ih _ _) (by decide) (by decide) (by decide)) fun _ => (Lin.panic _).mono (by decide) (by decide) (K := -1)) (by decide) (by decide)

theorem lin_rect (todo : Nat) : ∀ i a b, Lin 0 2 (cRectLoop todo i a b) := by
  induction todo with
  | zero => intro i a b; exact .pure _
  | succ todo ih =>
    intro i a b
    exact Lin.round (K := -1) (F := 1) (.ite (fun _ => lin_ue.bind (K2 := 0) (F2 := 2) (fun _ => lin_ue.bind (fun _ => ih _ _ _) (by decide) (by decide) (by decide)) (by decide) (by decide) (by decide))
      fun _ => (Lin.panic _).mono (by decide) (by decide) (K := -1)) (by decide) (by decide)

theorem lin_groupId {bits : Nat} (hb : 0 < bits) (todo : Nat) : ∀ acc, Lin 0 2 (cGroupIdLoop bits todo acc) := by
  induction todo with
  | zero => intro acc; exact .pure _
  | succ todo ih => intro acc; exact Lin.round (K := -1) (F := 1) ((lin_byte hb).bind (fun _ => ih _) (by decide) (by decide) (by decide)) (by decide) (by decide)

theorem lin_ext (chroma : Nat) : Lin 480 482 (cParsePpsExt chroma) := by
  have h1 : Lin 480 482 (do
      let t ← cReadFlag
      let present ← cReadFlag
      let m ← (if present then
          cScalingMatrixLoop (if t then (if chroma = 3 then 12 else 8) else 6) 0 0 16 ScalingMatrix.zero
        else pure ScalingMatrix.zero : CR ScalingMatrix)
      let second ← cReadSE
      pure ⟨t, present, m, second⟩ : CR PpsExtInfo) := by
    refine lin_flag.bind (K2 := 480) (F2 := 482) (fun _ => ?_) (by decide) (by decide) (by decide)
    refine lin_flag.bind (K2 := 480) (F2 := 482) (fun _ => ?_) (by decide) (by decide) (by decide)
    refine Lin.bind (K1 := 480) (F1 := 482) (K2 := 0) (F2 := 1) (.ite (fun _ => lin_matrix _ _ _ _ _) fun _ => (Lin.pure _ (F := 0)).mono (by decide) (by decide)) (fun _ => ?_)
      (by decide) (by decide) (by decide)
    exact lin_se.bind (fun _ => .pure _ (F := 0)) (by decide) (by decide) (by decide)
  intro r hi
  by_cases ha : r.available > 0
  · have := h1 r hi
    unfold cParsePpsExt
    rw [if_pos ha]
    exact this
  · unfold cParsePpsExt
    rw [if_neg ha]
    exact ⟨hi, by omega⟩

end Ouro
