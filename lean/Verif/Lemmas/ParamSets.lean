import Verif.Lemmas.Golomb
import Verif.Model.ParamSets
import Verif.Spec.ParamSets
/-! # Lemmas about parameter set parsing -/
namespace Ouro
open Spec

/-- `m` reads the bit string `bs` as `a`, at any position of any buffer and whatever follows. -/
def Parses {α : Type} (m : BR α) (bs : List Bool) (a : α) : Prop :=
  ∀ (r : BitReader) (rest : List Bool), r.Inv → r.buffer ≠ [] → r.rest = bs ++ rest → Yields m r a bs.length

theorem Parses.bind {α β : Type} {m : BR α} {f : α → BR β} {b1 b2 : List Bool} {a : α} {c : β}
    (h1 : Parses m b1 a) (h2 : Parses (f a) b2 c) : Parses (m >>= f) (b1 ++ b2) c := by
  intro r rest hi hne hr
  rw [List.append_assoc] at hr
  rw [List.length_append]
  refine (h1 r _ hi hne hr).bind ?_
  intro r' hi' hb hp
  exact h2 r' rest hi' (by rw [hb]; exact hne) (rest_eq_append hb hp hr rfl)

theorem Parses.bind_ex {α β : Type} {m : BR α} {f : α → BR β} {b1 b2 : List Bool} {a : α} {P : β → Prop}
    (h1 : Parses m b1 a) (h2 : ∃ c, P c ∧ Parses (f a) b2 c) : ∃ c, P c ∧ Parses (m >>= f) (b1 ++ b2) c := by
  obtain ⟨c, hc, h2⟩ := h2
  exact ⟨c, hc, h1.bind h2⟩

theorem Parses.pure {α : Type} (a : α) : Parses (Pure.pure a : BR α) [] a := by
  intro r rest hi _ _
  exact Yields.pure a hi

theorem Parses.bind0 {α β : Type} {m : BR α} {f : α → BR β} {b2 : List Bool} {a : α} {c : β}
    (h1 : Parses m [] a) (h2 : Parses (f a) b2 c) : Parses (m >>= f) b2 c := h1.bind h2

theorem Parses.last {α β : Type} {m : BR α} {f : α → BR β} {b : List Bool} {a : α} {c : β}
    (h1 : Parses m b a) (h2 : Parses (f a) [] c) : Parses (m >>= f) b c := by
  have := h1.bind h2; rwa [List.append_nil] at this

/-- Reading the bit string `bs` with `m` leaves the computation `k` to be run on what follows. -/
def Steps {β : Type} (m : BR β) (bs : List Bool) (k : BR β) : Prop :=
  ∀ (r : BitReader) (rest : List Bool), r.Inv → r.buffer ≠ [] → r.rest = bs ++ rest →
    ∃ r', m r = k r' ∧ r'.Inv ∧ r'.buffer = r.buffer ∧ r'.pos = r.pos + bs.length

theorem Steps.refl {β : Type} (k : BR β) : Steps k [] k := fun r _ hi _ _ => ⟨r, rfl, hi, rfl, rfl⟩

theorem Steps.bind {α β : Type} {m : BR α} {f : α → BR β} {b1 b2 : List Bool} {a : α} {k : BR β}
    (h1 : Parses m b1 a) (h2 : Steps (f a) b2 k) : Steps (m >>= f) (b1 ++ b2) k := by
  intro r rest hi hne hr
  rw [List.append_assoc] at hr
  obtain ⟨r', g1, g2, g3, g4⟩ := h1 r _ hi hne hr
  obtain ⟨r'', k1, k2, k3, k4⟩ := h2 r' rest g2 (by rw [g3]; exact hne) (rest_eq_append g3 g4 hr rfl)
  refine ⟨r'', ?_, k2, by rw [k3, g3], by rw [k4, g4, List.length_append]; omega⟩
  rw [BR.bind_apply, g1]; exact k1

theorem Steps.bind0 {α β : Type} {m : BR α} {f : α → BR β} {b2 : List Bool} {a : α} {k : BR β}
    (h1 : Parses m [] a) (h2 : Steps (f a) b2 k) : Steps (m >>= f) b2 k := Steps.bind h1 h2

theorem Steps.last {α β : Type} {m : BR α} {f : α → BR β} {b : List Bool} {a : α} {k : BR β}
    (h1 : Parses m b a) (h2 : Steps (f a) [] k) : Steps (m >>= f) b k := by
  have := Steps.bind h1 h2; rwa [List.append_nil] at this

theorem Steps.parses {β : Type} {m k : BR β} {b1 b2 : List Bool} {a : β} (h1 : Steps m b1 k) (h2 : Parses k b2 a) :
    Parses m (b1 ++ b2) a := by
  intro r rest hi hne hr
  rw [List.append_assoc] at hr
  obtain ⟨r', g1, g2, g3, g4⟩ := h1 r _ hi hne hr
  obtain ⟨r'', k1, k2, k3, k4⟩ := h2 r' rest g2 (by rw [g3]; exact hne) (rest_eq_append g3 g4 hr rfl)
  exact ⟨r'', by rw [g1]; exact k1, k2, by rw [k3, g3], by rw [k4, g4, List.length_append]; omega⟩

theorem Steps.trans {β : Type} {m k l : BR β} {b1 b2 : List Bool} (h1 : Steps m b1 k) (h2 : Steps k b2 l) :
    Steps m (b1 ++ b2) l := by
  intro r rest hi hne hr
  rw [List.append_assoc] at hr
  obtain ⟨r', g1, g2, g3, g4⟩ := h1 r _ hi hne hr
  obtain ⟨r'', k1, k2, k3, k4⟩ := h2 r' rest g2 (by rw [g3]; exact hne) (rest_eq_append g3 g4 hr rfl)
  exact ⟨r'', by rw [g1]; exact k1, k2, by rw [k3, g3], by rw [k4, g4, List.length_append]; omega⟩

/-- Whatever value `m` returns satisfies `P`. -/
def Post {α : Type} (m : BR α) (P : α → Prop) : Prop := ∀ r a r', m r = .ok (.ok a, r') → P a

theorem Post.bind {α β : Type} {m : BR α} {f : α → BR β} {P : β → Prop} (h : ∀ a, Post (f a) P) : Post (m >>= f) P := by
  intro r b r' hb
  rw [BR.bind_apply] at hb
  split at hb
  · exact absurd hb (by simp)
  · exact absurd hb (by simp)
  · exact h _ _ _ _ hb

theorem Post.pure {α : Type} {a : α} {P : α → Prop} (h : P a) : Post (Pure.pure a : BR α) P := by
  intro r b r' hb
  rw [BR.pure_apply] at hb
  injection hb with hb
  injection hb with hb _
  injection hb with hb
  rw [← hb]; exact h

/-- `m` fails with `e` on a buffer that ends after the bit string `bs`. -/
def FailsOn {α : Type} (m : BR α) (bs : List Bool) (e : H264Err) : Prop :=
  ∀ r : BitReader, r.Inv → r.buffer ≠ [] → r.rest = bs → ∃ n, Fails m r e n

theorem FailsOn.bind {α β : Type} {m : BR α} {f : α → BR β} {b1 b2 : List Bool} {a : α} {e : H264Err}
    (h1 : Parses m b1 a) (h2 : FailsOn (f a) b2 e) : FailsOn (m >>= f) (b1 ++ b2) e := by
  intro r hi hne hr
  obtain ⟨r', g1, g2, g3, g4⟩ := h1 r b2 hi hne hr
  obtain ⟨n, r'', k1, k2, k3, k4⟩ := h2 r' g2 (by rw [g3]; exact hne) (rest_eq_append g3 g4 hr rfl)
  exact ⟨b1.length + n, r'', by rw [BR.bind_apply, g1]; exact k1, k2, by rw [k3, g3], by rw [k4, g4]; omega⟩

theorem FailsOn.bind0 {α β : Type} {m : BR α} {f : α → BR β} {b2 : List Bool} {a : α} {e : H264Err}
    (h1 : Parses m [] a) (h2 : FailsOn (f a) b2 e) : FailsOn (m >>= f) b2 e := FailsOn.bind h1 h2

theorem FailsOn.here {α β : Type} {m : BR α} {f : α → BR β} {b : List Bool} {e : H264Err}
    (h : FailsOn m b e) : FailsOn (m >>= f) b e := by
  intro r hi hne hr
  obtain ⟨n, h⟩ := h r hi hne hr
  exact ⟨n, h.bind⟩

theorem Steps.failsOn {β : Type} {m k : BR β} {b1 b2 : List Bool} {e : H264Err} (h1 : Steps m b1 k)
    (h2 : FailsOn k b2 e) : FailsOn m (b1 ++ b2) e := by
  intro r hi hne hr
  obtain ⟨r', g1, g2, g3, g4⟩ := h1 r b2 hi hne hr
  obtain ⟨n, r'', k1, k2, k3, k4⟩ := h2 r' g2 (by rw [g3]; exact hne) (rest_eq_append g3 g4 hr rfl)
  exact ⟨b1.length + n, r'', by rw [g1]; exact k1, k2, by rw [k3, g3], by rw [k4, g4]; omega⟩

theorem failsOn_ue_zeros (z : Nat) : FailsOn readUnsignedGolomb (List.replicate z false) .unexpectedEOF :=
  fun _ hi _ hr => ⟨_, readUE_fails_zeros hi hr⟩

theorem failsOn_ue_short (z : Nat) (t : List Bool) (h : t.length < z) :
    FailsOn readUnsignedGolomb (List.replicate z false ++ true :: t) .unexpectedEOF :=
  fun _ hi _ hr => ⟨_, readUE_fails_short hi hr (.inl h)⟩

theorem failsOn_se_zeros (z : Nat) : FailsOn readSignedGolomb (List.replicate z false) .unexpectedEOF := by
  unfold readSignedGolomb
  exact (failsOn_ue_zeros z).here

theorem failsOn_flag_nil : FailsOn readFlag [] .unexpectedEOF := by
  intro r hi _ hr
  refine ⟨0, ?_⟩
  unfold readFlag
  exact (readBits_fails hi (.inr (by rw [hr]; simp))).bind

theorem parses_flag (b : Bool) : Parses readFlag [b] b := by
  intro r rest hi _ hr
  exact readFlag_parses hi hr

theorem parses_ue {v : Nat} (h : v + 1 < 2 ^ 26) : Parses readUnsignedGolomb (ueBits v) v := by
  intro r rest hi _ hr
  exact readUE_parses hi hr h

theorem parses_se {v : Int} (h1 : -(2 ^ 24) ≤ v) (h2 : v ≤ 2 ^ 24) : Parses readSignedGolomb (seBits v) v := by
  intro r rest hi _ hr
  exact readSE_parses hi hr h1 h2

theorem parses_bits {bs : List Bool} (h0 : 0 < bs.length) (h8 : bs.length ≤ 8) :
    Parses (readByteBits bs.length) bs (UInt8.ofNat (bitsVal bs)) := by
  intro r rest hi _ hr
  exact readByteBits_parses hi hr h0 h8

theorem parses_byte (b : UInt8) : Parses (readByteBits 8) (byteBits b) b := by
  have := parses_bits (bs := byteBits b) (by simp [byteBits]) (by simp [byteBits])
  rw [bitsVal_byteBits] at this
  simpa [byteBits] using this

theorem parses_skipSigned (xs : List Int) (h : ∀ x ∈ xs, -(2 ^ 24) ≤ x ∧ x ≤ 2 ^ 24) :
    Parses (skipSigned xs.length) (xs.flatMap seBits) () := by
  induction xs with
  | nil => exact Parses.pure ()
  | cons x xs ih =>
    rw [List.flatMap_cons]
    unfold skipSigned
    exact (parses_se (h x (by simp)).1 (h x (by simp)).2).bind (ih fun y hy => h y (by simp [hy]))

theorem parses_scalingList (c : ScalingCode) (size : Nat) (hs : 0 < size) (h : c.Valid size) :
    Parses (readScalingList size) (c.bits size) (c.entries size, c.useDefault) := by
  intro r rest hi _ hr
  obtain ⟨h1, h2, h3⟩ := h
  have hsz : size = c.es.length + (size - c.es.length) := by omega
  have hb : c.bits size = c.ds.flatMap seBits ++ (if size - c.es.length = 0 then [] else seBits c.d0) := by
    unfold ScalingCode.bits
    by_cases hc : c.es.length < size
    · rw [if_pos hc, if_neg (by omega)]
    · rw [if_neg hc, if_pos (by omega)]
  rw [hb] at hr ⊢
  have := scalingLoop_yields c.es c.ds (size - c.es.length) c.d0 hi rest [] true 8 8 false (by decide) (by decide)
    (by decide) h1 (fun hm => h3 (by omega)) (fun _ => rfl) hr
  rw [← hsz] at this
  have hu : (true && c.es.isEmpty && (size - c.es.length != 0)) = c.useDefault := by
    unfold ScalingCode.useDefault
    cases hes : c.es with
    | nil => simp; omega
    | cons => simp
  rw [hu] at this
  simpa [readScalingList, ScalingCode.entries] using this

/-- Where list number `i` starts in `ScalingList`. -/
def listOffset (i : Nat) : Nat := if i ≤ 6 then 16 * i else 96 + 64 * (i - 6)

theorem entries_length (c : ScalingCode) (size : Nat) (h : c.es.length ≤ size) : (c.entries size).length = size := by
  simp [ScalingCode.entries]; omega

theorem matrixPresent_bits (ls : List (Option ScalingCode)) : ∀ i, ∃ q, matrixPresent i ls = q * 2 ^ i := by
  induction ls with
  | nil => intro i; exact ⟨0, by simp [matrixPresent]⟩
  | cons x ls ih =>
    intro i
    obtain ⟨q, hq⟩ := ih (i + 1)
    cases x with
    | none => exact ⟨q * 2, by rw [matrixPresent, hq, Nat.pow_succ]; rw [Nat.mul_assoc, Nat.mul_comm 2]⟩
    | some c =>
      refine ⟨1 + q * 2, ?_⟩
      rw [matrixPresent, hq, Nat.pow_succ, Nat.add_mul, Nat.one_mul, Nat.mul_assoc, Nat.mul_comm 2]

theorem or_shift_eq {p i : Nat} (h : p < 2 ^ i) : p ||| (1 <<< i) = p + 2 ^ i := by
  rw [Nat.one_shiftLeft, Nat.or_comm, Nat.add_comm]
  have := Nat.two_pow_add_eq_or_of_lt h 1
  simpa using this.symm

theorem parses_matrixLoop (ls : List (Option ScalingCode)) : ∀ (i : Nat) (m : ScalingMatrix) (pre : List Int)
    (ud : List Bool), i + ls.length ≤ 12 → MatrixValid i ls → pre.length = listOffset i → ud.length = i →
    m.present < 2 ^ i → m.list = pre ++ List.replicate (480 - listOffset i) 0 →
    m.useDefault = ud ++ List.replicate (12 - i) false →
    Parses (scalingMatrixLoop ls.length i (listOffset i) (listSize i) m) (matrixBits i ls)
      ⟨m.present + matrixPresent i ls,
       pre ++ matrixEntries i ls ++ List.replicate (480 - listOffset (i + ls.length)) 0,
       ud ++ matrixDefaults ls ++ List.replicate (12 - (i + ls.length)) false⟩ := by
  induction ls with
  | nil =>
    intro i m pre ud _ _ _ _ _ h1 h2
    obtain ⟨a, b, c⟩ := m
    dsimp only at h1 h2
    subst h1 h2
    simpa [scalingMatrixLoop, matrixBits, matrixEntries, matrixPresent, matrixDefaults] using Parses.pure _
  | cons x ls ih =>
    intro i m pre ud hlen hv hpre hud hp h1 h2
    have hoff : listOffset (i + 1) = listOffset i + listSize i := by
      unfold listOffset listSize; split <;> split <;> split <;> omega
    have hsize : (if i ≥ 5 then 64 else listSize i) = listSize (i + 1) := by
      unfold listSize; split <;> split <;> (try split) <;> omega
    have hmax : listOffset i + listSize i ≤ 480 := by
      simp only [List.length_cons] at hlen
      unfold listOffset listSize; split <;> split <;> omega
    have hpow : 2 ^ (i + 1) = 2 ^ i + 2 ^ i := by rw [Nat.pow_succ]; omega
    have hsp : 0 < listSize i := by unfold listSize; split <;> decide
    have hrep : List.replicate (480 - listOffset i) (0 : Int) =
        List.replicate (listSize i) 0 ++ List.replicate (480 - listOffset (i + 1)) 0 := by
      rw [hoff, List.replicate_append_replicate]; congr 1; omega
    have hlen' : i + 1 + ls.length ≤ 12 := by simp only [List.length_cons] at hlen; omega
    have hidx : i + (x :: ls).length = i + 1 + ls.length := by simp only [List.length_cons]; omega
    have hrep2 : List.replicate (12 - i) false = false :: List.replicate (12 - (i + 1)) false := by
      have : 12 - i = (12 - (i + 1)) + 1 := by omega
      rw [this, List.replicate_succ]
    rw [hidx, List.length_cons]
    unfold scalingMatrixLoop
    cases x with
    | none =>
      rw [matrixBits]
      refine Parses.bind (b1 := [false]) (parses_flag false) ?_
      refine Parses.bind0 (a := m) (Parses.pure m) ?_
      rw [← hoff, hsize]
      have := ih (i + 1) m (pre ++ List.replicate (listSize i) 0) (ud ++ [false]) hlen' hv (by simp [hpre, hoff])
        (by simp [hud]) (by omega) (by rw [h1, hrep, List.append_assoc]) (by rw [h2, hrep2]; simp)
      simpa [matrixEntries, matrixDefaults, matrixPresent] using this
    | some c =>
      obtain ⟨hc, hv'⟩ := hv
      have hel := entries_length c (listSize i) hc.2.1
      rw [matrixBits]
      refine Parses.bind (b1 := [true]) (parses_flag true) ?_
      refine Parses.bind (a := { present := m.present + 2 ^ i, list := pre ++ c.entries (listSize i) ++ List.replicate (480 - listOffset (i + 1)) 0, useDefault := ud ++ [c.useDefault] ++ List.replicate (12 - (i + 1)) false }) ?_ ?_
      · rw [if_pos rfl, if_pos ⟨hmax, by omega⟩]
        refine (parses_scalingList c (listSize i) hsp hc).last ?_
        have e1 : m.present ||| (1 <<< i) = m.present + 2 ^ i := or_shift_eq hp
        have e2 : writeSlice m.list (listOffset i) (c.entries (listSize i)) =
            pre ++ c.entries (listSize i) ++ List.replicate (480 - listOffset (i + 1)) 0 := by
          unfold writeSlice
          rw [h1, hel, List.take_left' hpre, hrep, ← List.append_assoc pre, List.drop_left' (by simp [hpre])]
        have e3 : m.useDefault.set i c.useDefault = ud ++ [c.useDefault] ++ List.replicate (12 - (i + 1)) false := by
          rw [h2, hrep2, List.set_append_right _ _ (by omega), hud]; simp
        dsimp only
        rw [e1, e2, e3]
        exact Parses.pure _
      · rw [← hoff, hsize]
        have := ih (i + 1) { present := m.present + 2 ^ i, list := pre ++ c.entries (listSize i) ++ List.replicate (480 - listOffset (i + 1)) 0, useDefault := ud ++ [c.useDefault] ++ List.replicate (12 - (i + 1)) false } (pre ++ c.entries (listSize i)) (ud ++ [c.useDefault]) hlen' hv' (by simp [hpre, hoff, hel])
          (by simp [hud]) (by dsimp only; omega) rfl rfl
        simpa [matrixEntries, matrixDefaults, matrixPresent, Nat.add_assoc] using this

/-- The decoded form of a scaling matrix. -/
def matrixInfo (ls : List (Option ScalingCode)) : ScalingMatrix :=
  ⟨matrixPresent 0 ls, matrixEntries 0 ls ++ List.replicate (480 - listOffset ls.length) 0,
   matrixDefaults ls ++ List.replicate (12 - ls.length) false⟩

theorem parses_matrix (ls : List (Option ScalingCode)) (h : ls.length ≤ 12) (hv : MatrixValid 0 ls) :
    Parses (scalingMatrixLoop ls.length 0 0 16 ScalingMatrix.zero) (matrixBits 0 ls) (matrixInfo ls) := by
  have := parses_matrixLoop ls 0 ScalingMatrix.zero [] [] (by omega) hv rfl rfl (by decide) rfl rfl
  rw [Nat.zero_add] at this
  have e : ScalingMatrix.zero.present + matrixPresent 0 ls = matrixPresent 0 ls := Nat.zero_add _
  rw [e] at this
  exact this

end Ouro
