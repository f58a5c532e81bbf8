import Verif.Lemmas.Bits
/-! # Lemmas about the derived readers (Exp-Golomb, skipping, trailing bits, payload parameters, scaling lists) -/
namespace Ouro
open Spec

theorem BR.bind_apply {α β : Type} (m : BR α) (f : α → BR β) (r : BitReader) :
    (m >>= f) r = (match m r with
      | .error p => .error p
      | .ok (.error e, r') => .ok (.error e, r')
      | .ok (.ok a, r') => f a r') := rfl
theorem BR.pure_apply {α : Type} (a : α) (r : BitReader) : (pure a : BR α) r = .ok (.ok a, r) := rfl

/-- Outcome of a reader call in terms of the unread bits: value `a`, `n` bits consumed. -/
def Yields {α : Type} (m : BR α) (r : BitReader) (a : α) (n : Nat) : Prop :=
  ∃ r', m r = .ok (.ok a, r') ∧ r'.Inv ∧ r'.buffer = r.buffer ∧ r'.pos = r.pos + n

/-- Outcome of a reader call: error `e`, reader still well formed, `n` bits consumed. -/
def Fails {α : Type} (m : BR α) (r : BitReader) (e : H264Err) (n : Nat) : Prop :=
  ∃ r', m r = .ok (.error e, r') ∧ r'.Inv ∧ r'.buffer = r.buffer ∧ r'.pos = r.pos + n

theorem Yields.bind {α β : Type} {m : BR α} {f : α → BR β} {r : BitReader} {a : α} {b : β} {n k : Nat}
    (h : Yields m r a n)
    (hf : ∀ r', r'.Inv → r'.buffer = r.buffer → r'.pos = r.pos + n → Yields (f a) r' b k) :
    Yields (m >>= f) r b (n + k) := by
  obtain ⟨r', h1, h2, h3, h4⟩ := h
  obtain ⟨r'', g1, g2, g3, g4⟩ := hf r' h2 h3 h4
  exact ⟨r'', by rw [BR.bind_apply, h1]; exact g1, g2, by rw [g3, h3], by rw [g4, h4]; omega⟩

theorem Yields.bind_fails {α β : Type} {m : BR α} {f : α → BR β} {r : BitReader} {a : α} {e : H264Err} {n k : Nat}
    (h : Yields m r a n)
    (hf : ∀ r', r'.Inv → r'.buffer = r.buffer → r'.pos = r.pos + n → Fails (f a) r' e k) :
    Fails (m >>= f) r e (n + k) := by
  obtain ⟨r', h1, h2, h3, h4⟩ := h
  obtain ⟨r'', g1, g2, g3, g4⟩ := hf r' h2 h3 h4
  exact ⟨r'', by rw [BR.bind_apply, h1]; exact g1, g2, by rw [g3, h3], by rw [g4, h4]; omega⟩

theorem Fails.bind {α β : Type} {m : BR α} {f : α → BR β} {r : BitReader} {e : H264Err} {n : Nat}
    (h : Fails m r e n) : Fails (m >>= f) r e n := by
  obtain ⟨r', h1, h2, h3, h4⟩ := h
  exact ⟨r', by rw [BR.bind_apply, h1], h2, h3, h4⟩

theorem Yields.pure {α : Type} (a : α) {r : BitReader} (h : r.Inv) : Yields (Pure.pure a : BR α) r a 0 :=
  ⟨r, BR.pure_apply a r, h, rfl, rfl⟩

theorem readBits_yields {r : BitReader} (h : r.Inv) {n : Nat} (hn : n ≤ 32) (hav : n ≤ r.rest.length)
    (hne : r.buffer ≠ []) :
    Yields (readBits n) r (if r.pos % 8 + n ≤ 32 then bitsVal (r.rest.take n)
        else bitsVal (r.rest.take n) % 2 ^ (n - (8 - r.pos % 8))) n := by
  obtain ⟨r', h1, h2, h3, h4⟩ := readBits_ok h hn hav hne
  refine ⟨r', ?_, h2, h3, h4⟩
  rw [h1]
  have hb := h.bitn_le
  congr 3
  by_cases h8 : r.bitn = 8
  · rw [if_pos (.inl h8), if_pos (by simp only [BitReader.pos]; omega)]
  · have e : r.pos % 8 = r.bitn := by simp only [BitReader.pos]; omega
    rw [e]
    by_cases hc : r.bitn + n ≤ 32
    · rw [if_pos (.inr hc), if_pos hc]
    · rw [if_neg (by omega), if_neg hc]

theorem readBits_fails {r : BitReader} (h : r.Inv) {n : Nat} (hn : 32 < n ∨ r.rest.length < n) :
    Fails (readBits n) r .unexpectedEOF 0 := ⟨r, readBits_err h hn, h, rfl, rfl⟩

theorem rest_eq_append {r r' : BitReader} {n : Nat} {a b : List Bool} (hb : r'.buffer = r.buffer)
    (hp : r'.pos = r.pos + n) (hr : r.rest = a ++ b) (hn : a.length = n) : r'.rest = b := by
  rw [BitReader.rest_of hb hp, hr, ← hn, List.drop_left]

theorem buffer_ne_of_rest {r : BitReader} {l : List Bool} (h : r.rest = l) (hl : l ≠ []) : r.buffer ≠ [] := by
  intro hb
  apply hl
  rw [← h, BitReader.rest, hb]; simp

/-- `ReadBits` of at most 25 bits never straddles five bytes. -/
theorem readBits_parses {r : BitReader} (h : r.Inv) {bs rest : List Bool} (hr : r.rest = bs ++ rest)
    (hn : bs.length ≤ 25) (hne : r.buffer ≠ []) :
    Yields (readBits bs.length) r (bitsVal bs) bs.length := by
  have := readBits_yields h (n := bs.length) (by omega) (by rw [hr]; simp) hne
  rw [if_pos (by omega), hr, List.take_left] at this
  exact this

theorem golombZeros_yields (z : Nat) : ∀ {r : BitReader}, r.Inv → ∀ {rest : List Bool} {fuel z0 : Nat},
    r.rest = List.replicate z false ++ true :: rest → z < fuel →
    Yields (golombZeros fuel z0) r (z0 + z) (z + 1) := by
  induction z with
  | zero =>
    intro r h rest fuel z0 hr hf
    obtain ⟨fuel, rfl⟩ : ∃ f, fuel = f + 1 := ⟨fuel - 1, by omega⟩
    have h1 := readBits_parses h (bs := [true]) (rest := rest) (by simpa using hr) (by simp)
      (buffer_ne_of_rest hr (by simp))
    unfold golombZeros
    have := h1.bind (f := fun v => if v = 0 then golombZeros fuel (z0 + 1) else Pure.pure z0) (b := z0) (k := 0)
      (fun r' hi _ _ => by
        rw [if_neg (by decide)]; exact Yields.pure _ hi)
    simpa using this
  | succ z ih =>
    intro r h rest fuel z0 hr hf
    obtain ⟨fuel, rfl⟩ : ∃ f, fuel = f + 1 := ⟨fuel - 1, by omega⟩
    rw [List.replicate_succ, List.cons_append] at hr
    have h1 := readBits_parses h (bs := [false]) (by simpa using hr) (by simp)
      (buffer_ne_of_rest hr (by simp))
    unfold golombZeros
    have := h1.bind (f := fun v => if v = 0 then golombZeros fuel (z0 + 1) else Pure.pure z0)
      (b := z0 + 1 + z) (k := z + 1)
      (fun r' hi hb hp => by
        rw [if_pos (by decide)]
        exact ih hi (rest_eq_append hb hp (a := [false]) hr rfl) (by omega))
    have e : z0 + 1 + z = z0 + (z + 1) := by omega
    rw [e] at this
    simpa [Nat.add_comm] using this

theorem golombZeros_fails (z : Nat) : ∀ {r : BitReader}, r.Inv → ∀ {fuel z0 : Nat},
    r.rest = List.replicate z false → z < fuel →
    Fails (golombZeros fuel z0) r .unexpectedEOF z := by
  induction z with
  | zero =>
    intro r h fuel z0 hr hf
    obtain ⟨fuel, rfl⟩ : ∃ f, fuel = f + 1 := ⟨fuel - 1, by omega⟩
    unfold golombZeros
    exact (readBits_fails h (by rw [hr]; simp)).bind
  | succ z ih =>
    intro r h fuel z0 hr hf
    obtain ⟨fuel, rfl⟩ : ∃ f, fuel = f + 1 := ⟨fuel - 1, by omega⟩
    rw [List.replicate_succ] at hr
    have h1 := readBits_parses h (bs := [false]) (by simpa using hr) (by simp)
      (buffer_ne_of_rest hr (by simp))
    unfold golombZeros
    have := h1.bind_fails (f := fun v => if v = 0 then golombZeros fuel (z0 + 1) else Pure.pure z0)
      (e := .unexpectedEOF) (k := z)
      (fun r' hi hb hp => by
        rw [if_pos (by decide)]
        exact ih hi (rest_eq_append (b := List.replicate z false) hb hp (a := [false]) hr rfl) (by omega))
    simpa [Nat.add_comm] using this

/-- Every bit string is a run of zeros, or such a run followed by a one bit. -/
theorem zeros_cases (l : List Bool) :
    (∃ z, l = List.replicate z false) ∨ (∃ z t, l = List.replicate z false ++ true :: t) := by
  induction l with
  | nil => exact .inl ⟨0, rfl⟩
  | cons b l ih =>
    cases b with
    | true => exact .inr ⟨0, l, rfl⟩
    | false =>
      rcases ih with ⟨z, rfl⟩ | ⟨z, t, rfl⟩
      · exact .inl ⟨z + 1, by rw [List.replicate_succ]⟩
      · exact .inr ⟨z + 1, t, by rw [List.replicate_succ, List.cons_append]⟩

/-- Exact behaviour of `ReadUnsignedGolomb` on a code with `z` leading zeros and suffix `s`. -/
theorem readUE_yields {r : BitReader} (h : r.Inv) {z : Nat} {s rest : List Bool}
    (hr : r.rest = List.replicate z false ++ true :: (s ++ rest)) (hs : s.length = z) (hz : z ≤ 32) :
    Yields readUnsignedGolomb r
      (((if (r.pos + z + 1) % 8 + z ≤ 32 then bitsVal s
        else bitsVal s % 2 ^ (z - (8 - (r.pos + z + 1) % 8))) + 2 ^ z + 4294967295) % 2 ^ 32) (z + 1 + z) := by
  have hl : r.rest.length = z + (z + rest.length + 1) := by rw [hr]; simp [hs]
  have hav : z < r.available + 1 := by rw [BitReader.available_eq_rest h]; omega
  have hz1 := golombZeros_yields z (z0 := 0) h hr hav
  rw [Nat.zero_add] at hz1
  show Yields (golombZeros (r.available + 1) 0 >>= fun zeroes => readBits zeroes >>= fun v =>
    Pure.pure (u32 (u32 (v + u32 (1 <<< zeroes)) + 4294967295))) r _ _
  refine hz1.bind (k := z) ?_
  intro r' hi hb hp
  have hr' : r'.rest = s ++ rest :=
    rest_eq_append hb hp (a := List.replicate z false ++ [true]) (by simp [hr]) (by simp)
  have hbn : r'.buffer ≠ [] := by rw [hb]; exact buffer_ne_of_rest hr (by simp)
  have h2 := readBits_yields hi (n := z) hz (by rw [hr']; simp [hs]) hbn
  have htk : r'.rest.take z = s := by rw [hr', ← hs, List.take_left]
  rw [htk, hp, ← Nat.add_assoc] at h2
  rw [show z = z + 0 from rfl]
  refine h2.bind (k := 0) ?_
  intro r'' hi' _ _
  have : ∀ x, u32 (u32 (x + u32 (1 <<< (z + 0))) + 4294967295) = (x + 2 ^ z + 4294967295) % 2 ^ 32 := by
    intro x
    simp only [u32, Nat.shiftLeft_eq, Nat.one_mul, Nat.add_zero]
    have : (2 : Nat) ^ 32 = 4294967296 := by decide
    omega
  rw [this]
  exact Yields.pure _ hi'

/-- `ReadUnsignedGolomb` at end of data: all remaining bits are zero. -/
theorem readUE_fails_zeros {r : BitReader} (h : r.Inv) {z : Nat} (hr : r.rest = List.replicate z false) :
    Fails readUnsignedGolomb r .unexpectedEOF z := by
  have hav : z < r.available + 1 := by rw [BitReader.available_eq_rest h, hr]; simp
  show Fails (golombZeros (r.available + 1) 0 >>= fun zeroes => readBits zeroes >>= fun v =>
    Pure.pure (u32 (u32 (v + u32 (1 <<< zeroes)) + 4294967295))) r _ _
  exact (golombZeros_fails z h hr hav).bind

/-- `ReadUnsignedGolomb` on a truncated or overlong code. -/
theorem readUE_fails_short {r : BitReader} (h : r.Inv) {z : Nat} {t : List Bool}
    (hr : r.rest = List.replicate z false ++ true :: t) (hs : t.length < z ∨ 32 < z) :
    Fails readUnsignedGolomb r .unexpectedEOF (z + 1) := by
  have hav : z < r.available + 1 := by rw [BitReader.available_eq_rest h, hr]; simp; omega
  have hz1 := golombZeros_yields z (z0 := 0) h hr hav
  rw [Nat.zero_add] at hz1
  show Fails (golombZeros (r.available + 1) 0 >>= fun zeroes => readBits zeroes >>= fun v =>
    Pure.pure (u32 (u32 (v + u32 (1 <<< zeroes)) + 4294967295))) r _ _
  rw [show z + 1 = z + 1 + 0 from rfl]
  refine hz1.bind_fails ?_
  intro r' hi hb hp
  have hr' : r'.rest = t :=
    rest_eq_append hb hp (a := List.replicate z false ++ [true]) (by simp [hr]) (by simp)
  exact (readBits_fails hi (by rw [hr']; omega)).bind

/-- A reader call on a well-formed reader never panics and keeps it well formed. -/
def Safe {α : Type} (m : BR α) : Prop :=
  ∀ r : BitReader, r.Inv → ∃ x r', m r = .ok (x, r') ∧ r'.Inv ∧ r'.buffer = r.buffer ∧ r.pos ≤ r'.pos

theorem Safe.of_yields {α : Type} {m : BR α} {r : BitReader} {a : α} {n : Nat} (h : Yields m r a n) :
    ∃ x r', m r = .ok (x, r') ∧ r'.Inv ∧ r'.buffer = r.buffer ∧ r.pos ≤ r'.pos := by
  obtain ⟨r', h1, h2, h3, h4⟩ := h; exact ⟨_, r', h1, h2, h3, by omega⟩
theorem Safe.of_fails {α : Type} {m : BR α} {r : BitReader} {e : H264Err} {n : Nat} (h : Fails m r e n) :
    ∃ x r', m r = .ok (x, r') ∧ r'.Inv ∧ r'.buffer = r.buffer ∧ r.pos ≤ r'.pos := by
  obtain ⟨r', h1, h2, h3, h4⟩ := h; exact ⟨_, r', h1, h2, h3, by omega⟩

theorem Safe.pure {α : Type} (a : α) : Safe (Pure.pure a : BR α) :=
  fun r h => ⟨_, r, rfl, h, rfl, Nat.le_refl _⟩

theorem Safe.bind {α β : Type} {m : BR α} {f : α → BR β} (hm : Safe m) (hf : ∀ a, Safe (f a)) : Safe (m >>= f) := by
  intro r h
  obtain ⟨x, r', h1, h2, h3, h4⟩ := hm r h
  cases x with
  | error e => exact ⟨.error e, r', by rw [BR.bind_apply, h1], h2, h3, h4⟩
  | ok a =>
    obtain ⟨y, r'', g1, g2, g3, g4⟩ := hf a r' h2
    exact ⟨y, r'', by rw [BR.bind_apply, h1]; exact g1, g2, by rw [g3, h3], by omega⟩

/-- `ReadBits(n)` is safe for `n ≥ 1`. -/
theorem readBits_safe {n : Nat} (hn : 0 < n) : Safe (readBits n) := by
  intro r h
  by_cases hc : 32 < n ∨ r.rest.length < n
  · exact Safe.of_fails (readBits_fails h hc)
  · refine Safe.of_yields (readBits_yields h (by omega) (by omega) ?_)
    intro hb
    have : r.rest.length = 0 := by rw [BitReader.length_rest, hb]; simp
    omega

theorem readUE_safe : Safe readUnsignedGolomb := by
  intro r h
  rcases zeros_cases r.rest with ⟨z, hz⟩ | ⟨z, t, hz⟩
  · exact Safe.of_fails (readUE_fails_zeros h hz)
  · by_cases hc : t.length < z ∨ 32 < z
    · exact Safe.of_fails (readUE_fails_short h hz hc)
    · refine Safe.of_yields (readUE_yields h (z := z) (s := t.take z) (rest := t.drop z) ?_ ?_ ?_)
      · rw [List.take_append_drop]; exact hz
      · simp; omega
      · omega

theorem readSE_safe : Safe readSignedGolomb := by
  unfold readSignedGolomb
  refine readUE_safe.bind fun a => ?_
  split <;> exact Safe.pure _

theorem readFlag_safe : Safe readFlag := (readBits_safe (by decide)).bind fun _ => Safe.pure _

theorem readByteBits_safe {n : Nat} (hn : 0 < n) : Safe (readByteBits n) := by
  unfold readByteBits
  refine (readBits_safe ?_).bind fun _ => Safe.pure _
  split <;> omega

theorem scalingLoop_safe (todo : Nat) : ∀ done first last next ud, Safe (scalingLoop todo done first last next ud) := by
  induction todo with
  | zero => intros; exact Safe.pure _
  | succ todo ih =>
    intro done first last next ud
    unfold scalingLoop
    refine Safe.bind ?_ ?_
    · split
      · exact readSE_safe.bind fun _ => Safe.pure _
      · exact Safe.pure _
    · rintro ⟨next', ud'⟩
      dsimp only
      split <;> exact ih _ _ _ _ _

theorem readScalingList_safe (n : Nat) : Safe (readScalingList n) := scalingLoop_safe _ _ _ _ _ _

theorem skipLoop_eq (n k byten bits : Nat) (hk : k = (n - bits + 7) / 8) :
    skipLoop n byten bits = (byten + k, bits + 8 * k) := by
  induction k generalizing byten bits with
  | zero => rw [skipLoop, if_neg (by omega)]; simp
  | succ k ih =>
    rw [skipLoop, if_pos (by omega), ih _ _ (by omega)]
    congr 1 <;> omega

/-- `SkipBits` is `ReadBits` without the value. -/
theorem skipBits_eq {r : BitReader} (h : r.Inv) {n : Nat} (hn : r.buffer ≠ [] ∨ 0 < n) :
    skipBits n r = (match readBits n r with
      | .error p => .error p
      | .ok (.error e, r') => .ok (.error e, r')
      | .ok (.ok _, r') => .ok (.ok (), r')) := by
  by_cases hc : n > 32 ∨ n > r.available
  · unfold skipBits readBits; rw [if_pos hc, if_pos hc]
  · have h1 := h.bitn_le
    have h2 := h.pos_le
    have h3 := h.byten_lt
    have hav := BitReader.available_eq h
    unfold BitReader.pos at h2 hav
    have hlen : 0 < r.buffer.length := by
      rcases hn with hn | hn
      · exact List.length_pos_iff.mpr hn
      · omega
    obtain ⟨k, hk⟩ : ∃ k, k = (n - (8 - r.bitn) + 7) / 8 := ⟨_, rfl⟩
    have hbl : r.byten < r.buffer.length := by omega
    have hkl : r.byten + k < r.buffer.length := by omega
    have hb : (r.buffer[r.byten]).toNat < 2 ^ 32 := by
      have : (r.buffer[r.byten]).toNat < 256 := (r.buffer[r.byten]).toNat_lt
      omega
    have hloop := readLoop_eq r.buffer n k r.byten _ (8 - r.bitn) hb hk hkl
    unfold skipBits readBits
    rw [if_neg hc, if_neg hc]
    simp only [idx, List.getElem?_eq_getElem hbl, hloop, skipLoop_eq n k _ _ hk]

theorem skipBits_safe (n : Nat) : Safe (skipBits n) := by
  intro r h
  by_cases hn : 0 < n
  · rw [skipBits_eq h (.inr hn)]
    obtain ⟨x, r', h1, h2, h3, h4⟩ := readBits_safe hn r h
    rw [h1]
    cases x with
    | error e => exact ⟨_, r', rfl, h2, h3, h4⟩
    | ok a => exact ⟨_, r', rfl, h2, h3, h4⟩
  · have hn : n = 0 := by omega
    subst hn
    refine ⟨.ok (), r, ?_, h, rfl, Nat.le_refl _⟩
    have := h.bitn_le
    unfold skipBits
    rw [if_neg (by omega), skipLoop_eq 0 0 _ _ (by omega)]
    simp only [Nat.add_zero, Nat.mul_zero, Nat.sub_zero]
    rw [show 8 - (8 - r.bitn) = r.bitn by omega]

/-- `SkipGolomb` is `ReadUnsignedGolomb` without the value. -/
theorem skipGolomb_eq {r : BitReader} (h : r.Inv) :
    skipGolomb r = (match readUnsignedGolomb r with
      | .error p => .error p
      | .ok (.error e, r') => .ok (.error e, r')
      | .ok (.ok _, r') => .ok (.ok (), r')) := by
  show (golombZeros (r.available + 1) 0 >>= fun zeroes => skipBits zeroes) r =
    (match (golombZeros (r.available + 1) 0 >>= fun zeroes => readBits zeroes >>= fun v =>
      Pure.pure (u32 (u32 (v + u32 (1 <<< zeroes)) + 4294967295))) r with
      | .error p => .error p
      | .ok (.error e, r') => .ok (.error e, r')
      | .ok (.ok _, r') => .ok (.ok (), r'))
  have key : (∃ z, Fails (golombZeros (r.available + 1) 0) r .unexpectedEOF z) ∨
      (∃ z, Yields (golombZeros (r.available + 1) 0) r z (z + 1) ∧ r.buffer ≠ []) := by
    rcases zeros_cases r.rest with ⟨z, hz⟩ | ⟨z, t, hz⟩
    · exact .inl ⟨z, golombZeros_fails z h hz (by rw [BitReader.available_eq_rest h, hz]; simp)⟩
    · refine .inr ⟨z, ?_, buffer_ne_of_rest hz (by simp)⟩
      have := golombZeros_yields z (z0 := 0) h hz (fuel := r.available + 1)
        (by rw [BitReader.available_eq_rest h, hz]; simp; omega)
      rwa [Nat.zero_add] at this
  rcases key with ⟨z, r', h1, _, _, _⟩ | ⟨z, ⟨r', h1, h2, h3, h4⟩, hne⟩
  · simp only [BR.bind_apply, h1]
  · simp only [BR.bind_apply, h1]
    rw [skipBits_eq h2 (.inl (by rw [h3]; exact hne))]
    rcases hx : readBits z r' with p | ⟨_ | _, _⟩ <;> rfl

theorem skipGolomb_safe : Safe skipGolomb := by
  intro r h
  rw [skipGolomb_eq h]
  obtain ⟨x, r', h1, h2, h3, h4⟩ := readUE_safe r h
  rw [h1]
  cases x with
  | error e => exact ⟨_, r', rfl, h2, h3, h4⟩
  | ok a => exact ⟨_, r', rfl, h2, h3, h4⟩

theorem testBit_log2_self {n : Nat} (h : n ≠ 0) : n.testBit n.log2 = true := by
  have h1 : 2 ^ n.log2 ≤ n := Nat.log2_self_le h
  have h2 : n < 2 ^ (n.log2 + 1) := Nat.lt_log2_self
  rw [Nat.testBit_eq_decide_div_mod_eq, decide_eq_true_eq]
  rw [Nat.pow_succ] at h2
  have : n / 2 ^ n.log2 = 1 := by
    rw [Nat.div_eq_of_lt_le] <;> omega
  omega

theorem ueBits_eq (v : Nat) :
    ueBits v = List.replicate (v + 1).log2 false ++ true :: uBits (v + 1).log2 (v + 1) := by
  rw [ueBits, uBits, testBit_log2_self (by omega)]

theorem log2_le_of_lt {n k : Nat} (h : n < 2 ^ (k + 1)) (h0 : n ≠ 0) : n.log2 ≤ k := by
  have := (Nat.log2_lt h0).mpr h; omega

theorem suffix_val (v : Nat) : (v + 1) % 2 ^ (v + 1).log2 = v + 1 - 2 ^ (v + 1).log2 := by
  have h1 : 2 ^ (v + 1).log2 ≤ v + 1 := Nat.log2_self_le (by omega)
  have h2 : v + 1 < 2 ^ ((v + 1).log2 + 1) := Nat.lt_log2_self
  rw [Nat.pow_succ] at h2
  rw [Nat.mod_eq_sub_mod h1, Nat.mod_eq_of_lt (by omega)]

/-- Reading the code of `v` at any alignment: exact result. -/
theorem readUE_code {r : BitReader} (h : r.Inv) {v : Nat} {rest : List Bool} (hr : r.rest = ueBits v ++ rest)
    (hv : v < 2 ^ 32) :
    Yields readUnsignedGolomb r
      (let z := (v + 1).log2
       if (r.pos + z + 1) % 8 + z ≤ 32 then v
       else ((v + 1 - 2 ^ z) % 2 ^ (z - (8 - (r.pos + z + 1) % 8)) + 2 ^ z - 1)) (ueBits v).length := by
  have hz : (v + 1).log2 ≤ 32 := log2_le_of_lt (by omega) (by omega)
  have h1 : 2 ^ (v + 1).log2 ≤ v + 1 := Nat.log2_self_le (by omega)
  have hr' := hr
  rw [ueBits_eq, List.append_assoc, List.cons_append] at hr'
  have := readUE_yields h hr' (by simp) hz
  rw [bitsVal_uBits, suffix_val] at this
  have hlen : (ueBits v).length = (v + 1).log2 + 1 + (v + 1).log2 := by rw [ueBits_eq]; simp; omega
  rw [hlen]
  dsimp only
  have hp : (2 : Nat) ^ 32 = 4294967296 := by decide
  have hpos : 0 < 2 ^ (v + 1).log2 := Nat.two_pow_pos _
  generalize 2 ^ (v + 1).log2 = P at *
  have hlast : (if (r.pos + (v + 1).log2 + 1) % 8 + (v + 1).log2 ≤ 32 then v + 1 - P
        else (v + 1 - P) % 2 ^ ((v + 1).log2 - (8 - (r.pos + (v + 1).log2 + 1) % 8))) ≤ v + 1 - P := by
    split
    · exact Nat.le_refl _
    · exact Nat.mod_le _ _
  have hval : ((if (r.pos + (v + 1).log2 + 1) % 8 + (v + 1).log2 ≤ 32 then v + 1 - P
        else (v + 1 - P) % 2 ^ ((v + 1).log2 - (8 - (r.pos + (v + 1).log2 + 1) % 8)))
        + P + 4294967295) % 2 ^ 32 =
      (if (r.pos + (v + 1).log2 + 1) % 8 + (v + 1).log2 ≤ 32 then v
       else ((v + 1 - P) % 2 ^ ((v + 1).log2 - (8 - (r.pos + (v + 1).log2 + 1) % 8)) + P - 1)) := by
    split at hlast
    next hc => rw [if_pos hc, if_pos hc]; omega
    next hc =>
      rw [if_neg hc, if_neg hc]
      generalize (v + 1 - P) % 2 ^ ((v + 1).log2 - (8 - (r.pos + (v + 1).log2 + 1) % 8)) = x at *
      omega
  rw [hval] at this
  exact this

/-- Values below `2^25` decode correctly at every alignment. -/
theorem readUE_parses {r : BitReader} (h : r.Inv) {v : Nat} {rest : List Bool} (hr : r.rest = ueBits v ++ rest)
    (hv : v + 1 < 2 ^ 26) : Yields readUnsignedGolomb r v (ueBits v).length := by
  have := readUE_code h hr (by omega)
  dsimp only at this
  have hz : (v + 1).log2 ≤ 25 := log2_le_of_lt (by omega) (by omega)
  rwa [if_pos (by omega)] at this

theorem i32_of_range {x : Int} (h1 : -2147483648 ≤ x) (h2 : x < 2147483648) : i32 x = x := by
  unfold i32; omega

/-- From the unsigned code number to the signed value. -/
theorem readSE_of_UE {r : BitReader} {v : Int} {n : Nat} (h1 : -2147483647 ≤ v) (h2 : v ≤ 2147483647)
    (h : Yields readUnsignedGolomb r (seCode v) n) : Yields readSignedGolomb r v n := by
  unfold readSignedGolomb
  rw [show n = n + 0 from rfl]
  refine h.bind (k := 0) ?_
  intro r' hi _ _
  have hc : seCode v &&& 1 = seCode v % 2 := Nat.and_one_is_mod _
  have hs : (v > 0 ∧ (seCode v : Int) = 2 * v - 1) ∨ (v ≤ 0 ∧ (seCode v : Int) = -2 * v) := by
    unfold seCode; split <;> omega
  rw [hc]
  split
  next he =>
    have : i32 (-(i32 ((seCode v / 2 : Nat) : Int))) = v := by
      unfold i32; omega
    rw [this]; exact Yields.pure _ hi
  next he =>
    have : i32 ((u32 (seCode v + 1) / 2 : Nat) : Int) = v := by
      unfold i32 u32; omega
    rw [this]; exact Yields.pure _ hi

theorem readSE_parses {r : BitReader} (h : r.Inv) {v : Int} {rest : List Bool} (hr : r.rest = seBits v ++ rest)
    (h1 : -(2 ^ 24) ≤ v) (h2 : v ≤ 2 ^ 24) : Yields readSignedGolomb r v (seBits v).length := by
  refine readSE_of_UE (by omega) (by omega) (readUE_parses h hr ?_)
  unfold seCode; split <;> omega

theorem readFlag_parses {r : BitReader} (h : r.Inv) {b : Bool} {rest : List Bool} (hr : r.rest = b :: rest) :
    Yields readFlag r b 1 := by
  have h1 := readBits_parses h (bs := [b]) (by simpa using hr) (by simp) (buffer_ne_of_rest hr (by simp))
  have := h1.bind (f := fun v => Pure.pure (v != 0)) (b := b) (k := 0) (fun r' hi _ _ => by
    have e : (bitsVal [b] != 0) = b := by cases b <;> decide
    rw [e]; exact Yields.pure _ hi)
  exact this

theorem readByteBits_parses {r : BitReader} (h : r.Inv) {bs rest : List Bool} (hr : r.rest = bs ++ rest)
    (hl : 0 < bs.length) (hl8 : bs.length ≤ 8) :
    Yields (readByteBits bs.length) r (UInt8.ofNat (bitsVal bs)) bs.length := by
  unfold readByteBits
  have e : (if bs.length > 8 then 8 else bs.length) = bs.length := if_neg (by omega)
  rw [e]
  have hne : bs ++ rest ≠ [] := by
    intro e'; rw [List.append_eq_nil_iff] at e'; simp [e'.1] at hl
  have h1 := readBits_parses h hr (by omega) (buffer_ne_of_rest hr hne)
  exact h1.bind (k := 0) (fun r' hi _ _ => Yields.pure _ hi)

/-- Alignment bits after the stop bit: `j` is the distance to the next byte boundary. -/
theorem trailingLoop_eq (j : Nat) : ∀ {r : BitReader}, r.Inv → ∀ {fuel : Nat}, (r.pos + j) % 8 = 0 → j < 8 → j < fuel →
    (∀ bs rest, r.rest = bs ++ rest → bs.length = j →
      (bs = List.replicate j false → Yields (trailingLoop fuel) r () j) ∧
      (bs ≠ List.replicate j false → ∃ n, Fails (trailingLoop fuel) r .missingTrailingBits n)) := by
  induction j with
  | zero =>
    intro r h fuel hp _ hf bs rest hr hl
    obtain ⟨fuel, rfl⟩ : ∃ f, fuel = f + 1 := ⟨fuel - 1, by omega⟩
    have hb := h.bitn_le
    have hstop : r.bitn = 0 ∨ r.bitn = 8 := by simp only [BitReader.pos] at hp; omega
    refine ⟨fun _ => ⟨r, ?_, h, rfl, rfl⟩, fun hne => absurd (by simpa using hl) hne⟩
    unfold trailingLoop; rw [if_neg (by omega)]
  | succ j ih =>
    intro r h fuel hp hj hf bs rest hr hl
    obtain ⟨fuel, rfl⟩ : ∃ f, fuel = f + 1 := ⟨fuel - 1, by omega⟩
    have hb := h.bitn_le
    have hgo : r.bitn ≠ 0 ∧ r.bitn ≠ 8 := by simp only [BitReader.pos] at hp; omega
    obtain ⟨b, bs, rfl⟩ : ∃ b t, bs = b :: t := by
      cases bs with
      | nil => simp at hl
      | cons b t => exact ⟨b, t, rfl⟩
    simp only [List.length_cons, Nat.add_right_cancel_iff] at hl
    obtain ⟨r', h1, h2, h3, h4⟩ := readBits_parses h (bs := [b]) (rest := bs ++ rest) (by simpa using hr) (by simp)
      (buffer_ne_of_rest hr (by simp))
    simp only [List.length_cons, List.length_nil] at h1 h4
    have hr' : r'.rest = bs ++ rest := rest_eq_append h3 h4 (a := [b]) hr rfl
    have hih := ih h2 (fuel := fuel) (by omega) (by omega) (by omega) bs rest hr' hl
    cases b with
    | true =>
      refine ⟨fun he => ?_, fun _ => ⟨1, r', ?_, h2, h3, h4⟩⟩
      · rw [List.replicate_succ] at he; simp at he
      · unfold trailingLoop; rw [if_pos hgo, h1]
        simp [bitsVal_cons]
    | false =>
      have hstep : trailingLoop (fuel + 1) r = trailingLoop fuel r' := by
        conv => lhs; unfold trailingLoop
        rw [if_pos hgo, h1]
        simp [bitsVal_cons]
      rw [List.replicate_succ]
      refine ⟨fun he => ?_, fun he => ?_⟩
      · obtain ⟨r'', g1, g2, g3, g4⟩ := hih.1 (by simpa using he)
        exact ⟨r'', by rw [hstep, g1], g2, by rw [g3, h3], by omega⟩
      · obtain ⟨n, r'', g1, g2, g3, g4⟩ := hih.2 (by simpa using he)
        exact ⟨1 + n, r'', by rw [hstep, g1], g2, by rw [g3, h3], by omega⟩

/-- Exact behaviour of `SkipTrailingBits`; `j` is the number of bits between the stop bit and the byte boundary. -/
theorem skipTrailingBits_eq {r : BitReader} (h : r.Inv) (j : Nat) (hj : j < 8) (hp : (r.pos + 1 + j) % 8 = 0) :
    ((∃ t, r.rest = true :: (List.replicate j false ++ t)) → Yields skipTrailingBits r () (1 + j)) ∧
    ((¬∃ t, r.rest = true :: (List.replicate j false ++ t)) →
      ∃ n, Fails skipTrailingBits r .missingTrailingBits n) := by
  have hlen := BitReader.length_rest r
  cases hr : r.rest with
  | nil =>
    refine ⟨fun ⟨t, ht⟩ => by simp at ht, fun _ => ⟨0, r, ?_, h, rfl, rfl⟩⟩
    unfold skipTrailingBits
    rw [readBits_err h (by rw [hr]; simp)]
  | cons b t =>
    obtain ⟨r', h1, h2, h3, h4⟩ := readBits_parses h (bs := [b]) (rest := t) (by simpa using hr) (by simp)
      (buffer_ne_of_rest hr (by simp))
    simp only [List.length_cons, List.length_nil] at h1 h4
    have hr' : r'.rest = t := rest_eq_append h3 h4 (a := [b]) (by simpa using hr) rfl
    cases b with
    | false =>
      refine ⟨fun ⟨t, ht⟩ => by simp at ht, fun _ => ⟨1, r', ?_, h2, h3, h4⟩⟩
      unfold skipTrailingBits; rw [h1]; simp [bitsVal_cons]
    | true =>
      have hl' := BitReader.length_rest r'
      have hstep : skipTrailingBits r = trailingLoop (r'.available + 1) r' := by
        unfold skipTrailingBits; rw [h1]; simp [bitsVal_cons]
      have hpl := h2.pos_le
      have hjl : j ≤ t.length := by rw [← hr', hl', h3] at *; omega
      have hav : j < r'.available + 1 := by rw [BitReader.available_eq_rest h2, hr']; omega
      have key := trailingLoop_eq j h2 (fuel := r'.available + 1) (by omega) hj hav (t.take j) (t.drop j)
        (by rw [List.take_append_drop, hr']) (by simp; omega)
      refine ⟨fun ⟨t', ht⟩ => ?_, fun hne => ?_⟩
      · have ht' : t = List.replicate j false ++ t' := by simpa using ht
        obtain ⟨r'', g1, g2, g3, g4⟩ := key.1 (by rw [ht', List.take_left' (by simp)])
        exact ⟨r'', by rw [hstep, g1], g2, by rw [g3, h3], by omega⟩
      · obtain ⟨n, r'', g1, g2, g3, g4⟩ := key.2 (by
          intro he; apply hne
          refine ⟨t.drop j, ?_⟩
          rw [← he, List.take_append_drop])
        exact ⟨1 + n, r'', by rw [hstep, g1], g2, by rw [g3, h3], by omega⟩

theorem skipTrailingBits_safe : Safe skipTrailingBits := by
  intro r h
  obtain ⟨j, hj, hp⟩ : ∃ j, j < 8 ∧ (r.pos + 1 + j) % 8 = 0 := ⟨(7 - r.pos % 8), by omega, by omega⟩
  by_cases hc : ∃ t, r.rest = true :: (List.replicate j false ++ t)
  · exact Safe.of_yields ((skipTrailingBits_eq h j hj hp).1 hc)
  · obtain ⟨n, hn⟩ := (skipTrailingBits_eq h j hj hp).2 hc
    exact Safe.of_fails hn

theorem payloadLoop_yields (k : Nat) : ∀ {r : BitReader}, r.Inv → ∀ {b : UInt8} {rest : List Bool} {fuel val : Nat},
    b ≠ 255 → val < 2 ^ 32 → r.rest = bitsOf (List.replicate k 255 ++ [b]) ++ rest → k < fuel →
    Yields (payloadLoop fuel val) r ((val + 255 * k + b.toNat) % 2 ^ 32) (8 * k + 8) := by
  induction k with
  | zero =>
    intro r h b rest fuel val hb hv hr hf
    obtain ⟨fuel, rfl⟩ : ∃ f, fuel = f + 1 := ⟨fuel - 1, by omega⟩
    have hr' : r.rest = byteBits b ++ rest := by simpa using hr
    have h1 := readBits_parses h hr' (by simp) (buffer_ne_of_rest hr' (by simp [byteBits]))
    rw [bitsVal_byteBits, length_byteBits] at h1
    unfold payloadLoop
    refine h1.bind (k := 0) ?_
    intro r' hi _ _
    dsimp only
    rw [if_pos (by intro e; apply hb; exact UInt8.toNat_inj.mp e)]
    exact Yields.pure _ hi
  | succ k ih =>
    intro r h b rest fuel val hb hv hr hf
    obtain ⟨fuel, rfl⟩ : ∃ f, fuel = f + 1 := ⟨fuel - 1, by omega⟩
    have hr' : r.rest = byteBits 255 ++ (bitsOf (List.replicate k 255 ++ [b]) ++ rest) := by
      rw [hr, List.replicate_succ]; simp
    have h1 := readBits_parses h hr' (by simp) (buffer_ne_of_rest hr' (by simp [byteBits]))
    rw [bitsVal_byteBits, length_byteBits] at h1
    unfold payloadLoop
    rw [show 8 * (k + 1) + 8 = 8 + (8 * k + 8) by omega]
    refine h1.bind (k := 8 * k + 8) ?_
    intro r' hi hb' hp
    dsimp only
    rw [if_neg (by decide)]
    have := ih hi (val := u32 (val + (255 : UInt8).toNat)) hb (Nat.mod_lt _ (by decide))
      (rest_eq_append hb' hp hr' (by simp)) (fuel := fuel) (by omega)
    have e : (u32 (val + (255 : UInt8).toNat) + 255 * k + b.toNat) % 2 ^ 32 =
        (val + 255 * (k + 1) + b.toNat) % 2 ^ 32 := by
      have e1 : (255 : UInt8).toNat = 255 := rfl
      have e2 : (2 : Nat) ^ 32 = 4294967296 := by decide
      rw [e1, u32, e2]; omega
    rwa [e] at this

theorem payloadLoop_fails (k : Nat) : ∀ {r : BitReader}, r.Inv → ∀ {t : List Bool} {fuel val : Nat},
    r.rest = bitsOf (List.replicate k 255) ++ t → t.length < 8 → k < fuel →
    Fails (payloadLoop fuel val) r .unexpectedEOF (8 * k) := by
  induction k with
  | zero =>
    intro r h t fuel val hr ht hf
    obtain ⟨fuel, rfl⟩ : ∃ f, fuel = f + 1 := ⟨fuel - 1, by omega⟩
    unfold payloadLoop
    exact (readBits_fails h (.inr (by rw [hr]; simpa using ht))).bind
  | succ k ih =>
    intro r h t fuel val hr ht hf
    obtain ⟨fuel, rfl⟩ : ∃ f, fuel = f + 1 := ⟨fuel - 1, by omega⟩
    have hr' : r.rest = byteBits 255 ++ (bitsOf (List.replicate k 255) ++ t) := by
      rw [hr, List.replicate_succ]; simp
    have h1 := readBits_parses h hr' (by simp) (buffer_ne_of_rest hr' (by simp [byteBits]))
    rw [bitsVal_byteBits, length_byteBits] at h1
    unfold payloadLoop
    rw [show 8 * (k + 1) = 8 + 8 * k by omega]
    refine h1.bind_fails (k := 8 * k) ?_
    intro r' hi hb' hp
    dsimp only
    rw [if_neg (by decide)]
    exact ih hi (rest_eq_append hb' hp hr' (by simp)) ht (by omega)

theorem eq_byteBits_of_length (bs : List Bool) (h : bs.length = 8) : ∃ b : UInt8, bs = byteBits b := by
  refine ⟨UInt8.ofNat (bitsVal bs), ?_⟩
  match bs, h with
  | [a, b, c, d, e, f, g, i], _ =>
    cases a <;> cases b <;> cases c <;> cases d <;> cases e <;> cases f <;> cases g <;> cases i <;> decide

/-- Every bit string is a run of 0xFF bytes followed by another byte, or by fewer than eight bits. -/
theorem ff_cases (n : Nat) : ∀ l : List Bool, l.length ≤ n →
    (∃ k t, l = bitsOf (List.replicate k 255) ++ t ∧ t.length < 8) ∨
    (∃ k b t, b ≠ 255 ∧ l = bitsOf (List.replicate k 255 ++ [b]) ++ t) := by
  induction n with
  | zero => intro l hl; exact .inl ⟨0, l, by simp, by omega⟩
  | succ n ih =>
    intro l hl
    by_cases h8 : l.length < 8
    · exact .inl ⟨0, l, by simp, h8⟩
    · obtain ⟨b, hb⟩ := eq_byteBits_of_length (l.take 8) (by simp; omega)
      have hl' : l = byteBits b ++ l.drop 8 := by rw [← hb, List.take_append_drop]
      by_cases hbe : b = 255
      · subst hbe
        rcases ih (l.drop 8) (by simp; omega) with ⟨k, t, h1, h2⟩ | ⟨k, b', t, h1, h2⟩
        · refine .inl ⟨k + 1, t, ?_, h2⟩
          rw [hl', h1, List.replicate_succ]; simp
        · refine .inr ⟨k + 1, b', t, h1, ?_⟩
          rw [hl', h2, List.replicate_succ]; simp
      · exact .inr ⟨0, b, l.drop 8, hbe, by simpa using hl'⟩

theorem readPayloadParam_yields {r : BitReader} (h : r.Inv) {k : Nat} {b : UInt8} {rest : List Bool} (hb : b ≠ 255)
    (hr : r.rest = bitsOf (List.replicate k 255 ++ [b]) ++ rest) :
    Yields readPayloadParam r ((255 * k + b.toNat) % 2 ^ 32) (8 * k + 8) := by
  have := payloadLoop_yields k h hb (val := 0) (by decide) hr (fuel := r.available + 1) (by
    rw [BitReader.available_eq_rest h, hr]; simp; omega)
  rw [Nat.zero_add] at this
  exact this

theorem readPayloadParam_fails {r : BitReader} (h : r.Inv) {k : Nat} {t : List Bool}
    (hr : r.rest = bitsOf (List.replicate k 255) ++ t) (ht : t.length < 8) :
    Fails readPayloadParam r .unexpectedEOF (8 * k) :=
  payloadLoop_fails k h hr ht (by rw [BitReader.available_eq_rest h, hr]; simp; omega)

theorem readPayloadParam_safe : Safe readPayloadParam := by
  intro r h
  rcases ff_cases _ r.rest (Nat.le_refl _) with ⟨k, t, h1, h2⟩ | ⟨k, b, t, h1, h2⟩
  · exact Safe.of_fails (readPayloadParam_fails h h1 h2)
  · exact Safe.of_yields (readPayloadParam_yields h h1 h2)

end Ouro

namespace Ouro
open Spec

theorem Int.tmod_256_bound (x : Int) : -256 < Int.tmod x 256 ∧ Int.tmod x 256 < 256 := by
  constructor
  · have := Int.lt_tmod_of_pos x (b := 256) (by decide); omega
  · exact Int.tmod_lt_of_pos x (by decide)

theorem scaling_step {last d e : Int} (h1 : 0 ≤ last) (h2 : last ≤ 255) (h3 : -128 ≤ d) (h4 : d ≤ 127)
    (he : (last + d) % 256 = e) : Int.tmod (i32 (i32 (last + d) + 256)) 256 = e := by
  rw [i32_of_range (x := last + d) (by omega) (by omega), i32_of_range (by omega) (by omega),
    Int.tmod_eq_emod_of_nonneg (by omega)]
  omega

theorem scalingLoop_zero (m : Nat) (done : List Int) (first : Bool) (last : Int) (ud : Bool) :
    scalingLoop m done first last 0 ud = (Pure.pure (done ++ List.replicate m last, ud) : BR _) := by
  induction m generalizing done first with
  | zero => simp [scalingLoop]
  | succ m ih =>
    funext r
    unfold scalingLoop
    rw [BR.bind_apply]
    simp only [ne_eq, not_true_eq_false, if_false, BR.pure_apply, if_true]
    rw [ih]
    simp [List.replicate_succ, BR.pure_apply]

theorem scalingLoop_yields (es : List Int) : ∀ (ds : List Int) (m : Nat) (d0 : Int) {r : BitReader}, r.Inv →
    ∀ (rest : List Bool) (done : List Int) (first : Bool) (last next : Int) (ud : Bool), next ≠ 0 →
    0 ≤ last → last ≤ 255 → ScalingDeltas last es ds →
    (m ≠ 0 → -128 ≤ d0 ∧ d0 ≤ 127 ∧ ((es.getLastD last) + d0) % 256 = 0) →
    (es.length + m = 0 → ud = false) →
    r.rest = ds.flatMap seBits ++ (if m = 0 then [] else seBits d0) ++ rest →
    Yields (scalingLoop (es.length + m) done first last next ud) r
      (done ++ es ++ List.replicate m (es.getLastD last), first && es.isEmpty && (m != 0))
      (ds.flatMap seBits ++ (if m = 0 then [] else seBits d0)).length := by
  induction es with
  | nil =>
    intro ds m d0 r h rest done first last next ud hn hl0 hl1 hd hm hud hr
    cases ds with
    | cons => simp [ScalingDeltas] at hd
    | nil =>
      cases m with
      | zero =>
        have : ud = false := hud rfl
        subst this
        simpa [scalingLoop] using Yields.pure _ h
      | succ m =>
        obtain ⟨g1, g2, g3⟩ := hm (by omega)
        simp only [List.flatMap_nil, List.nil_append, Nat.succ_ne_zero, if_false, List.length_nil,
          Nat.zero_add, List.getLastD_nil] at hr g3 ⊢
        have h1 := readSE_parses h hr (by omega) (by omega)
        unfold scalingLoop
        rw [if_pos hn]
        have hstep := scaling_step hl0 hl1 g1 g2 g3
        rw [show (seBits d0).length = (seBits d0).length + 0 from rfl]
        refine Yields.bind (a := (0, first)) (n := (seBits d0).length) (k := 0) ?_ ?_
        · rw [show (seBits d0).length = (seBits d0).length + 0 from rfl]
          refine h1.bind (k := 0) ?_
          intro r' hi _ _
          dsimp only
          rw [hstep]
          simpa using Yields.pure ((0 : Int), first && true) hi
        · intro r' hi _ _
          dsimp only
          rw [if_pos rfl, scalingLoop_zero]
          simpa [List.replicate_succ] using Yields.pure (done ++ last :: List.replicate m last, first) hi
  | cons e es ih =>
    intro ds m d0 r h rest done first last next ud hn hl0 hl1 hd hm hud hr
    cases ds with
    | nil => simp [ScalingDeltas] at hd
    | cons d ds =>
      obtain ⟨g1, g2, g3, g4, g5, g6⟩ := hd
      have hr' : r.rest = seBits d ++ (ds.flatMap seBits ++ (if m = 0 then [] else seBits d0) ++ rest) := by
        rw [hr]; simp [List.append_assoc]
      have h1 := readSE_parses h hr' (by omega) (by omega)
      rw [show (e :: es).length + m = (es.length + m) + 1 by simp only [List.length_cons]; omega]
      unfold scalingLoop
      rw [if_pos hn]
      have hstep := scaling_step hl0 hl1 g3 g4 g5
      have hlen : ((d :: ds).flatMap seBits ++ (if m = 0 then [] else seBits d0)).length =
          (seBits d).length + (ds.flatMap seBits ++ (if m = 0 then [] else seBits d0)).length := by
        simp only [List.flatMap_cons, List.length_append]; omega
      rw [hlen]
      refine Yields.bind (a := (e, false)) (n := (seBits d).length) ?_ ?_
      · rw [show (seBits d).length = (seBits d).length + 0 from rfl]
        refine h1.bind (k := 0) ?_
        intro r' hi _ _
        dsimp only
        rw [hstep]
        have : (first && e == 0) = false := by
          have : (e == 0) = false := by simp; omega
          simp [this]
        rw [this]
        exact Yields.pure _ hi
      · intro r' hi hb hp
        dsimp only
        rw [if_neg (by omega)]
        rw [List.getLastD_cons] at hm ⊢
        have := ih ds m d0 hi rest (done ++ [e]) false e e false (by omega) (by omega) g2 g6 hm (fun _ => rfl) (rest_eq_append hb hp hr' rfl)
        simpa using this

/-- Every entry a successful `ReadScalingList` writes is non-zero and within 8 bits plus sign. -/
theorem scalingLoop_range (todo : Nat) : ∀ (done : List Int) (first : Bool) (last next : Int) (ud : Bool)
    (r r' : BitReader) (out : List Int) (ud' : Bool),
    (∀ x ∈ done, x ≠ 0 ∧ -256 < x ∧ x < 256) → (last ≠ 0 ∧ -256 < last ∧ last < 256) → (-256 < next ∧ next < 256) →
    scalingLoop todo done first last next ud r = .ok (.ok (out, ud'), r') →
    out.length = done.length + todo ∧ ∀ x ∈ out, x ≠ 0 ∧ -256 < x ∧ x < 256 := by
  induction todo with
  | zero =>
    intro done first last next ud r r' out ud' hd hl hn h
    simp only [scalingLoop, BR.pure_apply, Except.ok.injEq, Prod.mk.injEq] at h
    obtain ⟨⟨rfl, _⟩, _⟩ := h
    exact ⟨rfl, hd⟩
  | succ todo ih =>
    intro done first last next ud r r' out ud' hd hl hn h
    unfold scalingLoop at h
    rw [BR.bind_apply] at h
    have hin : ∀ x r1, (if next ≠ 0 then
        readSignedGolomb >>= fun delta =>
          Pure.pure (Int.tmod (i32 (i32 (last + delta) + 256)) 256,
            first && Int.tmod (i32 (i32 (last + delta) + 256)) 256 == 0)
        else (Pure.pure (next, ud) : BR (Int × Bool))) r = .ok (.ok x, r1) → -256 < x.1 ∧ x.1 < 256 := by
      intro x r1 hx
      split at hx
      · rw [BR.bind_apply] at hx
        rcases hse : readSignedGolomb r with p | ⟨e | d, r2⟩ <;> rw [hse] at hx <;> simp only [BR.pure_apply] at hx
        · cases hx
        · cases hx
        · cases hx; exact Int.tmod_256_bound _
      · simp only [BR.pure_apply] at hx; cases hx; exact hn
    split at h
    · cases h
    · cases h
    · next x r1 heq =>
      have hb := hin x r1 heq
      obtain ⟨nx, u⟩ := x
      dsimp only at h hb
      split at h
      · have := ih (done ++ [last]) false last nx u r1 r' out ud' (by
          intro y hy; rw [List.mem_append, List.mem_singleton] at hy
          rcases hy with hy | rfl
          · exact hd y hy
          · exact hl) hl hb h
        refine ⟨by rw [this.1]; simp; omega, this.2⟩
      · next hne =>
        have := ih (done ++ [nx]) false nx nx u r1 r' out ud' (by
          intro y hy; rw [List.mem_append, List.mem_singleton] at hy
          rcases hy with hy | rfl
          · exact hd y hy
          · exact ⟨hne, hb⟩) ⟨hne, hb⟩ hb h
        refine ⟨by rw [this.1]; simp; omega, this.2⟩

end Ouro
