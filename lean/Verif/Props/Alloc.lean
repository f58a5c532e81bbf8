import Verif.Model.Alloc
import Verif.Props.Pps
/-! # C98: memory asked for by the parser of picture parameter sets -/
namespace Ouro
open Spec

theorem groupId_length (k todo : Nat) : ∀ (acc ids : Bytes) (r r' : BitReader), groupIdLoop k todo acc r = .ok (.ok ids, r') → ids.length = acc.length + todo := by
  induction todo with
  | zero =>
    intro acc ids r r' h
    rw [groupIdLoop, BR.pure_apply] at h
    injection h with h; injection h with h _; injection h with h
    rw [← h]; rfl
  | succ todo ih =>
    intro acc ids r r' h
    rw [groupIdLoop, bind_ok] at h
    obtain ⟨v, r1, _, h⟩ := h
    rw [ih _ _ _ _ h, List.length_append]
    simp; omega

/-- Every slice group number takes at least one bit of the data. -/
theorem groupId_bits (k : Nat) (hk : 0 < k) (todo : Nat) : ∀ (acc ids : Bytes) (r r' : BitReader), r.Inv → groupIdLoop k todo acc r = .ok (.ok ids, r') →
    r'.Inv ∧ r'.buffer = r.buffer ∧ r.pos + todo ≤ r'.pos := by
  induction todo with
  | zero =>
    intro acc ids r r' hi h
    rw [groupIdLoop, BR.pure_apply] at h
    injection h with h; injection h with _ h
    subst h; exact ⟨hi, rfl, Nat.le_refl _⟩
  | succ todo ih =>
    intro acc ids r r' hi h
    rw [groupIdLoop, bind_ok] at h
    obtain ⟨v, r1, h1, h⟩ := h
    have hm : 0 < (if k > 8 then 8 else k) ∧ (if k > 8 then 8 else k) ≤ 8 := by split <;> omega
    unfold readByteBits at h1
    rw [bind_ok] at h1
    obtain ⟨x, r2, h1, h2⟩ := h1
    rw [BR.pure_apply] at h2
    injection h2 with h2; injection h2 with _ h2
    subst h2
    by_cases hc : 32 < (if k > 8 then 8 else k) ∨ r.rest.length < (if k > 8 then 8 else k)
    · rw [readBits_err hi hc] at h1; simp at h1
    · have hb : r.buffer ≠ [] := by
        intro hb
        have : r.rest.length = 0 := by rw [BitReader.length_rest, hb]; simp
        omega
      obtain ⟨r3, g1, g2, g3, g4⟩ := readBits_yields hi (n := if k > 8 then 8 else k) (by omega) (by omega) hb
      rw [g1] at h1
      injection h1 with h1; injection h1 with _ h1
      subst h1
      obtain ⟨l1, l2, l3⟩ := ih _ _ _ _ g2 h
      exact ⟨l1, l2.trans g3, by omega⟩

theorem groupIdBits_pos {inf n : Nat} (hinf : 0 < inf) (hn : 0 < n) (hlt : n < 2 ^ 32) : 0 < groupIdBits inf n := by
  unfold groupIdBits
  split
  · exact hinf
  · rename_i h
    have : u32 (n + 1) = n + 1 := by unfold u32 at h ⊢; omega
    rw [this]
    unfold ceilLog2
    rw [if_neg (by omega)]
    omega

/-- What the map of slice groups of a set that was read has to do with what was asked for. -/
theorem makes_of_groups {inf n : Nat} {r r' : BitReader} {g : SliceGroups} (h : parseSliceGroups inf n r = .ok (.ok g, r')) :
    (∃ r'', (if n > 0 then do
      let typ ← readUnsignedGolomb
      if typ = 6 then do
        let size ← readUnsignedGolomb
        pure (u32 (size + 1))
      else pure 0
    else pure 0 : BR Nat) r = .ok (.ok g.groupID.length, r'')) ∧
    (r.Inv → n < 2 ^ 32 → 0 < inf → g.groupID.length ≤ 8 * r.buffer.length) := by
  unfold parseSliceGroups at h
  by_cases hn : n > 0
  · rw [if_pos hn] at h ⊢
    rw [bind_ok] at h
    obtain ⟨t, r1, h1, h⟩ := h
    have go : ∀ {α : Type} (f : Nat → BR α) (x : α) (r2 : BitReader), f t r1 = .ok (.ok x, r2) → (readUnsignedGolomb >>= f) r = .ok (.ok x, r2) :=
      fun f x r2 hf => bind_ok.2 ⟨t, r1, h1, hf⟩
    by_cases t6 : t = 6
    · subst t6
      rw [if_neg (by decide), if_neg (by decide), if_neg (by decide), if_pos rfl] at h
      rw [bind_ok] at h
      obtain ⟨size, r2, h2, h⟩ := h
      have hs := readUE_lt _ _ _ h2
      by_cases hz : u32 (size + 1) = 0
      · rw [if_pos hz] at h; cases h
      · rw [if_neg hz, bind_ok] at h
        obtain ⟨ids, r3, h3, h⟩ := h
        rw [BR.pure_apply] at h
        injection h with h; injection h with h _; injection h with h
        subst h
        have hl := groupId_length _ _ _ _ _ _ h3
        have hu : u32 (size + 1) = size + 1 := by unfold u32 at hz ⊢; omega
        rw [List.length_nil, Nat.zero_add] at hl
        refine ⟨⟨r2, go _ _ _ ?_⟩, ?_⟩
        · rw [if_pos rfl, bind_ok]
          exact ⟨size, r2, h2, by rw [BR.pure_apply, hu]; simp only [hl]⟩
        · intro hi hlt hinf
          obtain ⟨i1, b1⟩ := readUE_safe.keeps _ hi _ _ h1
          obtain ⟨i2, b2⟩ := readUE_safe.keeps _ i1 _ _ h2
          obtain ⟨i3, b3, p3⟩ := groupId_bits _ (groupIdBits_pos hinf hn hlt) _ _ _ _ _ i2 h3
          have := i3.pos_le
          rw [b3, b2, b1] at this
          show ids.length ≤ _
          omega
    · have hk : g.groupID = [] := by
        by_cases t0 : t = 0
        · rw [if_pos t0, bind_ok] at h
          obtain ⟨a, r2, _, h⟩ := h
          rw [BR.pure_apply] at h
          injection h with h; injection h with h _; injection h with h
          rw [← h]
        · rw [if_neg t0] at h
          by_cases t2 : t = 2
          · rw [if_pos t2, bind_ok] at h
            obtain ⟨⟨a, b⟩, r2, _, h⟩ := h
            simp only at h
            rw [BR.pure_apply] at h
            injection h with h; injection h with h _; injection h with h
            rw [← h]
          · rw [if_neg t2] at h
            by_cases t5 : t = 5
            · rw [if_pos t5, bind_ok] at h
              obtain ⟨a, r2, _, h⟩ := h
              rw [bind_ok] at h
              obtain ⟨b, r3, _, h⟩ := h
              rw [BR.pure_apply] at h
              injection h with h; injection h with h _; injection h with h
              rw [← h]
            · rw [if_neg t5, if_neg t6, BR.pure_apply] at h
              injection h with h; injection h with h _; injection h with h
              rw [← h]
      rw [hk]
      refine ⟨⟨r1, go _ _ _ ?_⟩, fun _ _ _ => Nat.zero_le _⟩
      rw [if_neg t6]; rfl
  · rw [if_neg hn] at h ⊢
    rw [BR.pure_apply] at h
    injection h with h; injection h with h _; injection h with h
    subst h
    exact ⟨⟨r, rfl⟩, fun _ _ _ => Nat.zero_le _⟩

/-- C98, what holds: for data that is accepted, the memory asked for is that of the map that is kept with the set, one byte for each number that was read, and so
not more than eight times the size of the data. `inf`, the result of a conversion Go leaves open, is a large number on the usual machines. -/
theorem C98_accepted_partial (inf : Nat) (hinf : 0 < inf) (st st' : ParameterSets) (buf : Bytes) (h : parsePPS inf st buf = .ok (none, st')) :
    (∃ id pps, st'.ppset id = some pps ∧ pps.sliceGroupID.length = ppsMakes buf) ∧ ppsMakes buf ≤ 8 * buf.length := by
  unfold parsePPS at h
  rcases hp : parsePpsBits inf st.spset (newBitReader buf) with p | ⟨e | i, r⟩
  · rw [hp] at h; cases h
  · rw [hp] at h; simp at h
  · rw [hp] at h
    simp only [Except.ok.injEq, Prod.mk.injEq, true_and] at h
    have hi := newBitReader_inv buf
    have key : (∃ r', ppsMakeBits (newBitReader buf) = .ok (.ok i.sliceGroupID.length, r')) ∧ i.sliceGroupID.length ≤ 8 * buf.length := by
      unfold parsePpsBits at hp
      rw [bind_ok] at hp
      obtain ⟨a1, r1, g1, hp⟩ := hp
      rw [bind_ok] at hp
      obtain ⟨a2, r2, g2, hp⟩ := hp
      rw [bind_ok] at hp
      obtain ⟨a3, r3, g3, hp⟩ := hp
      rw [bind_ok] at hp
      obtain ⟨a4, r4, g4, hp⟩ := hp
      rw [bind_ok] at hp
      obtain ⟨n, r5, g5, hp⟩ := hp
      rw [bind_ok] at hp
      obtain ⟨g, r6, g6, hp⟩ := hp
      have hg : i.sliceGroupID = g.groupID := by
        iterate 11
          rw [bind_ok] at hp
          obtain ⟨_, _, _, hp⟩ := hp
        rw [BR.pure_apply] at hp
        injection hp with hp; injection hp with hp _; injection hp with hp
        rw [← hp]
      obtain ⟨i1, b1⟩ := readUE_safe.keeps _ hi _ _ g1
      obtain ⟨i2, b2⟩ := readUE_safe.keeps _ i1 _ _ g2
      obtain ⟨i3, b3⟩ := readFlag_safe.keeps _ i2 _ _ g3
      obtain ⟨i4, b4⟩ := readFlag_safe.keeps _ i3 _ _ g4
      obtain ⟨i5, b5⟩ := readUE_safe.keeps _ i4 _ _ g5
      obtain ⟨⟨r7, k1⟩, k2⟩ := makes_of_groups g6
      rw [hg]
      refine ⟨⟨r7, ?_⟩, ?_⟩
      · unfold ppsMakeBits
        exact bind_ok.2 ⟨_, _, g1, bind_ok.2 ⟨_, _, g2, bind_ok.2 ⟨_, _, g3, bind_ok.2 ⟨_, _, g4, bind_ok.2 ⟨_, _, g5, k1⟩⟩⟩⟩⟩
      · have := k2 i5 (readUE_lt _ _ _ g5) hinf
        rwa [b5, b4, b3, b2, b1] at this
    obtain ⟨⟨r', k1⟩, k2⟩ := key
    have hm : ppsMakes buf = i.sliceGroupID.length := by unfold ppsMakes; rw [k1]
    rw [hm]
    refine ⟨⟨i.ppsID, i, ?_, rfl⟩, k2⟩
    rw [← h]
    exact if_pos rfl

theorem byte_of_bits (a b c d e f g h : Bool) : byteBits (UInt8.ofNat (bitsVal [a, b, c, d, e, f, g, h])) = [a, b, c, d, e, f, g, h] := by
  revert a b c d e f g h; decide

/-- Any bits are the first bits of some bytes. -/
theorem bytes_of_bits (n : Nat) : ∀ l : List Bool, l.length ≤ 8 * n → ∃ buf pad, buf.length = n ∧ bitsOf buf = l ++ pad := by
  induction n with
  | zero => intro l hl; exact ⟨[], [], rfl, by rw [List.length_eq_zero_iff.1 (by omega : l.length = 0)]; rfl⟩
  | succ n ih =>
    intro l hl
    obtain ⟨buf, pad, h1, h2⟩ := ih (l.drop 8) (by rw [List.length_drop]; omega)
    match l, hl, h2 with
    | a :: b :: c :: d :: e :: f :: g :: h :: t, _, h2 =>
      exact ⟨UInt8.ofNat (bitsVal [a, b, c, d, e, f, g, h]) :: buf, pad, by simp [h1], by rw [bitsOf_cons, byte_of_bits, h2]; rfl⟩
    | [], _, _ => exact ⟨List.replicate (n + 1) 0, bitsOf (List.replicate (n + 1) 0), by simp, rfl⟩
    | [a], _, _ => exact ⟨UInt8.ofNat (bitsVal [a, false, false, false, false, false, false, false]) :: buf, [false, false, false, false, false, false, false] ++ bitsOf buf, by simp [h1], by rw [bitsOf_cons, byte_of_bits]; rfl⟩
    | [a, b], _, _ => exact ⟨UInt8.ofNat (bitsVal [a, b, false, false, false, false, false, false]) :: buf, [false, false, false, false, false, false] ++ bitsOf buf, by simp [h1], by rw [bitsOf_cons, byte_of_bits]; rfl⟩
    | [a, b, c], _, _ => exact ⟨UInt8.ofNat (bitsVal [a, b, c, false, false, false, false, false]) :: buf, [false, false, false, false, false] ++ bitsOf buf, by simp [h1], by rw [bitsOf_cons, byte_of_bits]; rfl⟩
    | [a, b, c, d], _, _ => exact ⟨UInt8.ofNat (bitsVal [a, b, c, d, false, false, false, false]) :: buf, [false, false, false, false] ++ bitsOf buf, by simp [h1], by rw [bitsOf_cons, byte_of_bits]; rfl⟩
    | [a, b, c, d, e], _, _ => exact ⟨UInt8.ofNat (bitsVal [a, b, c, d, e, false, false, false]) :: buf, [false, false, false] ++ bitsOf buf, by simp [h1], by rw [bitsOf_cons, byte_of_bits]; rfl⟩
    | [a, b, c, d, e, f], _, _ => exact ⟨UInt8.ofNat (bitsVal [a, b, c, d, e, f, false, false]) :: buf, [false, false] ++ bitsOf buf, by simp [h1], by rw [bitsOf_cons, byte_of_bits]; rfl⟩
    | [a, b, c, d, e, f, g], _, _ => exact ⟨UInt8.ofNat (bitsVal [a, b, c, d, e, f, g, false]) :: buf, [false] ++ bitsOf buf, by simp [h1], by rw [bitsOf_cons, byte_of_bits]; rfl⟩

theorem ueBits_length (v : Nat) : (ueBits v).length = 2 * (v + 1).log2 + 1 := by
  unfold ueBits
  rw [List.length_append, List.length_replicate, uBits_length]
  omega

/-- Data of `len` bytes with two slice groups of type 6 and a map of `size + 1` units. -/
theorem makes_of_len (len size k : Nat) (hs : 12 + (ueBits size).length ≤ 8 * len)
    (hk : ∀ (r : BitReader) (rest : List Bool), r.Inv → r.pos = 12 → r.rest = ueBits size ++ rest → Yields readUnsignedGolomb r k (ueBits size).length) :
    ∃ buf : Bytes, buf.length = len ∧ ppsMakes buf = u32 (k + 1) ∧
      (∃ r n, ppsHead (newBitReader buf) = .ok (.ok n, r) ∧ 0 < n ∧ n ≤ 7 ∧ ∃ r', readUnsignedGolomb r = .ok (.ok 6, r') ∧ ∃ r'', readUnsignedGolomb r' = .ok (.ok k, r'')) := by
  obtain ⟨buf, pad, hl, hb⟩ := bytes_of_bits len ((ueBits 0 ++ (ueBits 0 ++ ([false] ++ ([false] ++ ueBits 1)))) ++ (ueBits 6 ++ ueBits size))
    (by rw [List.length_append, List.length_append (as := ueBits 6)]; have : (ueBits 0 ++ (ueBits 0 ++ ([false] ++ ([false] ++ ueBits 1)))).length = 7 := (by decide); have : (ueBits 6).length = 5 := (by decide); omega)
  have hp : Parses ppsHead (ueBits 0 ++ (ueBits 0 ++ ([false] ++ ([false] ++ ueBits 1)))) 1 := by
    unfold ppsHead
    exact (parses_ue (by decide)).bind ((parses_ue (by decide)).bind ((parses_flag _).bind ((parses_flag _).bind
      (parses_ue (by decide)))))
  have hne : buf ≠ [] := by intro h; rw [h] at hl; simp only [List.length_nil] at hl; omega
  have q0 : (newBitReader buf).rest = (ueBits 0 ++ (ueBits 0 ++ ([false] ++ ([false] ++ ueBits 1)))) ++ (ueBits 6 ++ (ueBits size ++ pad)) := by
    rw [newBitReader_rest, hb]; simp only [List.append_assoc]
  obtain ⟨r1, h1, i1, b1, p1⟩ := hp (newBitReader buf) _ (newBitReader_inv _) hne q0
  have q1 := rest_eq_append b1 p1 q0 rfl
  obtain ⟨r2, h2, i2, b2, p2⟩ := parses_ue (v := 6) (by decide) r1 _ i1 (by rw [b1]; exact hne) q1
  have q2 := rest_eq_append b2 p2 q1 rfl
  have hpos : r2.pos = 12 := by
    rw [p2, p1]
    have : (ueBits 0 ++ (ueBits 0 ++ ([false] ++ ([false] ++ ueBits 1)))).length = 7 := (by decide)
    have : (ueBits 6).length = 5 := (by decide)
    have : (newBitReader buf).pos = 0 := rfl
    omega
  obtain ⟨r3, h3, _⟩ := hk r2 _ i2 hpos q2
  refine ⟨buf, hl, ?_, r1, 1, h1, by decide, by decide, r2, h2, r3, h3⟩
  have hm : ppsMakeBits (newBitReader buf) = .ok (.ok (u32 (k + 1)), r3) := by
    unfold ppsHead at h1
    rw [bind_ok] at h1
    obtain ⟨a1, s1, g1, h1⟩ := h1
    rw [bind_ok] at h1
    obtain ⟨a2, s2, g2, h1⟩ := h1
    rw [bind_ok] at h1
    obtain ⟨a3, s3, g3, h1⟩ := h1
    rw [bind_ok] at h1
    obtain ⟨a4, s4, g4, h1⟩ := h1
    unfold ppsMakeBits
    refine bind_ok.2 ⟨_, _, g1, bind_ok.2 ⟨_, _, g2, bind_ok.2 ⟨_, _, g3, bind_ok.2 ⟨_, _, g4, bind_ok.2 ⟨_, _, h1, ?_⟩⟩⟩⟩⟩
    rw [if_pos (by decide)]
    refine bind_ok.2 ⟨_, _, h2, ?_⟩
    rw [if_pos rfl]
    exact bind_ok.2 ⟨_, _, h3, rfl⟩
  unfold ppsMakes
  rw [hm]

/-- Data of 10 bytes with two slice groups of type 6 and a map of `size + 1` units. -/
theorem makes_of_size (size k : Nat) (hs : size < 2 ^ 32 - 1)
    (hk : ∀ (r : BitReader) (rest : List Bool), r.Inv → r.pos = 12 → r.rest = ueBits size ++ rest → Yields readUnsignedGolomb r k (ueBits size).length) :
    ∃ buf : Bytes, buf.length = 10 ∧ ppsMakes buf = u32 (k + 1) ∧
      (∃ r n, ppsHead (newBitReader buf) = .ok (.ok n, r) ∧ 0 < n ∧ n ≤ 7 ∧ ∃ r', readUnsignedGolomb r = .ok (.ok 6, r') ∧ ∃ r'', readUnsignedGolomb r' = .ok (.ok k, r'')) := by
  refine makes_of_len 10 size k ?_ hk
  have := Nat.log2_lt (n := size + 1) (k := 32) (by omega)
  rw [ueBits_length]
  omega

/-- Such data is refused: it is much too short. -/
theorem refused_of_size (inf : Nat) (hinf : 0 < inf) (st : ParameterSets) (buf : Bytes) (k : Nat) (hl : buf.length = 10) (hm : ppsMakes buf = k + 1)
    (h80 : 80 ≤ k) (hlt : k < 2 ^ 32 - 1)
    (hr : ∃ r n, ppsHead (newBitReader buf) = .ok (.ok n, r) ∧ 0 < n ∧ n ≤ 7 ∧ ∃ r', readUnsignedGolomb r = .ok (.ok 6, r') ∧ ∃ r'', readUnsignedGolomb r' = .ok (.ok k, r'')) :
    ∃ e, parsePPS inf st buf = .ok (some e, st) := by
  obtain ⟨r, n, h1, h2, h3, r', h4, r'', h5⟩ := hr
  rcases panics_or_ok (parsePPS inf st buf) with h | ⟨⟨e, st'⟩, h⟩
  · obtain ⟨n', s, g1, _, t, s', g3, g4⟩ := (C33_panics_iff inf st buf).1 h
    rw [h1] at g1
    injection g1 with g1; injection g1 with g1 g2; injection g1 with g1
    subst g1; subst g2
    rw [h4] at g3
    injection g3 with g3; injection g3 with g3 g2; injection g3 with g3
    subst g3; subst g2
    rcases g4 with ⟨g, _⟩ | ⟨g, _⟩ | ⟨_, size, s'', g5, g6⟩
    · cases g
    · cases g
    · rw [h5] at g5
      injection g5 with g5; injection g5 with g5 _; injection g5 with g5
      omega
  · cases e with
    | none =>
      have := (C98_accepted_partial inf hinf st st' buf h).2
      omega
    | some e =>
      refine ⟨e, ?_⟩
      rw [h]
      unfold parsePPS at h
      rcases hp : parsePpsBits inf st.spset (newBitReader buf) with p | ⟨e' | i, r⟩
      · rw [hp] at h; cases h
      · rw [hp] at h
        injection h with h; injection h with _ h
        rw [h]
      · rw [hp] at h; simp at h

/-- C98 fails: for every number below 2^26, ten bytes make the parser ask for one byte more than that, and are then refused. -/
theorem C98_refuted (inf : Nat) (hinf : 0 < inf) (st : ParameterSets) (size : Nat) (h80 : 80 ≤ size) (hs : size + 1 < 2 ^ 26) :
    ∃ buf : Bytes, buf.length = 10 ∧ ppsMakes buf = size + 1 ∧ ∃ e, parsePPS inf st buf = .ok (some e, st) := by
  obtain ⟨buf, h1, h2, h3⟩ := makes_of_size size size (by omega) (fun r rest hi _ hr => readUE_parses hi hr hs)
  have hu : u32 (size + 1) = size + 1 := by unfold u32; omega
  rw [hu] at h2
  exact ⟨buf, h1, h2, refused_of_size inf hinf st buf size h1 h2 h80 (by omega) h3⟩

/-- C98 fails: ten bytes make the parser ask for more than two gigabytes. -/
theorem C98_gigabytes_refuted (inf : Nat) (hinf : 0 < inf) (st : ParameterSets) :
    ∃ buf : Bytes, buf.length = 10 ∧ ppsMakes buf > 2 ^ 31 ∧ ∃ e, parsePPS inf st buf = .ok (some e, st) := by
  obtain ⟨buf, h1, h2, h3⟩ := makes_of_size (2 ^ 31) (2 ^ 31) (by decide) (fun r rest hi hp hr => by
    have := readUE_code hi hr (by decide)
    rw [hp] at this
    exact this)
  have hu : u32 (2 ^ 31 + 1) = 2 ^ 31 + 1 := by decide
  rw [hu] at h2
  exact ⟨buf, h1, by omega, refused_of_size inf hinf st buf (2 ^ 31) h1 h2 (by decide) (by decide) h3⟩

/-- A set with three slice groups and an explicit map of five units. -/
def ppsExplicit : Pps := { ppsHigh with groups := .explicit [0, 1, 2, 1, 0] }

theorem ppsExplicit_valid : ppsExplicit.Valid 1 := by
  refine ⟨by decide, by decide, by decide, ?_, by decide, by decide, by decide, by decide, by decide, by decide, ppsHigh_valid.ext⟩
  intro _
  exact ⟨by decide, by decide⟩

/-- The hypothesis of `C98_accepted_partial` is met by data with this set; the memory asked for is five bytes. -/
example (inf : Nat) (st : ParameterSets) (sps : SPSInfo) (hs : st.getSPS 1 = some sps) (hc : sps.chromaFormatIdc = 1) :
    ∃ buf st', parsePPS inf st buf = .ok (none, st') ∧ ∃ i, st'.getPPS 3 = some i ∧ i.sliceGroupID.length = 5 := by
  obtain ⟨buf, tail, _, hb⟩ := bytes_of_bits 100 ppsExplicit.bits (by decide)
  obtain ⟨st', i, h1, h2, h3, _⟩ := C32_pps_partial inf st buf ppsExplicit sps tail hs (by rw [hc]; exact ppsExplicit_valid) (fun _ h => h) (by simp [ppsExplicit, ppsHigh]) hb
  refine ⟨buf, st', h1, i, h2, ?_⟩
  have hg : GroupsDecoded i (.explicit [0, 1, 2, 1, 0]) := h3.2.2.2.2.2.1 (by decide)
  rw [hg.2.2]; rfl

end Ouro
