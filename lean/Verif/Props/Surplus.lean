import Verif.Spec.Surplus
import Verif.Props.ParamSets
import Verif.Props.Pps
/-!
# C145: what follows a parameter set makes no difference
-/
namespace Ouro
open Spec

/-- The same reader on longer data. -/
def BitReader.grow (r : BitReader) (x : Bytes) : BitReader := { r with buffer := r.buffer ++ x }

/-- A read that succeeds does the same when more data follows. -/
def Grows {α : Type} (m : BR α) : Prop :=
  ∀ r a r', r.Inv → m r = .ok (.ok a, r') → r'.Inv ∧ ∀ x, m (r.grow x) = .ok (.ok a, r'.grow x)

/-- The same, or a zero byte behind the data makes the read fail. -/
def GrowsOr {α : Type} (m : BR α) : Prop :=
  ∀ r a r', r.Inv → m r = .ok (.ok a, r') → (∀ x, m (r.grow x) = .ok (.ok a, r'.grow x)) ∨
    ∀ b r1, m (r.grow [0]) ≠ .ok (.ok b, r1)

theorem grows_pure {α : Type} (a : α) : Grows (pure a : BR α) := by
  intro r b r' hi h
  cases h
  exact ⟨hi, fun _ => rfl⟩

theorem grows_panic {α : Type} (p : Panic) : Grows (BR.panic p : BR α) := by
  intro r b r' hi h
  cases h

theorem bind_ofG {α β : Type} {m : BR α} {f : α → BR β} {r r1 : BitReader} {a : α}
    (h : m r = .ok (.ok a, r1)) : (m >>= f) r = f a r1 := by
  show BR.andThen m f r = _
  rw [BR.andThen, h]

theorem Grows.bind {α β : Type} {m : BR α} {f : α → BR β} (hm : Grows m) (hf : ∀ a, Grows (f a)) : Grows (m >>= f) := by
  intro r b r' hi h
  obtain ⟨a, r1, h1, h2⟩ := bind_ok.1 h
  obtain ⟨hi1, hx1⟩ := hm r a r1 hi h1
  obtain ⟨hi2, hx2⟩ := hf a r1 b r' hi1 h2
  exact ⟨hi2, fun x => by rw [bind_ofG (hx1 x), hx2 x]⟩

theorem Grows.bindOr {α β : Type} {m : BR α} {f : α → BR β} (hm : Grows m) (hf : ∀ a, GrowsOr (f a)) :
    GrowsOr (m >>= f) := by
  intro r b r' hi h
  obtain ⟨a, r1, h1, h2⟩ := bind_ok.1 h
  obtain ⟨hi1, hx1⟩ := hm r a r1 hi h1
  rcases hf a r1 b r' hi1 h2 with hx2 | hx2
  · exact .inl fun x => by rw [bind_ofG (hx1 x), hx2 x]
  · refine .inr fun c r2 hc => ?_
    rw [bind_ofG (hx1 _)] at hc
    exact hx2 _ _ hc

theorem grows_ite {α : Type} {c : Prop} [Decidable c] {m n : BR α} (hm : Grows m) (hn : Grows n) :
    Grows (if c then m else n) := by
  split
  · exact hm
  · exact hn

theorem idx_grow {l x : Bytes} {i : Nat} {b : UInt8} (h : idx l i = .ok b) : idx (l ++ x) i = .ok b := by
  unfold idx at h ⊢
  cases hg : l[i]? with
  | none => rw [hg] at h; cases h
  | some c =>
    rw [hg] at h
    have hi : i < l.length := by
      rcases List.getElem?_eq_some_iff.1 hg with ⟨hi, -⟩
      exact hi
    rw [List.getElem?_append_left hi, hg]
    exact h

theorem readLoop_grow (buf x : Bytes) (n byten val bits : Nat) (v : Nat × Nat × Nat)
    (h : readLoop buf n byten val bits = .ok v) : readLoop (buf ++ x) n byten val bits = .ok v := by
  induction hk : n - bits using Nat.strongRecOn generalizing byten val bits with
  | ind k ih =>
    rw [readLoop] at h ⊢
    by_cases hb : n > bits
    · rw [if_pos hb] at h ⊢
      cases hi : idx buf (byten + 1) with
      | error p => rw [hi] at h; cases h
      | ok b =>
        rw [hi] at h
        rw [idx_grow hi]
        exact ih (n - (bits + 8)) (by omega) _ _ _ h rfl
    · rw [if_neg hb] at h ⊢
      exact h

theorem available_grow (r : BitReader) (x : Bytes) : r.available ≤ (r.grow x).available := by
  unfold BitReader.available BitReader.grow
  simp only [List.length_append]
  omega

theorem grows_bits (n : Nat) : Grows (readBits n) := by
  intro r a r' hinv h
  refine ⟨?_, fun x => ?_⟩
  · by_cases hn : 0 < n
    · obtain ⟨y, r1, h1, h2, -⟩ := readBits_safe hn r hinv
      rw [h1] at h
      cases h
      exact h2
    · have hn : n = 0 := by omega
      subst hn
      unfold readBits at h
      rw [if_neg (by omega)] at h
      cases hi : idx r.buffer r.byten with
      | error p => rw [hi] at h; cases h
      | ok b =>
        rw [hi] at h
        dsimp only at h
        rw [readLoop, if_neg (by omega)] at h
        dsimp only at h
        cases h
        have := hinv.bitn_le
        have e : 8 - (8 - r.bitn - 0) = r.bitn := by omega
        rw [e]
        exact hinv
  · unfold readBits at h ⊢
    by_cases hc : n > 32 ∨ n > r.available
    · rw [if_pos hc] at h; cases h
    · rw [if_neg hc] at h
      have hc' : ¬ (n > 32 ∨ n > (r.grow x).available) := by
        have := available_grow r x
        omega
      rw [if_neg hc']
      cases hi : idx r.buffer r.byten with
      | error p => rw [hi] at h; cases h
      | ok b =>
        rw [hi] at h
        dsimp only at h
        have hi' : idx (r.grow x).buffer (r.grow x).byten = .ok b := idx_grow hi
        rw [hi']
        dsimp only
        cases hl : readLoop r.buffer n r.byten b.toNat (8 - r.bitn) with
        | error p => rw [hl] at h; cases h
        | ok v =>
          have hl' : readLoop (r.grow x).buffer n (r.grow x).byten b.toNat (8 - (r.grow x).bitn) = .ok v :=
            readLoop_grow _ _ _ _ _ _ _ hl
          rw [hl] at h
          rw [hl']
          rcases v with ⟨v1, v2, v3⟩
          dsimp only at h ⊢
          cases h
          rfl

theorem grows_byteBits (n : Nat) : Grows (readByteBits n) := by
  unfold readByteBits
  exact (grows_bits _).bind fun _ => grows_pure _

theorem grows_flag : Grows readFlag := by
  unfold readFlag
  exact (grows_bits _).bind fun _ => grows_pure _

theorem zeros_grow (f f' z : Nat) (hf : f ≤ f') (r : BitReader) (x : Bytes) (a : Nat) (r' : BitReader) (hi : r.Inv)
    (h : golombZeros f z r = .ok (.ok a, r')) : golombZeros f' z (r.grow x) = .ok (.ok a, r'.grow x) := by
  induction f generalizing f' z r with
  | zero => cases h
  | succ f ih =>
    cases f' with
    | zero => omega
    | succ f' =>
      rw [golombZeros] at h ⊢
      obtain ⟨v, r1, h1, h2⟩ := bind_ok.1 h
      obtain ⟨hi1, hx1⟩ := grows_bits 1 r v r1 hi h1
      rw [bind_ofG (hx1 x)]
      by_cases hv : v = 0
      · rw [if_pos hv] at h2 ⊢
        exact ih f' (z + 1) (by omega) r1 hi1 h2
      · rw [if_neg hv] at h2 ⊢
        exact (grows_pure _ r1 a r' hi1 h2).2 x

theorem zeros_inv (f z : Nat) (r : BitReader) (a : Nat) (r' : BitReader) (hi : r.Inv)
    (h : golombZeros f z r = .ok (.ok a, r')) : r'.Inv := by
  induction f generalizing z r with
  | zero => cases h
  | succ f ih =>
    rw [golombZeros] at h
    obtain ⟨v, r1, h1, h2⟩ := bind_ok.1 h
    obtain ⟨hi1, -⟩ := grows_bits 1 r v r1 hi h1
    by_cases hv : v = 0
    · rw [if_pos hv] at h2
      exact ih (z + 1) r1 hi1 h2
    · rw [if_neg hv] at h2
      exact (grows_pure _ r1 a r' hi1 h2).1

theorem grows_ue : Grows readUnsignedGolomb := by
  intro r a r' hi h
  unfold readUnsignedGolomb at h ⊢
  obtain ⟨z, r1, h1, h2⟩ := bind_ok.1 h
  obtain ⟨hi2, hx2⟩ := ((grows_bits z).bind fun v => grows_pure _) r1 a r' (zeros_inv _ _ _ _ _ hi h1) h2
  refine ⟨hi2, fun x => ?_⟩
  rw [bind_ofG (zeros_grow _ _ _ (by have := available_grow r x; omega) r x z r1 hi h1)]
  exact hx2 x

theorem grows_se : Grows readSignedGolomb := by
  unfold readSignedGolomb
  exact grows_ue.bind fun _ => grows_ite (grows_pure _) (grows_pure _)

theorem grows_scaling (todo : Nat) (dn : List Int) (first : Bool) (last next : Int) (ud : Bool) :
    Grows (scalingLoop todo dn first last next ud) := by
  induction todo generalizing dn first last next ud with
  | zero => exact grows_pure _
  | succ todo ih =>
    rw [scalingLoop]
    refine Grows.bind ?_ fun _ => grows_ite (ih _ _ _ _ _) (ih _ _ _ _ _)
    exact grows_ite (grows_se.bind fun _ => grows_pure _) (grows_pure _)

theorem grows_matrix (todo i off size : Nat) (m : ScalingMatrix) : Grows (scalingMatrixLoop todo i off size m) := by
  induction todo generalizing i off size m with
  | zero => exact grows_pure _
  | succ todo ih =>
    rw [scalingMatrixLoop]
    refine grows_flag.bind fun _ => Grows.bind ?_ fun _ => ih _ _ _ _
    refine grows_ite (grows_ite ?_ (grows_panic _)) (grows_pure _)
    exact (grows_scaling _ _ _ _ _ _).bind fun _ => grows_pure _

theorem grows_high : Grows parseSpsHigh := by
  unfold parseSpsHigh
  exact grows_ue.bind fun _ => (grows_ite grows_flag (grows_pure _)).bind fun _ => grows_ue.bind fun _ =>
    grows_ue.bind fun _ => grows_flag.bind fun _ => grows_flag.bind fun _ =>
    (grows_ite (grows_matrix _ _ _ _ _) (grows_pure _)).bind fun _ => grows_pure _

theorem grows_skip (n : Nat) : Grows (skipSigned n) := by
  induction n with
  | zero => exact grows_pure _
  | succ n ih => exact grows_se.bind fun _ => ih

theorem grows_poc : Grows parseSpsPoc := by
  unfold parseSpsPoc
  exact grows_ue.bind fun _ => grows_ite (grows_ue.bind fun _ => grows_pure _)
    (grows_flag.bind fun _ => grows_se.bind fun _ => grows_se.bind fun _ => grows_ue.bind fun _ =>
      (grows_skip _).bind fun _ => grows_pure _)

theorem grows_crop (c : Bool) : Grows (parseSpsCrop c) := by
  unfold parseSpsCrop
  exact grows_ite (grows_ue.bind fun _ => grows_ue.bind fun _ => grows_ue.bind fun _ => grows_ue.bind fun _ =>
    grows_pure _) (grows_pure _)

theorem grows_sps : Grows parseSpsBits := by
  unfold parseSpsBits
  exact (grows_byteBits _).bind fun _ => (grows_byteBits _).bind fun _ => (grows_byteBits _).bind fun _ =>
    grows_ue.bind fun _ => (grows_ite grows_high (grows_pure _)).bind fun _ => grows_ue.bind fun _ =>
    grows_poc.bind fun _ => grows_ue.bind fun _ => grows_flag.bind fun _ => grows_ue.bind fun _ =>
    grows_ue.bind fun _ => grows_ue.bind fun _ => (grows_ite grows_flag (grows_pure _)).bind fun _ =>
    grows_flag.bind fun _ => grows_flag.bind fun _ => (grows_crop _).bind fun _ => grows_flag.bind fun _ =>
    grows_pure _

theorem grows_runs (todo i : Nat) (a : List Nat) : Grows (runLengthLoop todo i a) := by
  induction todo generalizing i a with
  | zero => exact grows_pure _
  | succ todo ih =>
    rw [runLengthLoop]
    exact grows_ite (grows_ue.bind fun _ => ih _ _) (grows_panic _)

theorem grows_rects (todo i : Nat) (a b : List Nat) : Grows (rectLoop todo i a b) := by
  induction todo generalizing i a b with
  | zero => exact grows_pure _
  | succ todo ih =>
    rw [rectLoop]
    exact grows_ite (grows_ue.bind fun _ => grows_ue.bind fun _ => ih _ _ _) (grows_panic _)

theorem grows_ids (bits todo : Nat) (acc : Bytes) : Grows (groupIdLoop bits todo acc) := by
  induction todo generalizing acc with
  | zero => exact grows_pure _
  | succ todo ih =>
    rw [groupIdLoop]
    exact (grows_byteBits _).bind fun _ => ih _

theorem grows_groups (inf n : Nat) : Grows (parseSliceGroups inf n) := by
  unfold parseSliceGroups
  refine grows_ite (grows_ue.bind fun _ => grows_ite ((grows_runs _ _ _).bind fun _ => grows_pure _) (grows_ite
    ((grows_rects _ _ _ _).bind fun _ => grows_pure _) (grows_ite (grows_flag.bind fun _ => grows_ue.bind fun _ =>
    grows_pure _) (grows_ite (grows_ue.bind fun _ => grows_ite (grows_panic _) ((grows_ids _ _ _).bind fun _ =>
    grows_pure _)) (grows_pure _))))) (grows_pure _)

theorem grows_ext (chroma : Nat) : GrowsOr (parsePpsExt chroma) := by
  intro r a r' hi h
  by_cases hav : r.available > 0
  · refine .inl fun x => ?_
    unfold parsePpsExt at h ⊢
    rw [if_pos hav] at h
    rw [if_pos (by have := available_grow r x; omega)]
    refine (Grows.bind (m := readFlag) grows_flag (fun _ => grows_flag.bind fun _ => (grows_ite (grows_matrix _ _ _ _ _)
      (grows_pure _)).bind fun _ => grows_se.bind fun _ => grows_pure _) r a r' hi h).2 x
  · refine .inr fun b r1 hb => ?_
    have hpos : r.pos = 8 * r.buffer.length := by
      have := BitReader.available_eq hi
      have := hi.pos_le
      omega
    have hi0 : (r.grow [0]).Inv := by
      refine ⟨hi.bitn_le, ?_, ?_⟩
      · have := hi.pos_le
        simp only [BitReader.pos, BitReader.grow, List.length_append] at this ⊢
        omega
      · have := hi.byten_lt
        simp only [BitReader.grow, List.length_append]
        omega
    have hrest : (r.grow [0]).rest = List.replicate 8 false := by
      show (bitsOf (r.buffer ++ [0])).drop r.pos = _
      have hl : (bitsOf r.buffer).length = r.pos := by rw [hpos]; simp
      rw [bitsOf_append, ← hl, List.drop_left]
      decide
    unfold parsePpsExt at hb
    rw [if_pos (by rw [BitReader.available_eq_rest hi0, hrest]; decide)] at hb
    obtain ⟨t, q, h1, hb⟩ := bind_ok.1 hb
    obtain ⟨q2, g1, gi1, gb1, gp1⟩ := readFlag_parses hi0 (b := false) (rest := List.replicate 7 false) hrest
    rw [g1] at h1
    cases h1
    have hr2 : q.rest = List.replicate 7 false :=
      rest_eq_append gb1 gp1 (a := [false]) (by rw [hrest]; rfl) rfl
    obtain ⟨t, q', h1, hb⟩ := bind_ok.1 hb
    obtain ⟨q3, g2, gi2, gb2, gp2⟩ := readFlag_parses gi1 (b := false) (rest := List.replicate 6 false) hr2
    rw [g2] at h1
    cases h1
    have hr3 : q'.rest = List.replicate 6 false :=
      rest_eq_append gb2 gp2 (a := [false]) (by rw [hr2]; rfl) rfl
    obtain ⟨m, r3, h1, hb⟩ := bind_ok.1 hb
    cases h1
    obtain ⟨m, r3, h1, hb⟩ := bind_ok.1 hb
    unfold readSignedGolomb at h1
    obtain ⟨u, r4, h1, -⟩ := bind_ok.1 h1
    obtain ⟨r5, g5, -⟩ := readUE_fails_zeros gi2 hr3
    rw [g5] at h1
    cases h1

theorem GrowsOr.pure {α β : Type} {m : BR α} (hm : GrowsOr m) (f : α → β) : GrowsOr (m >>= fun a => Pure.pure (f a)) := by
  intro r b r' hi h
  obtain ⟨a, r1, h1, h2⟩ := bind_ok.1 h
  cases h2
  rcases hm r a _ hi h1 with hx | hx
  · exact .inl fun x => by rw [bind_ofG (hx x)]; rfl
  · refine .inr fun c r2 hc => ?_
    obtain ⟨a2, r3, h3, -⟩ := bind_ok.1 hc
    exact hx _ _ h3

theorem grows_pps (inf : Nat) (spset : Nat → Option SPSInfo) : GrowsOr (parsePpsBits inf spset) := by
  unfold parsePpsBits
  exact grows_ue.bindOr fun _ => grows_ue.bindOr fun _ => grows_flag.bindOr fun _ => grows_flag.bindOr fun _ =>
    grows_ue.bindOr fun _ => (grows_groups _ _).bindOr fun _ => grows_ue.bindOr fun _ => grows_ue.bindOr fun _ =>
    grows_flag.bindOr fun _ => (grows_byteBits _).bindOr fun _ => grows_se.bindOr fun _ => grows_se.bindOr fun _ =>
    grows_se.bindOr fun _ => grows_flag.bindOr fun _ => grows_flag.bindOr fun _ => grows_flag.bindOr fun _ =>
    (grows_ext _).pure _

/-! ## C145 -/

/-- A sequence parameter set that `ParseSPS` takes is taken alike whatever follows it. -/
theorem C145_sps (st : ParameterSets) (data : Bytes) (h : TakenIn (parseSPS st data)) :
    SurplusIgnored (parseSPS st) data := by
  intro more
  obtain ⟨st', h⟩ := h
  rw [h]
  unfold parseSPS at h ⊢
  cases hp : parseSpsBits (newBitReader data) with
  | error p => rw [hp] at h; cases h
  | ok v =>
    obtain ⟨v, r⟩ := v
    cases v with
    | error e => rw [hp] at h; cases h
    | ok i =>
      have e : parseSpsBits (newBitReader (data ++ more)) = _ := (grows_sps _ _ _ (newBitReader_inv _) hp).2 more
      rw [hp] at h
      rw [e]
      exact h

/-- A sequence parameter set cut short is turned down, or enough of it is left for the same outcome. It is never taken for
another set. -/
theorem C145_sps_cut (st : ParameterSets) (data : Bytes) : CutSafe st (parseSPS st) data := by
  intro k
  rcases parseSPS_cases (data.take k) with ⟨e, h⟩ | ⟨i, h⟩
  · exact .inl ⟨e, h st⟩
  · refine .inr ?_
    have := C145_sps st (data.take k) ⟨_, h st⟩ (data.drop k)
    rw [List.take_append_drop] at this
    exact this.symm

/-- So there is one length from which on, and not before, the beginning of the data is enough. -/
theorem C145_sps_least (st : ParameterSets) (data : Bytes) (h : TakenIn (parseSPS st data)) :
    ∃ n ≤ data.length, ∀ k, TakenIn (parseSPS st (data.take k)) ↔ n ≤ k := by
  have hmono : ∀ k j, k ≤ j → TakenIn (parseSPS st (data.take k)) → TakenIn (parseSPS st (data.take j)) := by
    intro k j hkj hk
    have e : data.take j = data.take k ++ (data.take j).drop k := by
      have := (List.take_append_drop k (data.take j)).symm
      rwa [List.take_take, Nat.min_eq_left hkj] at this
    rw [e, C145_sps st _ hk]
    exact hk
  have hfind : ∀ m, TakenIn (parseSPS st (data.take m)) →
      ∃ n ≤ m, ∀ k, TakenIn (parseSPS st (data.take k)) ↔ n ≤ k := by
    intro m
    induction m with
    | zero => exact fun h0 => ⟨0, by omega, fun k => ⟨fun _ => by omega, fun hk => hmono 0 k hk h0⟩⟩
    | succ m ih =>
      intro hm
      by_cases hp : TakenIn (parseSPS st (data.take m))
      · obtain ⟨n, hn, hk⟩ := ih hp
        exact ⟨n, by omega, hk⟩
      · refine ⟨m + 1, by omega, fun k => ⟨fun hk => ?_, fun hk => hmono _ k hk hm⟩⟩
        by_cases hkm : m + 1 ≤ k
        · exact hkm
        · exact absurd (hmono k m (by omega) hk) hp
  exact hfind data.length (by rw [List.take_length]; exact h)

/-- What follows a picture parameter set that `ParsePPS` takes makes no difference exactly when one zero byte behind it
makes none. -/
theorem C145_pps_iff (inf : Nat) (st : ParameterSets) (data : Bytes) (h : TakenIn (parsePPS inf st data)) :
    SurplusIgnored (parsePPS inf st) data ↔ TakenIn (parsePPS inf st (data ++ [0])) := by
  constructor
  · intro hs
    rw [hs [0]]
    exact h
  · rintro ⟨st0, h0⟩ more
    obtain ⟨st', h⟩ := h
    rw [h]
    unfold parsePPS at h h0 ⊢
    cases hp : parsePpsBits inf st.spset (newBitReader data) with
    | error p => rw [hp] at h; cases h
    | ok v =>
      obtain ⟨v, r⟩ := v
      cases v with
      | error e => rw [hp] at h; cases h
      | ok i =>
        rcases grows_pps inf st.spset _ _ _ (newBitReader_inv _) hp with hg | hg
        · have e : parsePpsBits inf st.spset (newBitReader (data ++ more)) = _ := hg more
          rw [hp] at h
          rw [e]
          exact h
        · exfalso
          cases hq : parsePpsBits inf st.spset (newBitReader (data ++ [0])) with
          | error p => rw [hq] at h0; cases h0
          | ok v =>
            obtain ⟨v, r1⟩ := v
            cases v with
            | error e => rw [hq] at h0; cases h0
            | ok j => exact hg j r1 hq

/-- The same for the unit with its header, as the description carries it. -/
theorem C145_sprop (inf : Nat) (st : ParameterSets) (header : UInt8) (data : Bytes) (ht : header &&& 0x1F = 7)
    (h : TakenIn (parseSprop inf st (header :: data))) : SurplusIgnored (parseSprop inf st) (header :: data) := by
  have e : ∀ d, parseSprop inf st (header :: d) = parseSPS st d := fun d => by
    show (if header &&& 0x1F = 7 then _ else _) = _
    rw [if_pos ht]
  intro more
  rw [List.cons_append, e, e]
  rw [e] at h
  exact C145_sps st data h more

/-- Nothing that follows a conforming picture parameter set with the extension makes a difference. Missing from the full
property: sets that end, without the extension, on the last bit of the data (`C145_pps_refuted`). -/
theorem C145_pps_partial (inf : Nat) (st : ParameterSets) (data : Bytes) (p : Pps) (sps : SPSInfo) (tail : List Bool)
    (hsps : st.getSPS p.seq_parameter_set_id = some sps) (hv : p.Valid sps.chromaFormatIdc)
    (hg : 0 < p.num_slice_groups_minus1 → ¬ UnreadGroups p.groups) (hext : p.ext ≠ none)
    (hbuf : bitsOf data = p.bits ++ tail) : SurplusIgnored (parsePPS inf st) data := by
  obtain ⟨s1, i1, h1, -⟩ := C32_pps_partial inf st data p sps tail hsps hv hg hext hbuf
  obtain ⟨s2, i2, h2, -⟩ := C32_pps_partial inf st (data ++ [0]) p sps (tail ++ bitsOf [0]) hsps hv hg hext
    (by rw [bitsOf_append, hbuf, List.append_assoc])
  exact (C145_pps_iff inf st data ⟨s1, h1⟩).2 ⟨s2, h2⟩

/-- What can be asked of the outcome by a program: the error and one member of set 0. -/
def seenOf (res : Go (Option H264Err × ParameterSets)) : Option (Option H264Err × Option Bool) :=
  res.toOption.map fun v => (v.1, (v.2.getPPS 0).map (·.transform8x8Mode))

theorem takenIn_of_seen {res : Go (Option H264Err × ParameterSets)} {b : Option Bool}
    (h : seenOf res = some (none, b)) : TakenIn res := by
  cases res with
  | error p => cases h
  | ok v =>
    obtain ⟨e, s⟩ := v
    cases e with
    | none => exact ⟨s, rfl⟩
    | some e => cases h

theorem bare_seen : seenOf (parsePPS 0 newParameterSets [0xCE, 0x38]) = some (none, some false) := by decide +kernel
theorem bare_zero : seenOf (parsePPS 0 newParameterSets [0xCE, 0x38, 0]) = some (some .unexpectedEOF, none) := by
  decide +kernel
theorem bare_more : seenOf (parsePPS 0 newParameterSets [0xCE, 0x38, 0xA0]) = some (none, some true) := by decide +kernel

/-- A picture parameter set that ends on the last bit of the data is taken. A byte behind it makes it be turned down or
be taken for another set, and this other set cut short is taken for the first. -/
theorem C145_pps_refuted : ∃ data b, TakenIn (parsePPS 0 newParameterSets data) ∧
    ¬ SurplusIgnored (parsePPS 0 newParameterSets) data ∧ TakenIn (parsePPS 0 newParameterSets (data ++ [b])) ∧
    ¬ CutSafe newParameterSets (parsePPS 0 newParameterSets) (data ++ [b]) := by
  refine ⟨[0xCE, 0x38], 0xA0, takenIn_of_seen bare_seen, fun h => ?_, takenIn_of_seen bare_more, fun h => ?_⟩
  · have := congrArg seenOf (h [0xA0])
    rw [bare_seen] at this
    exact absurd (bare_more.symm.trans this) (by decide)
  · rcases h 2 with ⟨e, h⟩ | h
    · have := congrArg seenOf h
      exact absurd (bare_seen.symm.trans this) (by simp [seenOf, Except.toOption])
    · have := congrArg seenOf h
      exact absurd (bare_seen.symm.trans (this.trans bare_more)) (by decide)

/-! The hypotheses are met: a Baseline set, and a High profile set followed by its trailing bits. -/

example : TakenIn (parseSPS newParameterSets [66, 0, 30, 0xF4, 0x0A, 0x0F, 0xC8]) := by
  rcases parseSPS_cases [66, 0, 30, 0xF4, 0x0A, 0x0F, 0xC8] with ⟨e, h⟩ | ⟨i, h⟩
  · have h1 : ((parseSPS newParameterSets [66, 0, 30, 0xF4, 0x0A, 0x0F, 0xC8]).toOption.map (·.1)) = some none := by
      decide +kernel
    rw [h newParameterSets] at h1
    cases h1
  · exact ⟨_, h _⟩

example : TakenIn (parsePPS 0 newParameterSets [0xCE, 0x38]) ∧ ¬ SurplusIgnored (parsePPS 0 newParameterSets) [0xCE, 0x38] ∧
    SurplusIgnored (parsePPS 0 newParameterSets) [0xCE, 0x38, 0xA0] := by
  refine ⟨takenIn_of_seen bare_seen, fun h => ?_, ?_⟩
  · have := congrArg seenOf (h [0xA0])
    rw [bare_seen] at this
    exact absurd (bare_more.symm.trans this) (by decide)
  · exact (C145_pps_iff _ _ _ (takenIn_of_seen bare_more)).2
      (takenIn_of_seen (b := some true) (by decide +kernel))

end Ouro
