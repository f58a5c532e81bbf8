import Verif.Props.Distance
/-! # C142: when a distance does not depend on the time of joining -/
namespace Ouro
open Spec

/-- A number that is counted from the first of the receiver, or one that is carried. -/
structure Tag where
  counted : Bool
  n : Nat

/-- The number, for a receiver whose next is `d`. -/
def Tag.at (d : Nat) (t : Tag) : Nat := if t.counted = true then (d + t.n) % 65536 else t.n

def tagR (d : Nat) (r : Go (Option H264Err × List Tag × Tag)) : Go (Option H264Err × List Nat × Nat) :=
  match r with
  | .error p => .error p
  | .ok (e, us, c) => .ok (e, us.map (Tag.at d), c.at d)

/-- The tags of a run from `c`. -/
def tagsOf (k : Bool) (r : Go (Option H264Err × NALSink)) : Go (Option H264Err × List Tag × Tag) :=
  match r with
  | .error p => .error p
  | .ok (e, s) => .ok (e, s.units.map (fun u => ⟨k, u.don⟩), ⟨k, s.don⟩)

theorem tagR_tagsOf (k : Bool) (d : Nat) (r : Go (Option H264Err × NALSink)) : tagR d (tagsOf k r) = numR (fun n => Tag.at d ⟨k, n⟩) r := by
  rcases r with p | ⟨e, s⟩
  · rfl
  · show Except.ok _ = Except.ok _
    rw [List.map_map]; rfl

theorem at_step (k : Bool) (d n : Nat) : Tag.at d ⟨k, u16 (n + 1)⟩ = u16 (Tag.at d ⟨k, n⟩ + 1) := by
  cases k
  · rfl
  · show (d + u16 (n + 1)) % 65536 = u16 ((d + n) % 65536 + 1)
    unfold u16; omega

theorem numR_tagR_inv {d : Nat} {r : Go (Option H264Err × NALSink)} {R : Go (Option H264Err × List Tag × Tag)} (h : numR id r = tagR d R) :
    (∃ p, r = .error p ∧ R = .error p) ∨ ∃ e t us c, r = .ok (e, t) ∧ R = .ok (e, us, c) ∧ t.units.map (fun u => u.don) = us.map (Tag.at d) ∧ t.don = c.at d := by
  rcases r with p | ⟨e, s⟩ <;> rcases R with p' | ⟨e', us, c⟩
  · injection h with h; exact .inl ⟨p, rfl, by rw [h]⟩
  · cases h
  · cases h
  · injection h with h; injection h with he h; injection h with h1 h2
    exact .inr ⟨e, s, us, c, rfl, by rw [he], h1, h2⟩

/-- All but FU-B. -/
theorem parseNAL_tags_main (n : Bytes) (ts : Nat) (c : Tag) (hn : ∀ h t, n = h :: t → h &&& 0x1F ≠ 29) :
    ∃ R, ∀ d (s : NALSink), s.don = c.at d → numR id (parseNAL s n ts) = tagR d R := by
  by_cases hc : carriesNumber n = false
  · refine ⟨tagsOf c.counted (parseNAL { newNALSink with don := c.n } n ts), fun d s hs => ?_⟩
    rw [tagR_tagsOf]
    exact (parseNAL_off (fun x => at_step c.counted d x) _ _ n ts (.inl hc) hs.symm).symm
  match n, hn, hc with
  | [], _, hc => exact absurd rfl hc
  | h :: t, hn, hc =>
    have h29 := hn h t rfl
    have ht : h &&& 0x1F = 25 ∨ h &&& 0x1F = 26 ∨ h &&& 0x1F = 27 := by
      rw [carriesNumber] at hc
      simp only [Bool.not_eq_false, Bool.or_eq_true, beq_iff_eq] at hc
      rcases hc with ((hc | hc) | hc) | hc
      · exact .inl hc
      · exact .inr (.inl hc)
      · exact .inr (.inr hc)
      · exact absurd hc h29
    by_cases hl : t.length < 2
    · refine ⟨.ok (some .packetTooShort, [], c), fun d s hs => ?_⟩
      have : parseNAL s (h :: t) ts = .ok (some .packetTooShort, { s with units := [] }) := by
        unfold parseNAL
        dsimp only
        rcases ht with e | e | e <;> rw [e]
        · show parseSTAP 25 _ _ _ = _
          unfold parseSTAP
          rw [if_pos (by decide : ((25 : UInt8) == 25) = true), if_pos hl]
        · show parseMTAP 26 _ _ _ = _
          unfold parseMTAP
          rw [if_pos hl]
        · show parseMTAP 27 _ _ _ = _
          unfold parseMTAP
          rw [if_pos hl]
      rw [this]
      show Except.ok _ = Except.ok _
      rw [← hs]; rfl
    · refine ⟨tagsOf false (parseNAL newNALSink (h :: t) ts), fun d s hs => ?_⟩
      rw [tagR_tagsOf]
      show _ = numR id _
      unfold parseNAL
      dsimp only
      rcases ht with e | e | e <;> rw [e]
      · exact parseSTAPB_off _ _ _ _ rfl rfl (.inr (by omega))
      · exact parseMTAP_off _ _ _ _ _ rfl rfl (.inr (by omega))
      · exact parseMTAP_off _ _ _ _ _ rfl rfl (.inr (by omega))

theorem addFragment_nums (s : NALSink) (hu : s.units = []) (i hd : UInt8) (don ts : Nat) (data : Bytes) :
    numR id (.ok (none, addFragment s i hd don ts data)) = .ok (none, (if (hd &&& 0x40 != 0) = true then [don] else []), s.don) := by
  unfold addFragment
  by_cases h : (hd &&& 0x40 != 0) = true
  · simp only [if_pos h]
    show Except.ok (none, (s.units ++ [_]).map _, s.don) = _
    rw [hu]; rfl
  · simp only [if_neg h]
    show Except.ok (none, s.units.map _, s.don) = _
    rw [hu]; rfl

theorem parseNAL_tags (n : Bytes) (ts : Nat) (c : Tag) : ∃ R, ∀ d (s : NALSink), s.don = c.at d → numR id (parseNAL s n ts) = tagR d R := by
  match n with
  | [] => exact parseNAL_tags_main [] ts c (fun _ _ h => by cases h)
  | b0 :: t =>
  by_cases h29 : b0 &&& 0x1F = 29
  · by_cases hl : (b0 :: t).length < 4
    · refine ⟨.ok (some .packetTooShort, [], c), fun d s hs => ?_⟩
      have : parseNAL s (b0 :: t) ts = .ok (some .packetTooShort, { s with units := [] }) := by
        unfold parseNAL
        dsimp only
        rw [h29]
        show (if (b0 :: t).length < 4 then _ else _) = _
        rw [if_pos hl]
      rw [this]
      show Except.ok _ = Except.ok _
      rw [← hs]; rfl
    · match t, hl with
      | [], hl => simp at hl
      | [_], hl => simp at hl
      | [_, _], hl => simp at hl
      | b1 :: x :: y :: data, hl =>
        obtain ⟨don, hdon⟩ : ∃ don, beU16 (x :: y :: data) = .ok don := ⟨_, rfl⟩
        refine ⟨.ok (none, (if (b1 &&& 0x40 != 0) = true then [⟨false, don⟩] else []), c), fun d s hs => ?_⟩
        have : parseNAL s (b0 :: b1 :: x :: y :: data) ts = .ok (none, addFragment { s with units := [] } ((b0 &&& 0x60) + (b1 &&& 0x1F)) b1 don ts data) := by
          unfold parseNAL
          dsimp only
          rw [h29]
          have e1 : idx (b0 :: b1 :: x :: y :: data) 1 = .ok b1 := rfl
          have e2 : sliceFrom (b0 :: b1 :: x :: y :: data) 2 = .ok (x :: y :: data) := by unfold sliceFrom; rw [if_pos (by simp)]; rfl
          have e3 : sliceFrom (b0 :: b1 :: x :: y :: data) 4 = .ok data := by unfold sliceFrom; rw [if_pos (by simp)]; rfl
          rw [e1, e2, e3, if_neg (by decide : ¬ ((29 : UInt8) == 24) = true), if_neg (by decide : ¬ ((29 : UInt8) == 25) = true),
            if_neg (by decide : ¬ ((29 : UInt8) == 26) = true), if_neg (by decide : ¬ ((29 : UInt8) == 27) = true),
            if_neg (by decide : ¬ ((29 : UInt8) == 28) = true), if_pos (by decide : ((29 : UInt8) == 29) = true), if_neg hl]
          dsimp only
          rw [hdon]
        rw [this, addFragment_nums _ rfl]
        show Except.ok _ = Except.ok _
        rw [← hs]
        split <;> rfl
  · exact parseNAL_tags_main _ ts c (fun h t' e => by injection e with e _; rw [← e]; exact h29)

theorem pushLoop_tags (ts : Nat) (nals : List Bytes) : ∀ (c : Tag) (us : List Tag), ∃ R, ∀ d (s : NALSink), s.don = c.at d →
    s.units.map (fun u => u.don) = us.map (Tag.at d) → numR id (pushLoop s ts nals) = tagR d R := by
  induction nals with
  | nil =>
    intro c us
    refine ⟨.ok (none, us, c), fun d s hs hu => ?_⟩
    show Except.ok _ = Except.ok _
    rw [← hs, ← hu]; rfl
  | cons n nals ih =>
    intro c us
    obtain ⟨R, hR⟩ := parseNAL_tags n ts c
    cases R with
    | error p =>
      refine ⟨.error p, fun d s hs hu => ?_⟩
      rcases numR_tagR_inv (hR d s hs) with ⟨q, e1, e2⟩ | ⟨e, t, us, c, e1, e2, -⟩
      · injection e2 with e2; subst e2
        rw [pushLoop, e1]; rfl
      · cases e2
    | ok r =>
      obtain ⟨e, us', c'⟩ := r
      cases e with
      | some e =>
        refine ⟨.ok (some e, us', c'), fun d s hs hu => ?_⟩
        have h := hR d s hs
        rcases numR_tagR_inv h with ⟨q, e1, e2⟩ | ⟨e', t, us1, c1, e1, e2, h1, h2⟩
        · cases e2
        · injection e2 with e2; injection e2 with e2 e3; subst e2
          rw [pushLoop, e1]
          rw [e1] at h
          exact h
      | none =>
        obtain ⟨R', hR'⟩ := ih c' us'
        refine ⟨R', fun d s hs hu => ?_⟩
        rcases numR_tagR_inv (hR d s hs) with ⟨q, e1, e2⟩ | ⟨e', t, us1, c1, e1, e2, h1, h2⟩
        · cases e2
        · injection e2 with e2; injection e2 with e2 e3; subst e2; injection e3 with e3 e4; subst e3; subst e4
          rw [pushLoop, e1]
          exact hR' d t h2 h1

theorem push_tags (b : Bytes) (ts : Nat) (c : Tag) : ∃ R, ∀ d (s : NALSink), s.don = c.at d → numR id (push s b ts) = tagR d R := by
  obtain ⟨nals, hb, hne, -⟩ := C14_split_sane b
  obtain ⟨R, hR⟩ := pushLoop_tags ts nals c []
  refine ⟨R, fun d s hs => ?_⟩
  rw [← hR d { s with units := [] } hs rfl]
  unfold push
  rw [hb]
  cases nals with
  | nil => exact absurd rfl hne
  | cons n nals => rfl

theorem numbers_tags (ps : List (Bytes × Nat)) : ∀ c : Tag, ∃ o : List Tag, ∀ d (s : NALSink), s.don = c.at d → numbersOf s ps = o.map (Tag.at d) := by
  induction ps with
  | nil => intro c; exact ⟨[], fun _ _ _ => rfl⟩
  | cons p ps ih =>
    obtain ⟨b, ts⟩ := p
    intro c
    obtain ⟨R, hR⟩ := push_tags b ts c
    cases R with
    | error p =>
      refine ⟨[], fun d s hs => ?_⟩
      rcases numR_tagR_inv (hR d s hs) with ⟨q, e1, e2⟩ | ⟨e, t, us, c, e1, e2, -⟩
      · unfold numbersOf
        rw [reports, e1]; rfl
      · cases e2
    | ok r =>
      obtain ⟨e, us, c'⟩ := r
      obtain ⟨o, ho⟩ := ih c'
      refine ⟨us ++ o, fun d s hs => ?_⟩
      rcases numR_tagR_inv (hR d s hs) with ⟨q, e1, e2⟩ | ⟨e', t, us1, c1, e1, e2, h1, h2⟩
      · cases e2
      · injection e2 with e2; injection e2 with e2 e3; subst e2; injection e3 with e3 e4; subst e3; subst e4
        have := ho d t h2
        unfold numbersOf at this ⊢
        rw [reports, e1]
        dsimp only
        rw [List.flatMap_cons, List.map_append, this]
        congr 1

/-- A receiver that has got `k` units. -/
theorem having_lone (k : Nat) : ∀ s : NALSink, s.don < 65536 → ∃ t, having s (List.replicate k (loneUnit, 0)) = .ok t ∧ t.don = (s.don + k) % 65536 := by
  induction k with
  | zero => intro s hs; exact ⟨s, rfl, by omega⟩
  | succ k ih =>
    intro s hs
    have hp : push s loneUnit 0 = .ok (none, { s with units := [{ header := 0x01, don := s.don, ts := 0, data := [] }], don := u16 (s.don + 1) }) := by
      unfold push
      rw [show splitAnnexB loneUnit = .ok [loneUnit] by decide +kernel]
      rfl
    obtain ⟨t, ht, hd⟩ := ih { s with units := [{ header := 0x01, don := s.don, ts := 0, data := [] }], don := u16 (s.don + 1) } (by show u16 _ < _; unfold u16; omega)
    refine ⟨t, ?_, ?_⟩
    · rw [List.replicate_succ, having, hp]; exact ht
    · rw [hd]
      show (u16 (s.don + 1) + k) % 65536 = _
      unfold u16; omega

/-- The numbers of a stream, for all receivers. -/
theorem numberAt_tags (ps : List (Bytes × Nat)) : ∃ o : List Tag, (∀ hist i n, numberAt hist ps i = some n → ∃ d t, o[i]? = some t ∧ n = Tag.at d t ∧
      ∀ j m, numberAt hist ps j = some m → ∃ t', o[j]? = some t' ∧ m = Tag.at d t') ∧
    (∀ k, ∃ hist, ∀ i, numberAt hist ps i = (o[i]?).map (Tag.at (k % 65536))) ∧ ∀ i, numberAt [] ps i = (o[i]?).map (Tag.at 0) := by
  obtain ⟨o, ho⟩ := numbers_tags ps ⟨true, 0⟩
  have key : ∀ hist s, having newNALSink hist = .ok s → ∀ i, numberAt hist ps i = (o[i]?).map (Tag.at s.don) := by
    intro hist s hs i
    have hd : s.don < 65536 := having_don hist (by decide) hs
    unfold numberAt
    rw [hs]
    dsimp only
    rw [ho s.don s (by show s.don = (s.don + 0) % 65536; omega), List.getElem?_map]
  refine ⟨o, ?_, ?_, ?_⟩
  · intro hist i n h
    cases hs : having newNALSink hist with
    | error p => unfold numberAt at h; rw [hs] at h; cases h
    | ok s =>
      rw [key hist s hs] at h
      obtain ⟨t, ht, rfl⟩ := Option.map_eq_some_iff.1 h
      refine ⟨s.don, t, ht, rfl, fun j m hm => ?_⟩
      rw [key hist s hs] at hm
      obtain ⟨t', ht', rfl⟩ := Option.map_eq_some_iff.1 hm
      exact ⟨t', ht', rfl⟩
  · intro k
    obtain ⟨t, ht, hd⟩ := having_lone k newNALSink (by decide)
    refine ⟨List.replicate k (loneUnit, 0), fun i => ?_⟩
    rw [key _ t ht i, hd, show newNALSink.don + k = k from Nat.zero_add k]
  · exact key [] newNALSink rfl

theorem joinFree_iff {ps : List (Bytes × Nat)} {o : List Tag} (h1 : ∀ hist i n, numberAt hist ps i = some n → ∃ d t, o[i]? = some t ∧ n = Tag.at d t ∧
      ∀ j m, numberAt hist ps j = some m → ∃ t', o[j]? = some t' ∧ m = Tag.at d t')
    (h2 : ∀ k, ∃ hist, ∀ i, numberAt hist ps i = (o[i]?).map (Tag.at (k % 65536))) {i : Nat} {t : Tag} (ht : o[i]? = some t) : JoinFree ps i ↔ t.counted = false := by
  constructor
  · intro h
    obtain ⟨k, n⟩ := t
    cases k with
    | false => rfl
    | true =>
      exfalso
      obtain ⟨x, hx⟩ := h2 0
      obtain ⟨y, hy⟩ := h2 1
      have := h x y _ _ (by rw [hx, ht]; rfl) (by rw [hy, ht]; rfl)
      change (0 + n) % 65536 = (1 + n) % 65536 at this
      omega
  · intro hc x y n n' hn hn'
    obtain ⟨d, u, hu, rfl, -⟩ := h1 x i n hn
    obtain ⟨d', u', hu', rfl, -⟩ := h1 y i n' hn'
    rw [ht] at hu hu'
    injection hu with hu; injection hu' with hu'
    subst hu; subst hu'
    unfold Tag.at
    rw [hc]; rfl

/-- **C142**, exactly: the distance of two units of any stream is the same for all receivers just if the numbers of both depend on the time of joining, or of none;
and, if of both, they are not half of the range apart. -/
theorem C142_iff {ps : List (Bytes × Nat)} {i j a b : Nat} (hi : numberAt [] ps i = some a) (hj : numberAt [] ps j = some b) :
    DistanceFree ps i j ↔ (JoinFree ps i ↔ JoinFree ps j) ∧ ¬ (¬ JoinFree ps i ∧ HalfApart ps i j) := by
  obtain ⟨o, h1, h2, h3⟩ := numberAt_tags ps
  obtain ⟨t, ht, ha⟩ := Option.map_eq_some_iff.1 ((h3 i).symm.trans hi)
  obtain ⟨t', ht', hb⟩ := Option.map_eq_some_iff.1 ((h3 j).symm.trans hj)
  have hf : HalfApart ps i j ↔ (b + 65536 - a) % 65536 = 32768 :=
    ⟨fun ⟨x, y, hx, hy, e⟩ => by rw [hi] at hx; rw [hj] at hy; injection hx with hx; injection hy with hy; rw [hx, hy]; exact e, fun e => ⟨a, b, hi, hj, e⟩⟩
  rw [joinFree_iff h1 h2 ht, joinFree_iff h1 h2 ht', hf]
  have hD : DistanceFree ps i j ↔ ∀ d d', donDiff (t.at (d % 65536)) (t'.at (d % 65536)) = donDiff (t.at (d' % 65536)) (t'.at (d' % 65536)) := by
    constructor
    · intro h d d'
      obtain ⟨x, hx⟩ := h2 d
      obtain ⟨y, hy⟩ := h2 d'
      exact h x y _ _ _ _ (by rw [hx, ht]; rfl) (by rw [hx, ht']; rfl) (by rw [hy, ht]; rfl) (by rw [hy, ht']; rfl)
    · intro h x y a b a' b' e1 e2 e3 e4
      obtain ⟨d, u, hu, rfl, hd⟩ := h1 x i a e1
      obtain ⟨v, hv, rfl⟩ := hd j b e2
      obtain ⟨d', u', hu', rfl, hd'⟩ := h1 y i a' e3
      obtain ⟨v', hv', rfl⟩ := hd' j b' e4
      rw [ht] at hu hu'; rw [ht'] at hv hv'
      injection hu with hu; injection hu' with hu'; injection hv with hv; injection hv' with hv'
      subst hu; subst hu'; subst hv; subst hv'
      have hmod : ∀ (t : Tag) d, t.at (d % 65536) = t.at d := fun t d => by
        unfold Tag.at
        split
        · omega
        · rfl
      have := h d d'
      rw [hmod, hmod, hmod, hmod] at this
      exact this
  rw [hD]
  obtain ⟨k, n⟩ := t
  obtain ⟨k', n'⟩ := t'
  subst ha; subst hb
  cases k <;> cases k'
  · refine ⟨fun _ => ⟨⟨fun _ => rfl, fun _ => rfl⟩, fun h => h.1 rfl⟩, fun _ d d' => rfl⟩
  · refine ⟨fun h => ?_, fun h => absurd (h.1.1 rfl) (by simp)⟩
    exfalso
    have := h (65536 - n' % 65536) (65537 - n' % 65536)
    change donDiff n ((_ % 65536 + n') % 65536) = donDiff n ((_ % 65536 + n') % 65536) at this
    rw [show ((65536 - n' % 65536) % 65536 + n') % 65536 = 0 by omega, show ((65537 - n' % 65536) % 65536 + n') % 65536 = 1 by omega] at this
    unfold donDiff at this
    dsimp only at this
    split at this <;> split at this <;> (try split at this) <;> (try split at this) <;> omega
  · refine ⟨fun h => ?_, fun h => absurd (h.1.2 rfl) (by simp)⟩
    exfalso
    have := h (65536 - n % 65536) (65537 - n % 65536)
    change donDiff ((_ % 65536 + n) % 65536) n' = donDiff ((_ % 65536 + n) % 65536) n' at this
    rw [show ((65536 - n % 65536) % 65536 + n) % 65536 = 0 by omega, show ((65537 - n % 65536) % 65536 + n) % 65536 = 1 by omega] at this
    unfold donDiff at this
    dsimp only at this
    split at this <;> split at this <;> (try split at this) <;> (try split at this) <;> omega
  · show _ ↔ _ ∧ ¬ (_ ∧ ((0 + n') % 65536 + 65536 - (0 + n) % 65536) % 65536 = 32768)
    constructor
    · intro h
      refine ⟨Iff.rfl, fun hh => ?_⟩
      have := h (65536 - n % 65536) (65536 + 32768 - n % 65536)
      change donDiff ((_ % 65536 + n) % 65536) ((_ % 65536 + n') % 65536) = donDiff ((_ % 65536 + n) % 65536) ((_ % 65536 + n') % 65536) at this
      have hh := hh.2
      rw [show ((65536 - n % 65536) % 65536 + n) % 65536 = 0 by omega, show ((65536 + 32768 - n % 65536) % 65536 + n) % 65536 = 32768 by omega,
        show ((65536 - n % 65536) % 65536 + n') % 65536 = 32768 by omega, show ((65536 + 32768 - n % 65536) % 65536 + n') % 65536 = 0 by omega] at this
      exact absurd this (by decide)
    · intro h d d'
      have hh : ((0 + n') % 65536 + 65536 - (0 + n) % 65536) % 65536 ≠ 32768 := fun e => h.2 ⟨by simp, e⟩
      show donDiff ((_ + n) % 65536) ((_ + n') % 65536) = donDiff ((_ + n) % 65536) ((_ + n') % 65536)
      have same : ∀ x, x < 65536 → donDiff ((x + n) % 65536) ((x + n') % 65536) = donDiff (n % 65536) (n' % 65536) := fun x hx => by
        unfold donDiff
        dsimp only
        split <;> split <;> (try split) <;> (try split) <;> omega
      rw [same _ (by omega), same _ (by omega)]

/-- A unit, then a STAP-B packet with one: there are both sorts of numbers, and the distance depends on the time of joining. -/
example : numberAt [] [(loneUnit, 0), (setTo39999, 0)] 0 = some 0 ∧ numberAt [] [(loneUnit, 0), (setTo39999, 0)] 1 = some 39999 ∧
    numberAt [(setTo39999, 0)] [(loneUnit, 0), (setTo39999, 0)] 0 = some 40000 ∧ ¬ DistanceFree [(loneUnit, 0), (setTo39999, 0)] 0 1 := by
  have h : ∀ i, numberAt [] [(loneUnit, 0), (setTo39999, 0)] i = [0, 39999][i]? := fun i => by
    show (numbersOf newNALSink _)[i]? = _
    rw [numbers_pair]; rfl
  have h' : ∀ i, numberAt [(setTo39999, 0)] [(loneUnit, 0), (setTo39999, 0)] i = [40000, 39999][i]? := fun i => by
    unfold numberAt
    rw [having_39999]
    show (numbersOf after39999 _)[i]? = _
    rw [numbers_pair]; rfl
  refine ⟨h 0, h 1, h' 0, fun hd => ?_⟩
  exact absurd (hd [] [(setTo39999, 0)] _ _ _ _ (h 0) (h 1) (h' 0) (h' 1)) (by decide)

end Ouro
