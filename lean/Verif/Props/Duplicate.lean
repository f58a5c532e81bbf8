import Verif.Spec.Duplicate
import Verif.Props.Join
/-! # C144: payloads that arrive twice -/
namespace Ouro
open Spec

/-- How many units, and the error. -/
def shapeR (r : Except Panic (Option H264Err × List NALUnit)) : Except Panic (Option H264Err × Nat) :=
  match r with
  | .error p => .error p
  | .ok (e, us) => .ok (e, us.length)

theorem push_law (ts : Nat) (s s' : NALSink) (b : Bytes) : ∃ o, PushLaw s s' o (push s b ts) (push s' b ts) := by
  obtain ⟨nals, hb, hne, -⟩ := C14_split_sane b
  have := pushLoop_law (ts := ts) nals s s' fun e => absurd e hne
  refine ⟨unopened ts nals, ?_⟩
  unfold push
  rw [hb]
  exact this

theorem map_length {us us' : List NALUnit} (h : us.map unnumbered = us'.map unnumbered) : us.length = us'.length := by
  have := congrArg List.length h
  rwa [List.length_map, List.length_map] at this

/-- Two sinks that take the same payload: both panic, or both return the same error and as many units. -/
theorem push_shape (ts : Nat) (s s' : NALSink) (b : Bytes) : (∃ p, push s b ts = .error p ∧ push s' b ts = .error p) ∨
    ∃ e t t', push s b ts = .ok (e, t) ∧ push s' b ts = .ok (e, t') ∧ t.units.length = t'.units.length := by
  obtain ⟨o, h⟩ := push_law ts s s' b
  revert h
  generalize push s b ts = x
  generalize push s' b ts = y
  intro h
  cases h with
  | error p => exact .inl ⟨p, rfl, rfl⟩
  | whole e hu => exact .inr ⟨e, _, _, rfl, rfl, map_length hu⟩
  | start e hu => exact .inr ⟨e, _, _, rfl, rfl, map_length hu⟩
  | stop y u u' hu hu' => exact .inr ⟨none, _, _, rfl, rfl, by rw [hu, hu']; rfl⟩

theorem reports_shape (ps : List (Bytes × Nat)) : ∀ s s' : NALSink, (reports s ps).map shapeR = (reports s' ps).map shapeR := by
  induction ps with
  | nil => intro s s'; rfl
  | cons p ps ih =>
    obtain ⟨b, ts⟩ := p
    intro s s'
    rw [reports, reports]
    rcases push_shape ts s s' b with ⟨p, e1, e2⟩ | ⟨e, t, t', e1, e2, hl⟩
    · rw [e1, e2]
    · rw [e1, e2]
      dsimp only
      rw [List.map_cons, List.map_cons, ih t t']
      congr 1
      show Except.ok _ = Except.ok _
      rw [hl]

/-- What a user gets, in one list. -/
def gotAll (rs : List (Except Panic (Option H264Err × List NALUnit))) : List NALUnit := rs.flatMap fun r => match r with
    | .ok (_, us) => us.map unnumbered
    | .error _ => []

theorem gotAll_inj (rs : List (Except Panic (Option H264Err × List NALUnit))) : ∀ rs', rs.map shapeR = rs'.map shapeR →
    (gotAll rs = gotAll rs' ↔ rs.map unnumberedAll = rs'.map unnumberedAll) := by
  induction rs with
  | nil =>
    intro rs' h
    cases rs' with
    | nil => exact ⟨fun _ => rfl, fun _ => rfl⟩
    | cons r rs' => cases h
  | cons r rs ih =>
    intro rs' h
    cases rs' with
    | nil => cases h
    | cons r' rs' =>
      rw [List.map_cons, List.map_cons, List.cons.injEq] at h
      have hi := ih rs' h.2
      have h1 := h.1
      rw [List.map_cons, List.map_cons, List.cons.injEq, ← hi]
      show (_ :: rs).flatMap _ = (_ :: rs').flatMap _ ↔ _
      rw [List.flatMap_cons, List.flatMap_cons]
      rcases r with p | ⟨e, us⟩ <;> rcases r' with p' | ⟨e', us'⟩
      · injection h1 with h1; subst h1
        exact ⟨fun h => ⟨rfl, h⟩, fun h => h.2⟩
      · cases h1
      · cases h1
      · injection h1 with h1; injection h1 with h1 h2; subst h1
        show us.map unnumbered ++ gotAll rs = us'.map unnumbered ++ gotAll rs' ↔ (Except.ok (e, us.map unnumbered) = Except.ok (e, us'.map unnumbered) ∧ _)
        constructor
        · intro h
          obtain ⟨h3, h4⟩ := List.append_inj h (by rw [List.length_map, List.length_map, h2])
          exact ⟨by rw [h3], h4⟩
        · rintro ⟨h3, h4⟩
          injection h3 with h3; injection h3 with _ h3
          rw [h3, h4]

theorem gotAll_length (rs rs' : List (Except Panic (Option H264Err × List NALUnit))) (h : rs.map shapeR = rs'.map shapeR) : (gotAll rs).length = (gotAll rs').length := by
  have key : ∀ rs, (gotAll rs).length = ((rs.map shapeR).map fun r => match r with | .ok (_, k) => k | .error _ => 0).sum := by
    intro rs
    induction rs with
    | nil => rfl
    | cons r rs ih =>
      show (_ ++ gotAll rs).length = _
      rw [List.length_append, ih, List.map_cons, List.map_cons, List.sum_cons]
      rcases r with p | ⟨e, us⟩
      · rfl
      · show (us.map unnumbered).length + _ = us.length + _
        rw [List.length_map]
  rw [key, key, h]

theorem unitsGot_append (hs ps : List (Bytes × Nat)) : ∀ {s t : NALSink}, having s hs = .ok t → unitsGot s (hs ++ ps) = unitsGot s hs ++ unitsGot t ps := by
  induction hs with
  | nil => intro s t h; injection h with h; subst h; rfl
  | cons p hs ih =>
    obtain ⟨b, ts⟩ := p
    intro s t h
    rw [having] at h
    cases hp : push s b ts with
    | error q => rw [hp] at h; cases h
    | ok r =>
      obtain ⟨e, s'⟩ := r
      rw [hp] at h
      have := ih h
      unfold unitsGot at this ⊢
      rw [List.cons_append, reports, reports, hp]
      dsimp only
      rw [List.flatMap_cons, List.flatMap_cons, this, List.append_assoc]

theorem unitsGot_cons {s t : NALSink} {b : Bytes} {ts : Nat} {e : Option H264Err} (h : push s b ts = .ok (e, t)) (ps : List (Bytes × Nat)) :
    unitsGot s ((b, ts) :: ps) = t.units.map unnumbered ++ unitsGot t ps := by
  unfold unitsGot
  rw [reports, h]; rfl

/-- **C144**, exactly: a payload that arrives twice makes no difference just if it completes no unit, and the bytes of fragments that the sink keeps are the same after
the second time, or no unit ends later that does not start later. -/
theorem C144_iff {hist later : List (Bytes × Nat)} {b : Bytes} {ts : Nat} {s t t' : NALSink} {e e' : Option H264Err} (hs : having newNALSink hist = .ok s)
    (h1 : push s b ts = .ok (e, t)) (h2 : push t b ts = .ok (e', t')) :
    TwiceIsOnce hist (b, ts) later ↔ t.units = [] ∧ (keptBytes t' = keptBytes t ∨ ¬ Headless later) := by
  have hl : t'.units.length = t.units.length := by
    rcases push_shape ts s t b with ⟨p, e1, _⟩ | ⟨_, u, u', e1, e2, hl⟩
    · rw [h1] at e1; cases e1
    · rw [h1] at e1; rw [h2] at e2
      injection e1 with e1; injection e1 with _ e1; subst e1
      injection e2 with e2; injection e2 with _ e2; subst e2
      exact hl.symm
  unfold TwiceIsOnce
  rw [unitsGot_append hist _ hs, unitsGot_append hist _ hs, List.append_cancel_left_eq, unitsGot_cons h1, unitsGot_cons h1, List.append_cancel_left_eq, unitsGot_cons h2]
  have hsh := reports_shape later t' t
  constructor
  · intro h
    have hlen := congrArg List.length h
    rw [List.length_append, List.length_map, show (unitsGot t' later).length = (unitsGot t later).length from gotAll_length _ _ hsh] at hlen
    have h0 : t'.units = [] := List.length_eq_zero_iff.1 (by omega)
    refine ⟨List.length_eq_zero_iff.1 (by rw [← hl, h0]; rfl), ?_⟩
    rw [h0] at h
    exact (C137_exact later t' t).1 ((gotAll_inj _ _ hsh).1 h)
  · rintro ⟨h0, h⟩
    have h0' : t'.units = [] := List.length_eq_zero_iff.1 (by rw [hl, h0]; rfl)
    rw [h0']
    exact (gotAll_inj _ _ hsh).2 ((C137_exact later t' t).2 h)

/-- Where the payload panics there is no second time. -/
theorem C144_panic {hist later : List (Bytes × Nat)} {b : Bytes} {ts : Nat} {s : NALSink} {p : Panic} (hs : having newNALSink hist = .ok s) (h : push s b ts = .error p) :
    TwiceIsOnce hist (b, ts) later := by
  unfold TwiceIsOnce
  rw [unitsGot_append hist _ hs, unitsGot_append hist _ hs]
  unfold unitsGot
  rw [reports, reports, h]

/-- The end of a unit in fragments, without data. -/
def lastFragment : Bytes × Nat := ([0x7C, 0x45], 0)

theorem headless_last : Headless [lastFragment] := by
  unfold lastFragment
  rw [Headless, show splitAnnexB [0x7C, 0x45] = .ok [[0x7C, 0x45]] by decide +kernel]
  rfl

/-- Whatever comes later, it makes no difference just if the payload completes no unit and the second time leaves what is kept as it is. -/
theorem C144_always_iff {hist : List (Bytes × Nat)} {b : Bytes} {ts : Nat} {s t t' : NALSink} {e e' : Option H264Err} (hs : having newNALSink hist = .ok s)
    (h1 : push s b ts = .ok (e, t)) (h2 : push t b ts = .ok (e', t')) : (∀ later, TwiceIsOnce hist (b, ts) later) ↔ t.units = [] ∧ keptBytes t' = keptBytes t := by
  constructor
  · intro h
    obtain ⟨k1, k2⟩ := (C144_iff hs h1 h2).1 (h [lastFragment])
    exact ⟨k1, k2.resolve_right fun k => k headless_last⟩
  · exact fun ⟨k1, k2⟩ later => (C144_iff hs h1 h2).2 ⟨k1, .inl k2⟩

/-! ## The packets of RFC 6184 -/

/-- The payload is one packet. -/
theorem push_one {s : NALSink} {b : Bytes} {ts : Nat} (hb : splitAnnexB b = .ok [b]) : push s b ts =
    match parseNAL s b ts with
    | .error p => .error p
    | .ok (e, t) => .ok (e, t) := by
  unfold push
  rw [hb]
  dsimp only
  rw [pushLoop]
  cases h : parseNAL s b ts with
  | error p => rfl
  | ok r => obtain ⟨e, t⟩ := r; cases e <;> rfl

theorem fuA_push (s : NALSink) (i f : UInt8) (data : Bytes) (ts : Nat) (hi : i &&& 0x1F = 28) (hb : splitAnnexB (i :: f :: data) = .ok [i :: f :: data]) :
    push s (i :: f :: data) ts = .ok (none, addFragment { s with units := [] } ((i &&& 0x60) + (f &&& 0x1F)) f s.don ts data) := by
  rw [push_one hb]
  unfold parseNAL
  dsimp only
  rw [hi]
  have e1 : idx (i :: f :: data) 1 = .ok f := rfl
  have e2 : sliceFrom (i :: f :: data) 2 = .ok data := by unfold sliceFrom; rw [if_pos (by simp)]; rfl
  rw [e1, e2]
  rw [if_neg (by decide : ¬ ((28 : UInt8) == 24) = true), if_neg (by decide : ¬ ((28 : UInt8) == 25) = true),
    if_neg (by decide : ¬ ((28 : UInt8) == 26) = true), if_neg (by decide : ¬ ((28 : UInt8) == 27) = true), if_pos (by decide : ((28 : UInt8) == 28) = true),
    if_neg (by simp)]

/-- The first fragment of a unit: twice is once, whatever comes before and later. -/
theorem C144_start_partial {hist later : List (Bytes × Nat)} {s : NALSink} (hs : having newNALSink hist = .ok s) (i f : UInt8) (data : Bytes) (ts : Nat)
    (hi : i &&& 0x1F = 28) (hS : f &&& 0x80 ≠ 0) (hE : f &&& 0x40 = 0) (hb : splitAnnexB (i :: f :: data) = .ok [i :: f :: data]) :
    TwiceIsOnce hist (i :: f :: data, ts) later := by
  have h1 : (f &&& 0x80 != 0) = true := by simpa using hS
  have h2 : ¬ (f &&& 0x40 != 0) = true := by simpa using hE
  refine (C144_always_iff hs (fuA_push s i f data ts hi hb) (fuA_push _ i f data ts hi hb)).2 ?_ later
  simp only [addFragment, if_pos h1, if_neg h2]
  exact ⟨trivial, trivial⟩

/-- A fragment from the middle of a unit, with data: twice is once just if no unit ends later that does not start later. -/
theorem C144_middle_iff {hist later : List (Bytes × Nat)} {s : NALSink} (hs : having newNALSink hist = .ok s) (i f : UInt8) (data : Bytes) (ts : Nat)
    (hi : i &&& 0x1F = 28) (hS : f &&& 0x80 = 0) (hE : f &&& 0x40 = 0) (hd : data ≠ []) (hb : splitAnnexB (i :: f :: data) = .ok [i :: f :: data]) :
    TwiceIsOnce hist (i :: f :: data, ts) later ↔ ¬ Headless later := by
  have h1 : ¬ (f &&& 0x80 != 0) = true := by simpa using hS
  have h2 : ¬ (f &&& 0x40 != 0) = true := by simpa using hE
  rw [C144_iff hs (fuA_push s i f data ts hi hb) (fuA_push _ i f data ts hi hb)]
  simp only [addFragment, if_neg h1, if_neg h2]
  refine ⟨fun h => h.2.resolve_left fun e => ?_, fun h => ⟨trivial, .inr h⟩⟩
  have := congrArg List.length e
  simp only [keptBytes, List.flatMap_append, List.length_append, List.flatMap_cons, List.flatMap_nil, List.append_nil] at this
  exact hd (List.length_eq_zero_iff.1 (by omega))

/-- **C144** fails for every packet that completes a unit: the user gets more units than were sent. -/
theorem C144_unit_refuted {hist later : List (Bytes × Nat)} {b : Bytes} {ts : Nat} {s t : NALSink} {e : Option H264Err} (hs : having newNALSink hist = .ok s)
    (h1 : push s b ts = .ok (e, t)) (hu : t.units ≠ []) : ¬ TwiceIsOnce hist (b, ts) later := by
  rcases push_shape ts s t b with ⟨p, e1, _⟩ | ⟨e', u, u', e1, e2, _⟩
  · rw [h1] at e1; cases e1
  · exact fun h => hu ((C144_iff hs h1 e2).1 h).1

/-- A unit in three fragments; the second arrives twice: its bytes are in the unit twice. -/
theorem C144_refuted : unitsGot newNALSink [([0x7C, 0x85, 1], 0), ([0x7C, 0x05, 2], 0), ([0x7C, 0x45, 3], 0)] = [⟨0x65, 0, 0, [1, 2, 3]⟩] ∧
    unitsGot newNALSink [([0x7C, 0x85, 1], 0), ([0x7C, 0x05, 2], 0), ([0x7C, 0x05, 2], 0), ([0x7C, 0x45, 3], 0)] = [⟨0x65, 0, 0, [1, 2, 2, 3]⟩] := by
  decide +kernel

/-- A single unit that arrives twice is got twice. -/
example : unitsGot newNALSink [([0x65, 1], 0), ([0x65, 1], 0)] = [⟨0x65, 0, 0, [1]⟩, ⟨0x65, 0, 0, [1]⟩] := by decide +kernel

/-- Start fragments. -/
example : (0x7C : UInt8) &&& 0x1F = 28 ∧ (0x85 : UInt8) &&& 0x80 ≠ 0 ∧ (0x85 : UInt8) &&& 0x40 = 0 ∧ splitAnnexB [0x7C, 0x85, 1] = .ok [[0x7C, 0x85, 1]] ∧
    having newNALSink [([0x65, 1], 0)] = .ok { newNALSink with units := [⟨0x65, 0, 0, [1]⟩], don := 1 } := by decide +kernel

end Ouro
