import Verif.Spec.Join
import Verif.Props.Nal
import Verif.Props.AnnexB
/-! # C137: joining a stream in the middle -/
namespace Ouro
open Spec

/-- Two sinks with the same units but for numbers, and the same fragments as before. -/
structure Kindred (s s' t t' : NALSink) : Prop where
  units : t.units.map unnumbered = t'.units.map unnumbered
  kept : t.fragments = s.fragments
  kept' : t'.fragments = s'.fragments

inductive KindredR (s s' : NALSink) : Go (Option H264Err × NALSink) → Go (Option H264Err × NALSink) → Prop
  | ok {t t' : NALSink} (e : Option H264Err) (h : Kindred s s' t t') : KindredR s s' (.ok (e, t)) (.ok (e, t'))
  | error (p : Panic) : KindredR s s' (.error p) (.error p)

variable {ts : Nat} {r r' : NALSink}

theorem Kindred.unit {s s' : NALSink} (h : Kindred r r' s s') (hd : UInt8) (don don' t : Nat) (data : Bytes) (n n' : Nat) :
    Kindred r r' { s with units := s.units ++ [{ header := hd, don := don, ts := t, data := data }], don := n }
      { s' with units := s'.units ++ [{ header := hd, don := don', ts := t, data := data }], don := n' } := by
  refine ⟨?_, h.kept, h.kept'⟩
  show (s.units ++ _).map _ = (s'.units ++ _).map _
  rw [List.map_append, List.map_append, h.units]
  rfl

theorem stapLoop_kin (fuel : Nat) : ∀ (s s' : NALSink) (buf : Bytes), Kindred r r' s s' → KindredR r r' (stapLoop fuel s buf ts) (stapLoop fuel s' buf ts) := by
  induction fuel with
  | zero => intro s s' buf h; exact .error _
  | succ fuel ih =>
    intro s s' buf h
    rw [stapLoop, stapLoop]
    by_cases h0 : buf.length < 2
    · rw [if_pos h0, if_pos h0]; exact .ok _ h
    rw [if_neg h0, if_neg h0]
    cases beU16 buf with
    | error p => exact .error _
    | ok size =>
      dsimp only
      by_cases h1 : buf.length < u16 (size + 2)
      · rw [if_pos h1, if_pos h1]; exact .ok _ h
      rw [if_neg h1, if_neg h1]
      cases idx buf 2 with
      | error p => exact .error _
      | ok hd =>
        dsimp only
        cases slice buf 3 (u16 (size + 2)) with
        | error p => exact .error _
        | ok d =>
          dsimp only
          cases sliceFrom buf (u16 (size + 2)) with
          | error p => exact .error _
          | ok rest => exact ih _ _ rest (h.unit hd _ _ _ d _ _)

theorem parseSTAP_kin (typ : UInt8) (s s' : NALSink) (buf : Bytes) (h : Kindred r r' s s') : KindredR r r' (parseSTAP typ s buf ts) (parseSTAP typ s' buf ts) := by
  unfold parseSTAP
  split
  · by_cases h0 : buf.length < 2
    · rw [if_pos h0, if_pos h0]; exact .ok _ h
    rw [if_neg h0, if_neg h0]
    cases beU16 buf with
    | error p => exact .error _
    | ok don =>
      dsimp only
      cases sliceFrom buf 2 with
      | error p => exact .error _
      | ok rest => exact stapLoop_kin _ _ _ _ ⟨h.units, h.kept, h.kept'⟩
  · exact stapLoop_kin _ _ _ _ h

theorem mtapLoop_kin (typ : UInt8) (off : Nat) (fuel : Nat) : ∀ (s s' : NALSink) (buf : Bytes), Kindred r r' s s' →
    KindredR r r' (mtapLoop fuel typ off s buf ts) (mtapLoop fuel typ off s' buf ts) := by
  induction fuel with
  | zero => intro s s' buf h; exact .error _
  | succ fuel ih =>
    intro s s' buf h
    rw [mtapLoop, mtapLoop]
    by_cases h0 : buf.length < off
    · rw [if_pos h0, if_pos h0]; exact .ok _ h
    rw [if_neg h0, if_neg h0]
    cases beU16 buf with
    | error p => exact .error _
    | ok size =>
    cases idx buf 2 with
    | error p => exact .error _
    | ok dond =>
    cases idx buf 3 with
    | error p => exact .error _
    | ok t1 =>
    cases idx buf 4 with
    | error p => exact .error _
    | ok t2 =>
      dsimp only
      generalize (if typ == 27 then _ else _ : Go Nat) = x
      cases x with
      | error p => exact .error _
      | ok tsoff =>
        dsimp only
        by_cases h1 : buf.length < u16 (size + off)
        · rw [if_pos h1, if_pos h1]; exact .ok _ h
        rw [if_neg h1, if_neg h1]
        cases idx buf off with
        | error p => exact .error _
        | ok hd =>
          dsimp only
          cases slice buf (u16 (off + 1)) (u16 (size + off)) with
          | error p => exact .error _
          | ok d =>
            dsimp only
            cases sliceFrom buf (u16 (size + off)) with
            | error p => exact .error _
            | ok rest => exact ih _ _ rest (h.unit hd _ _ _ d _ _)

theorem parseMTAP_kin (typ : UInt8) (s s' : NALSink) (buf : Bytes) (h : Kindred r r' s s') : KindredR r r' (parseMTAP typ s buf ts) (parseMTAP typ s' buf ts) := by
  unfold parseMTAP
  by_cases h0 : buf.length < 2
  · rw [if_pos h0, if_pos h0]; exact .ok _ h
  rw [if_neg h0, if_neg h0]
  cases beU16 buf with
  | error p => exact .error _
  | ok don =>
    dsimp only
    cases sliceFrom buf 2 with
    | error p => exact .error _
    | ok rest => exact mtapLoop_kin typ _ _ _ _ _ ⟨h.units, h.kept, h.kept'⟩

/-- What a part of a payload does to two sinks. -/
inductive NalLaw (n : Bytes) (s s' : NALSink) : Go (Option H264Err × NALSink) → Go (Option H264Err × NALSink) → Prop
  | error (p : Panic) (ho : opens n = false) (hc : closes n = false) : NalLaw n s s' (.error p) (.error p)
  | whole {t t' : NALSink} (e : Option H264Err) (ho : opens n = false) (hc : closes n = false) (hu : t.units.map unnumbered = t'.units.map unnumbered) (y : Bytes)
      (hk : keptBytes t = keptBytes s ++ y) (hk' : keptBytes t' = keptBytes s' ++ y) : NalLaw n s s' (.ok (e, t)) (.ok (e, t'))
  | start {t t' : NALSink} (ho : opens n = true) (hu : t.units.map unnumbered = t'.units.map unnumbered) (hk : keptBytes t = keptBytes t') :
      NalLaw n s s' (.ok (none, t)) (.ok (none, t'))
  | stop {t t' : NALSink} (ho : opens n = false) (hc : closes n = true) (y : Bytes) (hk : keptBytes t = keptBytes s ++ y) (hk' : keptBytes t' = keptBytes s' ++ y)
      (u u' : NALUnit) (hu : t.units = [u]) (hu' : t'.units = [u']) (hd : u.data = keptBytes t) (hd' : u'.data = keptBytes t')
      (hh : { unnumbered u with data := [] } = { unnumbered u' with data := [] }) : NalLaw n s s' (.ok (none, t)) (.ok (none, t'))

theorem KindredR.law {s s' : NALSink} {n : Bytes} {x x' : Go (Option H264Err × NALSink)} (h : KindredR s s' x x') (hn : isFragment n = false) : NalLaw n s s' x x' := by
  have ho : opens n = false := by simp [opens, hn]
  have hc : closes n = false := by simp [closes, hn]
  cases h with
  | error p => exact .error p ho hc
  | ok e h => exact .whole e ho hc h.units [] (by simp [keptBytes, h.kept]) (by simp [keptBytes, h.kept'])

theorem addFragment_law (s s' : NALSink) (n : Bytes) (f : UInt8) (hn : isFragment n = true) (hf : n.getD 1 0 = f) (i : UInt8) (don don' : Nat) (data : Bytes) :
    NalLaw n s s' (.ok (none, addFragment { s with units := [] } i f don ts data)) (.ok (none, addFragment { s' with units := [] } i f don' ts data)) := by
  have ho : opens n = (f &&& 0x80 != 0) := by rw [opens, hn, hf, Bool.true_and]
  have hc : closes n = (f &&& 0x40 != 0) := by rw [closes, hn, hf, Bool.true_and]
  by_cases h1 : (f &&& 0x80 != 0) = true
  · refine .start (by rw [ho, h1]) ?_ ?_
    · unfold addFragment
      by_cases h2 : (f &&& 0x40 != 0) = true
      · simp only [if_pos h1, if_pos h2]; simp [unnumbered]
      · simp only [if_pos h1, if_neg h2]
    · unfold addFragment
      by_cases h2 : (f &&& 0x40 != 0) = true
      · simp only [if_pos h1, if_pos h2]; simp [keptBytes]
      · simp only [if_pos h1, if_neg h2]; simp [keptBytes]
  · by_cases h2 : (f &&& 0x40 != 0) = true
    · refine .stop (u := { header := i, don := don, ts := ts, data := keptBytes s ++ data })
        (u' := { header := i, don := don', ts := ts, data := keptBytes s' ++ data }) (by rw [ho]; simpa using h1) (by rw [hc, h2]) data ?_ ?_ ?_ ?_ ?_ ?_ rfl
      · simp only [addFragment, if_neg h1, if_pos h2]; simp [keptBytes]
      · simp only [addFragment, if_neg h1, if_pos h2]; simp [keptBytes]
      · simp only [addFragment, if_neg h1, if_pos h2]; simp [keptBytes]
      · simp only [addFragment, if_neg h1, if_pos h2]; simp [keptBytes]
      · simp only [addFragment, if_neg h1, if_pos h2]; simp [keptBytes]
      · simp only [addFragment, if_neg h1, if_pos h2]; simp [keptBytes]
    · refine .whole none (by rw [ho]; simpa using h1) (by rw [hc]; simpa using h2) ?_ data ?_ ?_
      · simp only [addFragment, if_neg h1, if_neg h2]
      · simp only [addFragment, if_neg h1, if_neg h2]; simp [keptBytes]
      · simp only [addFragment, if_neg h1, if_neg h2]; simp [keptBytes]

theorem parseNAL_law (s s' : NALSink) (n : Bytes) : NalLaw n s s' (parseNAL s n ts) (parseNAL s' n ts) := by
  have h1 : Kindred s s' { s with units := [] } { s' with units := [] } := ⟨rfl, rfl, rfl⟩
  have other : ∀ b0 rest, b0 &&& 0x1F ≠ 28 → b0 &&& 0x1F ≠ 29 → isFragment (b0 :: rest) = false := by
    intro b0 rest a b
    cases rest with
    | nil => rfl
    | cons x t => simp [isFragment, a, b]
  unfold parseNAL
  dsimp only
  cases n with
  | nil => exact (KindredR.ok _ h1).law rfl
  | cons b0 rest =>
    dsimp only
    by_cases e24 : (b0 &&& 0x1F == 24) = true
    · rw [if_pos e24, if_pos e24]
      exact (parseSTAP_kin _ _ _ _ h1).law (other _ _ (by rw [eq_of_beq e24]; decide) (by rw [eq_of_beq e24]; decide))
    rw [if_neg e24, if_neg e24]
    by_cases e25 : (b0 &&& 0x1F == 25) = true
    · rw [if_pos e25, if_pos e25]
      exact (parseSTAP_kin _ _ _ _ h1).law (other _ _ (by rw [eq_of_beq e25]; decide) (by rw [eq_of_beq e25]; decide))
    rw [if_neg e25, if_neg e25]
    by_cases e26 : (b0 &&& 0x1F == 26) = true
    · rw [if_pos e26, if_pos e26]
      exact (parseMTAP_kin _ _ _ _ h1).law (other _ _ (by rw [eq_of_beq e26]; decide) (by rw [eq_of_beq e26]; decide))
    rw [if_neg e26, if_neg e26]
    by_cases e27 : (b0 &&& 0x1F == 27) = true
    · rw [if_pos e27, if_pos e27]
      exact (parseMTAP_kin _ _ _ _ h1).law (other _ _ (by rw [eq_of_beq e27]; decide) (by rw [eq_of_beq e27]; decide))
    rw [if_neg e27, if_neg e27]
    by_cases e28 : (b0 &&& 0x1F == 28) = true
    · rw [if_pos e28, if_pos e28]
      cases rest with
      | nil => exact (KindredR.ok _ h1).law rfl
      | cons f t =>
        rw [if_neg (by simp), if_neg (by simp)]
        exact addFragment_law s s' (b0 :: f :: t) f (by simp only [isFragment, e28, Bool.true_or]) rfl _ _ _ _
    rw [if_neg e28, if_neg e28]
    by_cases e29 : (b0 &&& 0x1F == 29) = true
    · rw [if_pos e29, if_pos e29]
      rcases rest with _ | ⟨f, _ | ⟨x, _ | ⟨y, u⟩⟩⟩
      · exact (KindredR.ok _ h1).law rfl
      · exact (KindredR.ok _ h1).law (by simp [isFragment, eq_of_beq e29])
      · exact (KindredR.ok _ h1).law (by simp [isFragment, eq_of_beq e29])
      · rw [if_neg (by simp), if_neg (by simp)]
        exact addFragment_law s s' (b0 :: f :: x :: y :: u) f (by simp [isFragment, eq_of_beq e29]) rfl _ _ _ _
    rw [if_neg e29, if_neg e29]
    exact (KindredR.ok _ (h1.unit b0 _ _ _ rest _ _)).law (other _ _ (by simpa using e28) (by simpa using e29))

/-- Two sinks with the same bytes of fragments show the same. -/
inductive Alongside : Go (Option H264Err × NALSink) → Go (Option H264Err × NALSink) → Prop
  | error (p : Panic) : Alongside (.error p) (.error p)
  | ok {t t' : NALSink} (e : Option H264Err) (hu : t.units.map unnumbered = t'.units.map unnumbered) (hk : keptBytes t = keptBytes t') : Alongside (.ok (e, t)) (.ok (e, t'))

theorem unit_ext {u u' : NALUnit} (h : { unnumbered u with data := [] } = { unnumbered u' with data := [] }) (hd : u.data = u'.data) : unnumbered u = unnumbered u' := by
  cases u; cases u'
  simp only [unnumbered, NALUnit.mk.injEq] at h hd ⊢
  exact ⟨h.1, h.2.1, h.2.2.1, hd⟩

theorem NalLaw.alongside {n : Bytes} {s s' : NALSink} {x x' : Go (Option H264Err × NALSink)} (h : NalLaw n s s' x x') (hk : keptBytes s = keptBytes s') : Alongside x x' := by
  cases h with
  | error p => exact .error p
  | whole e _ _ hu y k k' => exact .ok e hu (by rw [k, k', hk])
  | start _ hu k => exact .ok _ hu k
  | stop _ _ y k k' u u' hu hu' hd hd' hh =>
    have hkk := k.trans ((congrArg (· ++ y) hk).trans k'.symm)
    refine .ok _ ?_ hkk
    rw [hu, hu', List.map_cons, List.map_cons, unit_ext hh (by rw [hd, hd', hkk])]

theorem pushLoop_alongside (nals : List Bytes) : ∀ s s' : NALSink, keptBytes s = keptBytes s' → (nals = [] → s.units.map unnumbered = s'.units.map unnumbered) →
    Alongside (pushLoop s ts nals) (pushLoop s' ts nals) := by
  induction nals with
  | nil => intro s s' h hu; exact .ok _ (hu rfl) h
  | cons n nals ih =>
    intro s s' h _
    have hn := (parseNAL_law (ts := ts) s s' n).alongside h
    rw [pushLoop, pushLoop]
    revert hn
    generalize parseNAL s n ts = x
    generalize parseNAL s' n ts = y
    intro hn
    cases hn with
    | error p => exact .error p
    | ok e hu hk =>
      cases e with
      | some e => exact .ok _ hu hk
      | none => exact ih _ _ hk fun _ => hu

theorem push_alongside (s s' : NALSink) (b : Bytes) (h : keptBytes s = keptBytes s') : Alongside (push s b ts) (push s' b ts) := by
  obtain ⟨nals, hb, hne, -⟩ := C14_split_sane b
  unfold push
  rw [hb]
  exact pushLoop_alongside nals s s' h fun e => absurd e hne

theorem reports_alongside (ps : List (Bytes × Nat)) : ∀ s s' : NALSink, keptBytes s = keptBytes s' → (reports s ps).map unnumberedAll = (reports s' ps).map unnumberedAll := by
  induction ps with
  | nil => intro s s' _; rfl
  | cons p ps ih =>
    obtain ⟨b, ts⟩ := p
    intro s s' h
    have hp := push_alongside (ts := ts) s s' b h
    rw [reports, reports]
    revert hp
    generalize push s b ts = x
    generalize push s' b ts = y
    intro hp
    cases hp with
    | error p => rfl
    | ok e hu hk =>
      dsimp only
      rw [List.map_cons, List.map_cons, ih _ _ hk]
      congr 1
      show Except.ok _ = Except.ok _
      rw [hu]

/-- What a payload does to two sinks. -/
inductive PushLaw (s s' : NALSink) : Option Bool → Go (Option H264Err × NALSink) → Go (Option H264Err × NALSink) → Prop
  | error {o : Option Bool} (p : Panic) (ho : o ≠ some true) : PushLaw s s' o (.error p) (.error p)
  | whole {t t' : NALSink} (e : Option H264Err) (hu : t.units.map unnumbered = t'.units.map unnumbered) (y : Bytes) (hk : keptBytes t = keptBytes s ++ y)
      (hk' : keptBytes t' = keptBytes s' ++ y) : PushLaw s s' none (.ok (e, t)) (.ok (e, t'))
  | start {t t' : NALSink} (e : Option H264Err) (hu : t.units.map unnumbered = t'.units.map unnumbered) (hk : keptBytes t = keptBytes t') :
      PushLaw s s' (some false) (.ok (e, t)) (.ok (e, t'))
  | stop {t t' : NALSink} (y : Bytes) (u u' : NALUnit) (hu : t.units = [u]) (hu' : t'.units = [u']) (hd : u.data = keptBytes s ++ y) (hd' : u'.data = keptBytes s' ++ y) :
      PushLaw s s' (some true) (.ok (none, t)) (.ok (none, t'))

theorem pushLoop_law (nals : List Bytes) : ∀ s s' : NALSink, (nals = [] → s.units.map unnumbered = s'.units.map unnumbered) →
    PushLaw s s' (unopened ts nals) (pushLoop s ts nals) (pushLoop s' ts nals) := by
  induction nals with
  | nil => intro s s' hu; exact .whole _ (hu rfl) [] (by simp) (by simp)
  | cons n nals ih =>
    intro s s' _
    have acc : accepted n ts = (match parseNAL s n ts with | .ok (none, _) => true | _ => false) := by
      have h0 := parseNAL_law (ts := ts) newNALSink s n
      unfold accepted
      revert h0
      generalize parseNAL s n ts = x
      generalize parseNAL newNALSink n ts = y
      intro h0
      cases h0 with
      | error p => rfl
      | whole e => cases e <;> rfl
      | start => rfl
      | stop => rfl
    have hn := parseNAL_law (ts := ts) s s' n
    rw [pushLoop, pushLoop, unopened]
    rw [acc]
    revert hn
    generalize parseNAL s n ts = x
    generalize parseNAL s' n ts = y
    intro hn
    cases hn with
    | error p ho hc =>
      refine .error p ?_
      simp [ho, hc]
    | whole e ho hc hu y k k' =>
      cases e with
      | some e =>
        simp only [ho, hc, Bool.false_eq_true, if_false, Bool.false_and]
        exact .whole _ hu y k k'
      | none =>
        simp only [ho, hc, Bool.false_eq_true, if_false, Bool.false_and, if_true]
        have hr := ih _ _ fun _ => hu
        revert hr
        generalize unopened ts nals = o
        generalize pushLoop _ ts nals = a
        generalize pushLoop _ ts nals = b
        intro hr
        cases hr with
        | error p ho => exact .error p ho
        | whole e hu z q q' => exact .whole e hu (y ++ z) (by rw [q, k, List.append_assoc]) (by rw [q', k', List.append_assoc])
        | start e hu q => exact .start e hu q
        | stop z u u' hu hu' hd hd' => exact .stop (y ++ z) u u' hu hu' (by rw [hd, k, List.append_assoc]) (by rw [hd', k', List.append_assoc])
    | start ho hu k =>
      simp only [ho, if_true]
      have hr := pushLoop_alongside (ts := ts) nals _ _ k fun _ => hu
      revert hr
      generalize pushLoop _ ts nals = a
      generalize pushLoop _ ts nals = b
      intro hr
      cases hr with
      | error p => exact .error p (by simp)
      | ok e hu hk => exact .start e hu hk
    | @stop t t' ho hc y k k' u u' hu hu' hd hd' hh =>
      cases nals with
      | nil =>
        simp only [ho, hc, Bool.false_eq_true, if_false, Bool.true_and, List.isEmpty_nil, if_true]
        exact .stop y u u' hu hu' (by rw [hd, k]) (by rw [hd', k'])
      | cons m ms =>
        simp only [ho, hc, Bool.false_eq_true, if_false, Bool.true_and, List.isEmpty_cons, if_true]
        have hr := ih t t' fun e => absurd e (by simp)
        revert hr
        generalize unopened ts (m :: ms) = o
        generalize pushLoop _ ts (m :: ms) = a
        generalize pushLoop _ ts (m :: ms) = b
        intro hr
        cases hr with
        | error p ho => exact .error p ho
        | whole e hu z q q' => exact .whole e hu (y ++ z) (by rw [q, k, List.append_assoc]) (by rw [q', k', List.append_assoc])
        | start e hu q => exact .start e hu q
        | stop z u u' hu hu' hd hd' => exact .stop (y ++ z) u u' hu hu' (by rw [hd, k, List.append_assoc]) (by rw [hd', k', List.append_assoc])

/-- C137, exact: two sinks report the same for the payloads to come, errors and panics and units, decoding order numbers aside, exactly if they keep the same bytes of
fragments or the payloads end no unit that they have not started. -/
theorem C137_exact (ps : List (Bytes × Nat)) : ∀ s s' : NALSink,
    (reports s ps).map unnumberedAll = (reports s' ps).map unnumberedAll ↔ (keptBytes s = keptBytes s' ∨ ¬ Headless ps) := by
  induction ps with
  | nil => intro s s'; exact ⟨fun _ => .inr id, fun _ => rfl⟩
  | cons p ps ih =>
    obtain ⟨b, ts⟩ := p
    intro s s'
    by_cases hkk : keptBytes s = keptBytes s'
    · exact ⟨fun _ => .inl hkk, fun _ => reports_alongside _ s s' hkk⟩
    obtain ⟨nals, hb, hne, -⟩ := C14_split_sane b
    have hl := pushLoop_law (ts := ts) nals s s' fun e => absurd e hne
    have h0 := pushLoop_law (ts := ts) nals newNALSink s fun e => absurd e hne
    have hH : Headless ((b, ts) :: ps) ↔ (match unopened ts nals with | some x => x = true | none => match pushLoop s ts nals with | .error _ => False | .ok _ => Headless ps) := by
      rw [Headless, push, hb]
      dsimp only
      revert h0
      generalize unopened ts nals = o
      generalize pushLoop s ts nals = a
      generalize pushLoop newNALSink ts nals = c
      intro h0
      cases h0 <;> rfl
    rw [hH, reports, reports, push, push, hb]
    dsimp only
    revert hl
    generalize unopened ts nals = o
    generalize pushLoop s ts nals = a
    generalize pushLoop s' ts nals = c
    intro hl
    cases hl with
    | error p ho =>
      refine ⟨fun _ => .inr ?_, fun _ => rfl⟩
      cases o with
      | none => exact id
      | some x => exact fun e => ho (by rw [e])
    | @whole t t' e hu y k k' =>
      dsimp only
      have hhead : unnumberedAll (.ok (e, t.units)) = unnumberedAll (.ok (e, t'.units)) := show Except.ok _ = Except.ok _ by rw [hu]
      rw [List.map_cons, List.map_cons, hhead, List.cons.injEq, ih, k, k', List.append_left_inj]
      exact ⟨fun h => h.2, fun h => ⟨rfl, h⟩⟩
    | @start t t' e hu k =>
      dsimp only
      have hhead : unnumberedAll (.ok (e, t.units)) = unnumberedAll (.ok (e, t'.units)) := show Except.ok _ = Except.ok _ by rw [hu]
      rw [List.map_cons, List.map_cons, reports_alongside ps _ _ k, hhead]
      exact ⟨fun _ => .inr (by simp), fun _ => rfl⟩
    | stop y u u' hu hu' hd hd' =>
      constructor
      · intro h
        left
        dsimp only at h
        rw [List.map_cons, List.map_cons, List.cons.injEq] at h
        have h1 := h.1
        simp only [unnumberedAll, hu, hu', List.map_cons, List.map_nil, Except.ok.injEq, Prod.mk.injEq, List.cons.injEq, true_and, and_true] at h1
        have h2 : (unnumbered u).data = (unnumbered u').data := by rw [h1]
        have h3 : u.data = u'.data := h2
        rw [hd, hd', List.append_left_inj] at h3
        exact h3
      · rintro (h | h)
        · exact absurd h hkk
        · exact absurd rfl h

/-- The state after a start fragment with a byte in it. -/
def midway : List (Bytes × Nat) := [([0x7C, 0x85, 1], 0)]

/-- The sink after it. -/
def midwaySink : NALSink := { newNALSink with fragments := [{ unit := { header := 0x65, don := 0, ts := 0, data := [1] }, flags := 0x85 }] }

/-- C137: a stream ends no unit that it has not started exactly if it does not matter what a sink has received before it: every push returns the same error and leaves the
same units, but for decoding order numbers, whatever the history. -/
theorem C137_iff (ps : List (Bytes × Nat)) : (∀ hs s, having newNALSink hs = .ok s → (reports s ps).map unnumberedAll = (reports newNALSink ps).map unnumberedAll) ↔ ¬ Headless ps := by
  constructor
  · intro h
    have h1 := h midway midwaySink (by decide +kernel)
    rw [C137_exact] at h1
    rcases h1 with h1 | h1
    · exact absurd h1 (by decide +kernel)
    · exact h1
  · intro h hs s _
    exact (C137_exact ps s newNALSink).mpr (.inr h)

/-- A payload without fragments. -/
theorem unopened_whole (ts : Nat) (nals : List Bytes) (h : ∀ n ∈ nals, isFragment n = false) : unopened ts nals = none := by
  induction nals with
  | nil => rfl
  | cons n nals ih =>
    have hn := h n (List.mem_cons_self ..)
    rw [unopened, ih fun m hm => h m (List.mem_cons_of_mem _ hm), opens, closes, hn]
    simp

/-- C137, what a user of a stream meets: payloads without fragments, as many as there are, then one that begins with the first fragment of a unit, then anything: it does
not matter what the sink has received before. -/
theorem C137_join (pre : List (Bytes × Nat)) (b : Bytes) (ts : Nat) (post : List (Bytes × Nat))
    (hpre : ∀ p ∈ pre, ∀ nals, splitAnnexB p.1 = .ok nals → ∀ n ∈ nals, isFragment n = false)
    (n : Bytes) (rest : List Bytes) (hb : splitAnnexB b = .ok (n :: rest)) (hn : opens n = true) (s s' : NALSink) :
    (reports s (pre ++ (b, ts) :: post)).map unnumberedAll = (reports s' (pre ++ (b, ts) :: post)).map unnumberedAll := by
  refine (C137_exact _ s s').mpr (.inr ?_)
  induction pre with
  | nil =>
    rw [List.nil_append, Headless, hb]
    dsimp only
    rw [unopened, if_pos hn]
    simp
  | cons p pre ih =>
    obtain ⟨c, t⟩ := p
    obtain ⟨nals, hc, -⟩ := C14_split_sane c
    rw [List.cons_append, Headless, hc]
    dsimp only
    rw [unopened_whole t nals (hpre _ (List.mem_cons_self ..) nals hc)]
    dsimp only
    cases push newNALSink c t with
    | error p => exact id
    | ok r => exact ih fun p hp => hpre p (List.mem_cons_of_mem _ hp)

/-- A unit in one piece, the start of one in fragments, its end. -/
def middle : List (Bytes × Nat) := [([0x65, 1, 2], 10), ([0x7C, 0x85, 3, 4], 20), ([0x7C, 0x45, 5], 20)]

example : ∀ s s' : NALSink, (reports s middle).map unnumberedAll = (reports s' middle).map unnumberedAll :=
  C137_join [([0x65, 1, 2], 10)] [0x7C, 0x85, 3, 4] 20 [([0x7C, 0x45, 5], 20)]
    (by intro p hp nals e n hn
        rw [List.mem_singleton] at hp
        subst hp
        cases (show splitAnnexB [0x65, 1, 2] = .ok [[0x65, 1, 2]] by decide +kernel).symm.trans e
        rw [List.mem_singleton] at hn
        subst hn
        rfl) [0x7C, 0x85, 3, 4] [] (by decide +kernel) (by decide)
example : reports newNALSink middle =
    [.ok (none, [{ header := 0x65, don := 0, ts := 10, data := [1, 2] }]), .ok (none, []), .ok (none, [{ header := 0x65, don := 1, ts := 20, data := [3, 4, 5] }])] := by decide +kernel
-- an end of which the start is missing: what the sink kept is shown
example : Headless [([0x7C, 0x45, 5], 20)] := by
  rw [Headless, show splitAnnexB [0x7C, 0x45, 5] = .ok [[0x7C, 0x45, 5]] by decide +kernel]
  rfl
example : (having newNALSink midway).bind (fun s => .ok (reports s [([0x7C, 0x45, 5], 20)])) = .ok [.ok (none, [{ header := 0x65, don := 0, ts := 20, data := [1, 5] }])] := by decide +kernel

end Ouro
