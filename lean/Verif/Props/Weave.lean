import Verif.Props.Streams
import Verif.Spec.Weave
/-! # C104 for any number of streams whose fragments do not mix -/
namespace Ouro
open Spec

theorem fuA_fragment {h : UInt8} {a b : Bool} {piece : Bytes} {ts : Nat} {p : UInt8 × RtpWire} (hp : IsPacket (fuA h a b piece) ts p) :
    carriesPiece p = true ∧ endsUnit p = b := by
  have h1 : ∀ h : UInt8, typeByte h 28 &&& 0x1F = 28 := forall_u8 (by decide +kernel)
  have h2 : ∀ h : UInt8, ∀ a b : Bool, (decide (fuHeader a b h &&& 0x40 ≠ 0)) = b := forall_u8 (by decide +kernel)
  unfold carriesPiece endsUnit
  rw [hp.2.2.2.1]
  exact ⟨by simp [fuA, h1], by simpa [fuA] using h2 h a b⟩

theorem whole_fragment {s : Sending} (hs : s.Ok) {p : UInt8 × RtpWire} (hp : IsPacket s.unit.bytes s.ts p) : carriesPiece p = false := by
  have h1 := hs.2.2.1
  unfold carriesPiece
  rw [hp.2.2.2.1]
  have : ¬ (s.unit.header &&& 0x1F = 28) := fun h => h1 (by rw [h]; decide)
  simpa [Nal.bytes] using this

theorem sends_first {l : List Sending} {p : UInt8 × RtpWire} {r : List (UInt8 × RtpWire)} (h : Sends264 l (p :: r)) :
    ∃ s ss, l = s :: ss ∧ s.Ok ∧ ((s.way = .whole ∧ IsPacket s.unit.bytes s.ts p ∧ Sends264 ss r) ∨
      ∃ first mids last q1 q2, s.way = .cut first mids last ∧ IsPacket (fuA s.unit.header true false first) s.ts p ∧ r = q1 ++ q2 ∧
        PacketsOf s.ts (mids.map (fuA s.unit.header false false) ++ [fuA s.unit.header false true last]) q1 ∧ Sends264 ss q2) := by
  generalize he : p :: r = l' at h
  cases h with
  | nil => cases he
  | @cons s ps ss qs h1 h2 h3 =>
    refine ⟨s, ss, rfl, h1, ?_⟩
    unfold Sending.payloads at h2
    cases hw : s.way with
    | whole =>
      rw [hw] at h2
      cases h2 with
      | cons g1 g2 =>
        cases g2
        injection he with e1 e2
        subst e1
        have e2 : r = qs := e2
        subst e2
        exact .inl ⟨rfl, g1, h3⟩
    | cut first mids last =>
      rw [hw] at h2
      cases h2 with
      | cons g1 g2 =>
        injection he with e1 e2
        subst e1
        exact .inr ⟨first, mids, last, _, qs, rfl, g1, e2, g2, h3⟩

/-- A unit that has begun: its channel, and the fragments to come. -/
structure Begun where
  ch : UInt8
  s : Sending
  mids : List Bytes
  last : Bytes

/-- The rest of what is on a channel. -/
def RestOf (f : UInt8 → List Sending) (o : Option Begun) (ch : UInt8) (qs : List (UInt8 × RtpWire)) : Prop :=
  match o with
  | none => Sends264 (f ch) qs
  | some g =>
    if g.ch = ch then g.s.Ok ∧ g.last <:+: g.s.unit.data ∧ (∀ m ∈ g.mids, m <:+: g.s.unit.data) ∧ ∃ q1 q2, qs = q1 ++ q2 ∧
      PacketsOf g.s.ts (g.mids.map (fuA g.s.unit.header false false) ++ [fuA g.s.unit.header false true g.last]) q1 ∧ Sends264 (f ch) q2
    else Sends264 (f ch) qs

/-- What will be reported of the unit that has begun. -/
def begunUnit (o : Option Begun) (b : Bytes) (ch : UInt8) : List (UInt8 × Nat × Bytes) :=
  match o with
  | none => []
  | some g => if g.ch = ch then [(g.s.unit.header, g.s.ts, b ++ g.mids.flatMap (unescape 0) ++ unescape 0 g.last)] else []

theorem onChannel_same {α : Type} (p : UInt8 × α) (l : List (UInt8 × α)) : onChannel p.1 (p :: l) = p :: onChannel p.1 l := by simp [onChannel]
theorem onChannel_other {α : Type} {ch : UInt8} (p : UInt8 × α) (h : p.1 ≠ ch) (l : List (UInt8 × α)) : onChannel ch (p :: l) = onChannel ch l := by simp [onChannel, h]

theorem weave_videos (ps : List (UInt8 × RtpWire)) : ∀ (f : UInt8 → List Sending) (o : Option Begun) (b : Bytes), TakeTurns (o.map (·.ch)) ps →
    (∀ ch, RestOf f o ch (onChannel ch ps)) →
    ∃ (vs : List Video) (us : List (UInt8 × UInt8 × Nat × Bytes)), vs.map (fun v => (v.ch, v.rtp)) = ps ∧ (∀ v ∈ vs, v.Valid) ∧ depacketize b vs = us.map (·.2) ∧
      ∀ ch, (onChannel ch us).map (·.2) = begunUnit o b ch ++ (f ch).map Sending.unescaped := by
  induction ps with
  | nil =>
    intro f o b _ hr
    refine ⟨[], [], rfl, by simp, rfl, ?_⟩
    intro ch
    have h := hr ch
    have nil : ∀ {l : List Sending}, Sends264 l [] → l = [] := by
      intro l h
      generalize hq : ([] : List (UInt8 × RtpWire)) = q at h
      cases h with
      | nil => rfl
      | @cons s ps ss qs h1 h2 h3 =>
        unfold Sending.payloads at h2
        cases hw : s.way <;> rw [hw] at h2 <;> cases h2 <;> cases hq
    cases o with
    | none => rw [nil h]; rfl
    | some g =>
      unfold RestOf at h
      dsimp only at h
      by_cases hg : g.ch = ch
      · rw [if_pos hg] at h
        obtain ⟨_, _, _, q1, q2, h1, h2, _⟩ := h
        have h1 : [] = q1 ++ q2 := h1
        cases q1 with
        | nil => cases hm : g.mids <;> rw [hm] at h2 <;> cases h2
        | cons x q1 => cases h1
      · rw [if_neg hg] at h
        rw [nil h]
        simp [begunUnit, hg, onChannel]
  | cons p ps ih =>
    intro f o b hu hr
    -- a packet of a channel on which no unit has begun
    have fresh : Sends264 (f p.1) (onChannel p.1 (p :: ps)) → (∀ g ∈ o, g.ch ≠ p.1) →
        ∃ (vs : List Video) (us : List (UInt8 × UInt8 × Nat × Bytes)), vs.map (fun v => (v.ch, v.rtp)) = p :: ps ∧ (∀ v ∈ vs, v.Valid) ∧
          depacketize b vs = us.map (·.2) ∧ ∀ ch, (onChannel ch us).map (·.2) = begunUnit o b ch ++ (f ch).map Sending.unescaped := by
      intro h ho
      rw [onChannel_same] at h
      obtain ⟨s, ss, hf, hs, hw⟩ := sends_first h
      have hbeg : begunUnit o b p.1 = [] := by
        cases o with
        | none => rfl
        | some g => simp [begunUnit, ho g rfl]
      rcases hw with ⟨hw, hp, hss⟩ | ⟨first, mids, last, q1, q2, hw, hp, hq, hp2, hss⟩
      · rw [TakeTurns, if_neg (by rw [whole_fragment hs hp]; decide)] at hu
        obtain ⟨vs, us, h1, h2, h3, h4⟩ := ih (fun c => if c = p.1 then ss else f c) o b hu (by
          intro ch
          by_cases hc : ch = p.1
          · subst hc
            cases o with
            | none => show Sends264 (if _ then _ else _) _; rw [if_pos rfl]; exact hss
            | some g =>
              unfold RestOf
              dsimp only
              rw [if_neg (ho g rfl), if_pos rfl]
              exact hss
          · have := hr ch
            rw [onChannel_other p (fun e => hc e.symm)] at this
            unfold RestOf at this ⊢
            dsimp only
            rw [if_neg hc]
            exact this)
        refine ⟨⟨p.1, p.2, .single ⟨s.unit.header, unescape 0 s.unit.data⟩⟩ :: vs, (p.1, s.unescaped) :: us, by rw [List.map_cons, h1], ?_, ?_, ?_⟩
        · intro v hv
          rcases List.mem_cons.mp hv with rfl | hv
          · exact whole_video hs hp
          · exact h2 v hv
        · simp [depacketize, Load.units, Load.kept, h3, Sending.unescaped, Sending.pieces, hw, hp.2.2.2.2]
        · intro ch
          by_cases hc : p.1 = ch
          · subst hc
            rw [onChannel_same (p.1, s.unescaped) us, List.map_cons, h4, hbeg, if_pos rfl, hf]; rfl
          · rw [onChannel_other (p.1, s.unescaped) hc, h4, if_neg (fun e => hc e.symm)]
      · obtain ⟨f1, f2⟩ := fuA_fragment hp
        rw [TakeTurns, if_pos f1, f2] at hu
        have hnone : o = none := by
          cases o with
          | none => rfl
          | some g => exact absurd (hu.1 g.ch rfl) (ho g rfl)
        subst hnone
        have hpieces : s.pieces = first :: (mids ++ [last]) := by unfold Sending.pieces; rw [hw]
        obtain ⟨vs, us, h1, h2, h3, h4⟩ := ih (fun c => if c = p.1 then ss else f c) (some ⟨p.1, s, mids, last⟩) (unescape 0 first) hu.2 (by
          intro ch
          unfold RestOf
          dsimp only
          by_cases hc : ch = p.1
          · subst hc
            rw [if_pos rfl, if_pos rfl]
            exact ⟨hs, piece_infix hs (by simp [hpieces]), fun m hm => piece_infix hs (by simp [hpieces, hm]), q1, q2, hq, hp2, hss⟩
          · have := hr ch
            rw [onChannel_other p (fun e => hc e.symm)] at this
            rw [if_neg (fun e => hc e.symm), if_neg hc]
            exact this)
        refine ⟨fuLoad s.unit.header true false p first :: vs, us, by rw [List.map_cons, h1]; rfl, ?_, ?_, ?_⟩
        · intro v hv
          rcases List.mem_cons.mp hv with rfl | hv
          · exact fu_video hs (piece_infix hs (by simp [hpieces])) hp
          · exact h2 v hv
        · simp [depacketize, fuLoad, Load.units, Load.kept, h3]
        · intro ch
          rw [h4]
          by_cases hc : p.1 = ch
          · subst hc
            simp [begunUnit, hf, Sending.unescaped, hpieces]
          · rw [if_neg (fun e => hc e.symm)]
            simp [begunUnit, hc]
    cases o with
    | none => exact fresh (hr p.1) (fun g hg => by cases hg)
    | some g =>
      by_cases hg : g.ch = p.1
      · have h := hr p.1
        unfold RestOf at h
        dsimp only at h
        rw [if_pos hg, onChannel_same] at h
        obtain ⟨hs, hl, hm, q1, q2, hq, hp, hss⟩ := h
        obtain ⟨gch, s, mids, last⟩ := g
        dsimp only at hg hs hl hm hp
        subst hg
        have others : ∀ ch, ch ≠ p.1 → Sends264 (f ch) (onChannel ch ps) := by
          intro ch hc
          have := hr ch
          unfold RestOf at this
          dsimp only at this
          rw [onChannel_other p (fun e => hc e.symm), if_neg (fun e => hc e.symm)] at this
          exact this
        cases mids with
        | nil =>
          cases hp with
          | cons g1 g2 =>
            cases g2
            injection hq with e1 e2
            subst e1
            have e2 : onChannel p.1 ps = q2 := e2
            obtain ⟨f1, f2⟩ := fuA_fragment g1
            rw [TakeTurns, if_pos f1, f2] at hu
            obtain ⟨vs, us, h1, h2, h3, h4⟩ := ih f none (b ++ unescape 0 last) hu.2 (by
              intro ch
              show Sends264 (f ch) _
              by_cases hc : ch = p.1
              · subst hc; rw [e2]; exact hss
              · exact others ch hc)
            refine ⟨fuLoad s.unit.header false true p last :: vs, (p.1, s.unit.header, s.ts, b ++ unescape 0 last) :: us, by rw [List.map_cons, h1]; rfl, ?_, ?_, ?_⟩
            · intro v hv
              rcases List.mem_cons.mp hv with rfl | hv
              · exact fu_video hs hl g1
              · exact h2 v hv
            · simp [depacketize, fuLoad, Load.units, Load.kept, h3, g1.2.2.2.2]
            · intro ch
              by_cases hc : p.1 = ch
              · subst hc
                rw [onChannel_same (p.1, s.unit.header, s.ts, b ++ unescape 0 last) us, List.map_cons, h4]
                simp [begunUnit]
              · rw [onChannel_other (p.1, s.unit.header, s.ts, b ++ unescape 0 last) hc, h4]
                simp [begunUnit, hc]
        | cons m mids =>
          cases hp with
          | cons g1 g2 =>
            injection hq with e1 e2
            subst e1
            obtain ⟨f1, f2⟩ := fuA_fragment g1
            rw [TakeTurns, if_pos f1, f2] at hu
            obtain ⟨vs, us, h1, h2, h3, h4⟩ := ih f (some ⟨p.1, s, mids, last⟩) (b ++ unescape 0 m) hu.2 (by
              intro ch
              unfold RestOf
              dsimp only
              by_cases hc : p.1 = ch
              · subst hc
                rw [if_pos rfl]
                exact ⟨hs, hl, fun x hx => hm x (by simp [hx]), _, q2, e2, g2, hss⟩
              · rw [if_neg hc]
                exact others ch (fun e => hc e.symm))
            refine ⟨fuLoad s.unit.header false false p m :: vs, us, by rw [List.map_cons, h1]; rfl, ?_, ?_, ?_⟩
            · intro v hv
              rcases List.mem_cons.mp hv with rfl | hv
              · exact fu_video hs (hm m (by simp)) g1
              · exact h2 v hv
            · simp [depacketize, fuLoad, Load.units, Load.kept, h3]
            · intro ch
              rw [h4]
              simp [begunUnit, List.append_assoc]
      · refine fresh ?_ (fun g' hg' => by injection hg' with e; subst e; exact hg)
        have h := hr p.1
        unfold RestOf at h
        dsimp only at h
        rw [if_neg hg] at h
        exact h

/-- C104 for any number of streams, each on its channel, which may all send fragments: if between the first and the last fragment of a unit there are no fragments of other
streams, the client reports the units of each stream, complete and in the order of that stream. Missing: fragments that mix (`C104_mixed_refuted`). -/
theorem C104_turns_partial (w : World) (c : Client) (hr : ClientReachable w c) (streams : UInt8 → List Sending) (ps : List (UInt8 × RtpWire))
    (hs : ∀ ch, Sends264 (streams ch) (onChannel ch ps)) (hu : TakeTurns none ps) (h : onVideo (seen c.trace) = ps.map fun p => (p.1, p.2.encode)) :
    ∃ us : List (UInt8 × UInt8 × Nat × Bytes), reported c.trace = us.map (·.2) ∧ ∀ ch, (onChannel ch us).map (·.2) = (streams ch).map Sending.unescaped := by
  obtain ⟨vs, us, h1, h2, h3, h4⟩ := weave_videos ps streams none [] hu hs
  refine ⟨us, ?_, h4⟩
  rw [C66_pipeline_partial w c hr vs ⟨by rw [h, encode_pairs h1], h2⟩, h3]

/-- Two streams with a unit in fragments each, one after the other, and a unit in one packet among the fragments of the other stream. -/
example : ∃ c, ClientReachable demoWorld c ∧
    onVideo (seen c.trace) = (demoOther.take 1 ++ demoWholeSent ++ demoOther.drop 1 ++ demoCutSent).map (fun p => (p.1, p.2.encode)) ∧
    TakeTurns none (demoOther.take 1 ++ demoWholeSent ++ demoOther.drop 1 ++ demoCutSent) ∧
    Sends264 [demoWhole, demoCut] (onChannel 0 (demoOther.take 1 ++ demoWholeSent ++ demoOther.drop 1 ++ demoCutSent)) ∧
    Sends264 [demoCut2] (onChannel 2 (demoOther.take 1 ++ demoWholeSent ++ demoOther.drop 1 ++ demoCutSent)) := by
  obtain ⟨c, h1, h2⟩ := demoClient2_shows (frames := (demoOther.take 1 ++ demoWholeSent ++ demoOther.drop 1 ++ demoCutSent).map fun p => (p.1, p.2.encode))
    (es := demoPlay2 ++ demoFrame ++ demoFrame ++ demoFrame ++ demoFrame ++ demoFrame ++ demoFrame)
    (f := fun c => onVideo (seen c.trace)) (a := (demoOther.take 1 ++ demoWholeSent ++ demoOther.drop 1 ++ demoCutSent).map fun p => (p.1, p.2.encode)) (by decide +kernel)
  refine ⟨c, h1, h2, ?_, ?_, ?_⟩
  · simp [TakeTurns, demoOther, demoWholeSent, demoCutSent, carriesPiece, endsUnit, fuA, typeByte, fuHeader]
    decide
  · exact .cons demoWhole_ok demoWholeSent_of (.cons (ps := demoCutSent) (qs := []) demoCut_ok demoCutSent_of .nil)
  · exact .cons (ps := demoOther) (qs := []) ⟨by decide, by decide, by decide, by decide⟩ (.cons (demo_packet_on 2 rfl _ _ _ _ (by decide) (by decide))
      (.cons (demo_packet_on 2 rfl _ _ _ _ (by decide) (by decide)) .nil)) .nil

end Ouro
