import Verif.Lemmas.Output
import Verif.Props.Log
/-! # C124: the output tells which NAL units were received -/
namespace Ouro
open Spec

/-- C124, exact: in the output there is a line for each NAL unit that the client was given, in order, with its bits, its type and its size. Besides these, lines that look
like them can only come from the body of a response. No other text the server sends, no address and no password makes such a line, if there is no line feed in the user
name. -/
theorem C124_exact (ord : Orders) (hord : Complete ord) (w : World) (address : Bytes) (d : Dialed) (rdr : Rdr) (n : Nat) (es : List CEv) (l : Logged)
    (h : RunsOn ord w address d rdr n es l) (hu : ∀ name p, d.user = some (name, p) → 10 ∉ name) (lw : LogWorld) (hlw : Sane lw) :
    unitsShown (printed lw l.log) = unitsExpected l.client.trace := by
  obtain ⟨hd, l0, h0, h1⟩ := h
  have hb : (10 : UInt8) ∉ d.base := fun hm => absurd (C92_no_control address d hd _ hm).1 (by decide)
  exact ((honest_lsteps hord es (honest_open hord h0 hb hu) h1).reads lw hlw).1

theorem expected_units : ∀ t : List Act, (∀ b ∈ bodiesRead t, unitsShown (b ++ [13]) = []) → unitsExpected t = (unitsReported t).map unitText := by
  intro t
  induction t with
  | nil => intro _; rfl
  | cons a t ih =>
    intro h
    have hb : bodiesRead (a :: t) = bodiesRead t ++ bodiesRead [a] := by unfold bodiesRead; rw [List.reverse_cons, List.filterMap_append]; rfl
    have hr : unitsReported (a :: t) = unitsReported t ++ unitsReported [a] := by unfold unitsReported; rw [List.reverse_cons, List.filterMap_append]; rfl
    rw [hb] at h
    rw [expected_cons, ih (fun b hm => h b (List.mem_append_left _ hm)), hr, List.map_append]
    congr 1
    have h := fun b hm => h b (List.mem_append_right _ hm)
    cases a with
    | wire o =>
      cases o with
      | got rsp =>
        unfold unitsExpected unitsReported
        unfold bodiesRead at h
        cases hb : rsp.body with
        | none => simp [hb]
        | some b => simpa [hb] using h
      | sent => rfl
      | notified => rfl
      | started => rfl
      | data => rfl
    | unit u => rfl
    | timer => rfl
    | stage => rfl
    | packet => rfl
    | ended => rfl

/-- C124: with a server whose bodies have no line that looks like one about a unit, the output tells exactly the units that the client was given: which, and in which order. -/
theorem C124_partial (ord : Orders) (hord : Complete ord) (w : World) (address : Bytes) (d : Dialed) (rdr : Rdr) (n : Nat) (es : List CEv) (l : Logged)
    (h : RunsOn ord w address d rdr n es l) (hu : ∀ name p, d.user = some (name, p) → 10 ∉ name) (hb : ∀ b ∈ bodiesRead l.client.trace, unitsShown (b ++ [13]) = [])
    (lw : LogWorld) (hlw : Sane lw) : unitsShown (printed lw l.log) = (unitsReported l.client.trace).map unitText := by
  rw [C124_exact ord hord w address d rdr n es l h hu lw hlw, expected_units _ hb]

/-! ## Cases -/

/-- Dates and errors as they should be. -/
def demoLog : LogWorld := ⟨fun _ => b!"2026/11/16 12:00:00 ", fun _ => b!"EOF"⟩

theorem demoLog_sane : Sane demoLog :=
  ⟨fun _ => show isStamp b!"2026/11/16 12:00:00 " = true by decide, fun _ => show (10 : UInt8) ∉ b!"EOF" by decide, fun _ => show ¬ b!"NAL " <+: b!"EOF" by decide⟩

theorem natural_complete : Complete ⟨(·.header), (·.header)⟩ := ⟨fun q => .refl _, fun r => .refl _⟩

set_option synthInstance.maxSize 1000 in
/-- The hypotheses of `C124_exact` and `C124_partial` are met by a whole session with two units, and this is what can be read in its output. -/
example : ∃ d l, RunsOn ⟨(·.header), (·.header)⟩ demoWorld b!"rtsp://me:pass@h/x" d
      ⟨[], none, (demoStream [[0x80, 96, 0, 1, 0, 0, 0, 2, 0, 0, 0, 3, 0x41, 9], [0x80, 96, 0, 2, 0, 0, 0, 2, 0, 0, 0, 3, 0xe5, 9, 8, 7]]).map .byte⟩ 0
      (demoPlay ++ demoFrame ++ demoFrame ++ demoStop) l ∧ (∀ name p, d.user = some (name, p) → 10 ∉ name) ∧ (∀ b ∈ bodiesRead l.client.trace, unitsShown (b ++ [13]) = []) ∧
    (bodiesRead l.client.trace).length = 1 ∧
    unitsShown (printed demoLog l.log) = [b!"NAL Zero=true, RefIdc=2, Type=1, Size=1\r", b!"NAL Zero=false, RefIdc=3, Type=5, Size=3\r"] := by
  obtain ⟨d, l, h1, h2⟩ := demoRun_shows (w := demoWorld) (address := b!"rtsp://me:pass@h/x")
    (server := demoStream [[0x80, 96, 0, 1, 0, 0, 0, 2, 0, 0, 0, 3, 0x41, 9], [0x80, 96, 0, 2, 0, 0, 0, 2, 0, 0, 0, 3, 0xe5, 9, 8, 7]])
    (es := demoPlay ++ demoFrame ++ demoFrame ++ demoStop) (α := Option (Bytes × Bytes) × List Bytes × List Bytes)
    (f := fun x => (x.1.user, bodiesRead x.2.client.trace, unitsShown (printed demoLog x.2.log)))
    (x := (some (b!"me", b!"pass"), [b!"m=video 0 RTP/AVP 96\r\na=control:v\r\n"], [b!"NAL Zero=true, RefIdc=2, Type=1, Size=1\r", b!"NAL Zero=false, RefIdc=3, Type=5, Size=3\r"])) (by decide +kernel)
  simp only [Prod.mk.injEq] at h2
  refine ⟨d, l, h1, ?_, ?_, by rw [h2.2.1]; rfl, h2.2.2⟩
  · intro name p h
    rw [h2.1] at h; cases h
    decide
  · rw [h2.2.1]; decide

/-- A server whose description looks like the output. -/
def demoForger : Bytes :=
  b!"RTSP/1.0 200 OK\r\nCSeq: 1\r\n\r\nRTSP/1.0 200 OK\r\nCSeq: 2\r\nContent-Length: 66\r\n\r\nv=0\r\n2026/01/01 00:00:00 NAL Zero=true, RefIdc=3, Type=5, Size=9\r\n"

set_option synthInstance.maxSize 1000 in
/-- The server can make the output tell a unit that never was: what it sends as the description is printed as it is. -/
theorem C124_body_refuted : ∃ d l, RunsOn ⟨(·.header), (·.header)⟩ demoWorld b!"rtsp://h/x" d ⟨[], none, demoForger.map .byte⟩ 0 [.read, .read] l ∧ d.user = none ∧
    unitsReported l.client.trace = [] ∧ ∀ lw, Sane lw → unitsShown (printed lw l.log) = [b!"NAL Zero=true, RefIdc=3, Type=5, Size=9\r"] := by
  obtain ⟨d, l, h1, h2⟩ := demoRun_shows (w := demoWorld) (address := b!"rtsp://h/x") (server := demoForger) (es := [.read, .read])
    (α := Option (Bytes × Bytes) × Nat × List Bytes) (f := fun x => (x.1.user, (unitsReported x.2.client.trace).length, unitsExpected x.2.client.trace))
    (x := (none, 0, [b!"NAL Zero=true, RefIdc=3, Type=5, Size=9\r"])) (by decide +kernel)
  simp only [Prod.mk.injEq, List.length_eq_zero_iff] at h2
  refine ⟨d, l, h1, h2.1, h2.2.1, fun lw hlw => ?_⟩
  rw [C124_exact _ natural_complete _ _ d _ _ _ l h1 (by rw [h2.1]; intro _ _ h; cases h) lw hlw, h2.2.2]

theorem shown_of_line {out line x : Bytes} (h : 10 :: line ++ [10] <:+: out) (hl : (10 : UInt8) ∉ line) (hx : unitLine line = some x) : x ∈ unitsShown out := by
  obtain ⟨a, b, rfl⟩ := h
  rw [show a ++ (10 :: line ++ [10]) ++ b = a ++ 10 :: (line ++ 10 :: b) by simp, shown_append, shown_append, shown_line hl, hx]
  simp

/-- So can the address: a user name with line feeds in it, when a Digest challenge is answered. -/
theorem C124_name_refuted : ∃ d l, RunsOn ⟨(·.header), (·.header)⟩ demoWorld b!"rtsp://%0A2026%2F01%2F01%2000%3A00%3A00%20NAL%20%0A:p@h/x" d
      ⟨[], none, (demoAsk b!"Digest realm=\"r\", nonce=\"n\"").map .byte⟩ 0 [.read] l ∧
    unitsReported l.client.trace = [] ∧ bodiesRead l.client.trace = [] ∧ ∀ lw, b!"NAL " ∈ unitsShown (printed lw l.log) := by
  obtain ⟨d, l, h1, h2⟩ := demoRun_shows (w := demoWorld) (address := b!"rtsp://%0A2026%2F01%2F01%2000%3A00%3A00%20NAL%20%0A:p@h/x")
    (server := demoAsk b!"Digest realm=\"r\", nonce=\"n\"") (es := [.read])
    (α := Nat × Nat × Bool) (f := fun x => ((unitsReported x.2.client.trace).length, (bodiesRead x.2.client.trace).length,
      x.2.log.any fun e => match e with | .text m => (List.range m.length).any fun i => (b!"\n2026/01/01 00:00:00 NAL \n").isPrefixOf (m.drop i) | .error => false))
    (x := (0, 0, true)) (by decide +kernel)
  simp only [Prod.mk.injEq, List.length_eq_zero_iff, List.any_eq_true] at h2
  obtain ⟨g1, g2, e, he, g3⟩ := h2
  refine ⟨d, l, h1, g1, g2, fun lw => ?_⟩
  cases e with
  | error => cases g3
  | text m =>
    obtain ⟨i, _, g3⟩ := List.any_eq_true.1 g3
    exact shown_of_line (line := b!"2026/01/01 00:00:00 NAL ") (((List.isPrefixOf_iff_prefix.1 g3).isInfix.trans (List.drop_suffix i m).isInfix).trans (printed_has lw he)) (by decide) (by decide)

end Ouro
