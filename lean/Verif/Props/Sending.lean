import Verif.Props.EndToEnd
import Verif.Props.NalUnits
import Verif.Spec.Sending
/-! # C66, C76 for a sender of legal units: from the units of an encoder to the units the client reports -/
namespace Ouro
open Spec

/-- What a packet stands for. -/
def fuLoad (h : UInt8) (a b : Bool) (p : UInt8 × RtpWire) (piece : Bytes) : Video := ⟨p.1, p.2, .fuA h a b (unescape 0 piece)⟩

theorem whole_video {s : Sending} (hs : s.Ok) {p : UInt8 × RtpWire} (hp : IsPacket s.unit.bytes s.ts p) :
    Video.Valid ⟨p.1, p.2, .single ⟨s.unit.header, unescape 0 s.unit.data⟩⟩ := by
  obtain ⟨h1, h2, h3, h4, h5⟩ := hp
  refine ⟨h1, h2, ?_, ?_, hs.2.2.1⟩
  · show ¬ _ <:+: p.2.body
    rw [h4]; intro h; exact hs.1.2.1 (.inr (.inl h))
  · show unescape 0 p.2.body = _
    rw [h4, Nal.bytes, unescape_cons_nz (legal_header hs.1)]
    rfl

theorem fu_video {s : Sending} (hs : s.Ok) {a b : Bool} {piece : Bytes} (hpiece : piece <:+: s.unit.data) {p : UInt8 × RtpWire}
    (hp : IsPacket (fuA s.unit.header a b piece) s.ts p) : (fuLoad s.unit.header a b p piece).Valid := by
  obtain ⟨h1, h2, h3, h4, h5⟩ := hp
  refine ⟨h1, h2, ?_, ?_, hs.2.1⟩
  · show ¬ _ <:+: p.2.body
    rw [h4]
    refine fuA_no_start hs.1.1 a b fun h => hs.1.2.1 (.inr (.inl ?_))
    exact (h.trans hpiece).trans (List.suffix_cons s.unit.header s.unit.data).isInfix
  · show unescape 0 p.2.body = _
    rw [h4]
    have := unescape_fu ⟨none, piece, 0⟩ a b hs.1.1
    exact this

theorem mid_videos {s : Sending} (hs : s.Ok) (last : Bytes) (hlast : last <:+: s.unit.data) : ∀ (mids : List Bytes) (ps : List (UInt8 × RtpWire)),
    (∀ m ∈ mids, m <:+: s.unit.data) → PacketsOf s.ts (mids.map (fuA s.unit.header false false) ++ [fuA s.unit.header false true last]) ps →
    ∃ vs : List Video, vs.map (fun v => (v.ch, v.rtp)) = ps ∧ (∀ v ∈ vs, v.Valid) ∧
      (∀ b, depacketize b vs = [(s.unit.header, s.ts, b ++ mids.flatMap (unescape 0) ++ unescape 0 last)]) ∧
      vs ≠ [] ∧ ∀ v ∈ vs.dropLast, ∀ b t, v.load.units b t = [] := by
  intro mids
  induction mids with
  | nil =>
    intro ps _ hp
    cases hp with
    | cons h1 h2 =>
      cases h2
      rename_i p
      refine ⟨[fuLoad s.unit.header false true p last], rfl, ?_, ?_, by simp, by simp⟩
      · intro v hv; rw [List.mem_singleton] at hv; subst hv; exact fu_video hs hlast h1
      · intro b; simp [depacketize, fuLoad, Load.units, h1.2.2.2.2]
  | cons m mids ih =>
    intro ps hm hp
    cases hp with
    | cons h1 h2 =>
      rename_i p ps
      obtain ⟨vs, e1, e2, e3, e4, e5⟩ := ih ps (fun x hx => hm x (by simp [hx])) h2
      refine ⟨fuLoad s.unit.header false false p m :: vs, ?_, ?_, ?_, by simp, ?_⟩
      · rw [List.map_cons, e1]; rfl
      · intro v hv
        rcases List.mem_cons.mp hv with rfl | hv
        · exact fu_video hs (hm m (by simp)) h1
        · exact e2 v hv
      · intro b
        simp only [depacketize, fuLoad, Load.units, Load.kept, Bool.false_eq_true, if_false, List.nil_append, e3, List.flatMap_cons, List.append_assoc]
      · rw [List.dropLast_cons_of_ne_nil e4]
        intro v hv
        rcases List.mem_cons.mp hv with rfl | hv
        · intro b t; rfl
        · exact e5 v hv

/-- The packets of one unit: the last of them reports it, the others report nothing. -/
theorem sending_videos {s : Sending} (hs : s.Ok) {ps : List (UInt8 × RtpWire)} (hp : PacketsOf s.ts s.payloads ps) :
    ∃ vs : List Video, vs.map (fun v => (v.ch, v.rtp)) = ps ∧ (∀ v ∈ vs, v.Valid) ∧ (∀ b, depacketize b vs = [s.unescaped]) ∧
      ∀ v ∈ vs.dropLast, ∀ b t, v.load.units b t = [] := by
  unfold Sending.payloads at hp
  unfold Sending.unescaped
  have hpieces := hs.2.2.2
  unfold Sending.pieces at hpieces ⊢
  cases hw : s.way with
  | whole =>
    rw [hw] at hp hpieces
    cases hp with
    | cons h1 h2 =>
      cases h2
      rename_i p
      refine ⟨[⟨p.1, p.2, .single ⟨s.unit.header, unescape 0 s.unit.data⟩⟩], rfl, ?_, ?_, by simp⟩
      · intro v hv; rw [List.mem_singleton] at hv; subst hv; exact whole_video hs h1
      · intro b; simp [depacketize, Load.units, h1.2.2.2.2]
  | cut first mids last =>
    rw [hw] at hp hpieces
    simp only [List.flatten_cons, List.flatten_append, List.flatten_nil, List.append_nil] at hpieces
    have hin : ∀ m ∈ mids, m <:+: s.unit.data := by
      intro m hm
      obtain ⟨a, b, e⟩ := List.append_of_mem hm
      rw [hpieces, e]
      exact ⟨first ++ a.flatten, b.flatten ++ last, by simp⟩
    cases hp with
    | cons h1 h2 =>
      rename_i p ps
      obtain ⟨vs, e1, e2, e3, e4, e5⟩ := mid_videos hs last ⟨first ++ mids.flatten, [], by rw [hpieces]; simp⟩ mids ps hin h2
      refine ⟨fuLoad s.unit.header true false p first :: vs, ?_, ?_, ?_, ?_⟩
      · rw [List.map_cons, e1]; rfl
      · intro v hv
        rcases List.mem_cons.mp hv with rfl | hv
        · exact fu_video hs ⟨[], mids.flatten ++ last, by rw [hpieces]; simp⟩ h1
        · exact e2 v hv
      · intro b
        simp [depacketize, fuLoad, Load.units, Load.kept, e3]
      · rw [List.dropLast_cons_of_ne_nil e4]
        intro v hv
        rcases List.mem_cons.mp hv with rfl | hv
        · intro b t; rfl
        · exact e5 v hv

theorem sends_videos {ss : List Sending} {ps : List (UInt8 × RtpWire)} (h : Sends264 ss ps) :
    ∃ vs : List Video, vs.map (fun v => (v.ch, v.rtp)) = ps ∧ (∀ v ∈ vs, v.Valid) ∧ ∀ b, depacketize b vs = ss.map Sending.unescaped := by
  induction h with
  | nil => exact ⟨[], rfl, by simp, fun _ => rfl⟩
  | cons h1 h2 _ ih =>
    obtain ⟨vs, a1, a2, a3, _⟩ := sending_videos h1 h2
    obtain ⟨us, b1, b2, b3⟩ := ih
    refine ⟨vs ++ us, by rw [List.map_append, a1, b1], ?_, ?_⟩
    · intro v hv
      rcases List.mem_append.mp hv with hv | hv
      · exact a2 v hv
      · exact b2 v hv
    · intro b; rw [depacketize_append, a3, b3]; rfl

theorem unescaped_asSent {s : Sending} (hs : s.Ok) (h : ∀ p ∈ s.pieces, ¬ Escaped p) : s.unescaped = s.asSent := by
  unfold Sending.unescaped Sending.asSent
  congr 2
  rw [hs.2.2.2]
  generalize s.pieces = l at h
  clear hs
  induction l with
  | nil => rfl
  | cons m ms ih =>
    rw [List.flatMap_cons, List.flatten_cons, (unescape_self_iff m).mpr (h m (by simp)), ih (fun p hp => h p (by simp [hp]))]

theorem encode_pairs {vs : List Video} {ps : List (UInt8 × RtpWire)} (h : vs.map (fun v => (v.ch, v.rtp)) = ps) :
    ps.map (fun p => (p.1, p.2.encode)) = vs.map (fun v => (v.ch, v.rtp.encode)) := by
  rw [← h, List.map_map]; rfl

/-- C66 for a sender of legal units, exact: if the video packets the client's loop has taken carry a sequence of legal units,
each in one packet or in FU-A fragments cut anywhere, then the client has reported exactly these units, in order, each once
and with its time, the emulation prevention bytes inside each packet removed. This for every schedule. -/
theorem C66_units_exact (w : World) (c : Client) (hr : ClientReachable w c) (ss : List Sending) (ps : List (UInt8 × RtpWire))
    (hs : Sends264 ss ps) (h : onVideo (seen c.trace) = ps.map fun p => (p.1, p.2.encode)) :
    reported c.trace = ss.map Sending.unescaped := by
  obtain ⟨vs, e1, e2, e3⟩ := sends_videos hs
  rw [C66_pipeline_partial w c hr vs ⟨by rw [h, encode_pairs e1], e2⟩, e3]

/-- C66 for a sender of legal units: the units are reported as they were sent, if no packet has an emulation prevention byte
inside. Missing: packets that have one (it is removed, `C66_units_exact`). -/
theorem C66_units_partial (w : World) (c : Client) (hr : ClientReachable w c) (ss : List Sending) (ps : List (UInt8 × RtpWire))
    (hs : Sends264 ss ps) (he : ∀ s ∈ ss, ∀ p ∈ s.pieces, ¬ Escaped p) (h : onVideo (seen c.trace) = ps.map fun p => (p.1, p.2.encode)) :
    reported c.trace = ss.map Sending.asSent := by
  rw [C66_units_exact w c hr ss ps hs h]
  apply List.map_congr_left
  intro s hmem
  refine unescaped_asSent ?_ (he s hmem)
  clear h he hr
  induction hs with
  | nil => cases hmem
  | cons h1 h2 _ ih =>
    rcases List.mem_cons.mp hmem with rfl | hmem
    · exact h1
    · exact ih hmem

/-- C76 for a sender of legal units: a server sends responses and interleaved frames, of at most 2048 bytes of data each, in
pieces of any size, with read deadlines expiring between them; the frames on even channels carry a sequence of legal units,
each in one packet or in fragments cut anywhere. When everything was read and taken, exactly the units have been reported, in
order, each once and with its time, the emulation prevention bytes inside each packet removed. -/
theorem C76_units_partial (w : World) (uri : Bytes) (user : Option (Bytes × Bytes)) (ms : List Msg) (hm : ∀ m ∈ ms, m.Legal ∧ m.size ≤ 2048) (n : Nat)
    (evs : List Ev) (ha : Arrives ms n evs []) (ss : List Sending) (ps : List (UInt8 × RtpWire)) (hs : Sends264 ss ps)
    (hv : onVideo (framesSent ms) = ps.map fun p => (p.1, p.2.encode)) (es : List CEv) (c : Client)
    (hc : ClientRuns w uri user evs es c) (hread : c.rdr.buf = [] ∧ c.rdr.net = []) (htaken : c.data = []) :
    reported c.trace = ss.map Sending.unescaped := by
  obtain ⟨vs, e1, e2, e3⟩ := sends_videos hs
  rw [C76_all_partial w uri user ms hm n evs ha vs ⟨by rw [hv, encode_pairs e1], e2⟩ es c hc hread htaken, e3]

/-! ## A client that has taken such packets -/

/-- A parameter set with an emulation prevention byte in one packet, a slice with two of them in three fragments: one inside
a fragment, one across a boundary. -/
def demoSendings : List Sending := [
  ⟨⟨0x67, [0x42, 0, 0, 3, 1]⟩, .whole, 90⟩,
  ⟨⟨0x65, [0x88, 0, 0, 3, 0, 0, 3, 1, 0xaf]⟩, .cut [0x88, 0, 0, 3, 0] [[0]] [3, 1, 0xaf], 180⟩]

def demoSent : List (UInt8 × RtpWire) := [
  (0, ⟨false, false, 96, 1, 90, 7, [], none, [0x67, 0x42, 0, 0, 3, 1]⟩),
  (0, ⟨false, false, 96, 2, 180, 7, [], none, fuA 0x65 true false [0x88, 0, 0, 3, 0]⟩),
  (0, ⟨false, false, 96, 3, 180, 7, [], none, fuA 0x65 false false [0]⟩),
  (0, ⟨false, true, 96, 4, 180, 7, [], none, fuA 0x65 false true [3, 1, 0xaf]⟩)]

theorem demoSent_sends : Sends264 demoSendings demoSent := by
  have pk : ∀ (m : Bool) (sn ts : Nat) (body : List UInt8), sn < 65536 → ts < 2 ^ 32 → IsPacket body ts (0, ⟨false, m, 96, sn, ts, 7, [], none, body⟩) :=
    fun m sn ts body h1 h2 => ⟨rfl, ⟨show 96 < 128 by decide, h1, h2, show 7 < 2 ^ 32 by decide, show 0 ≤ 15 by decide, fun c hc => by (cases hc), fun e he => by (cases he)⟩, rfl, rfl, rfl⟩
  refine .cons (ps := demoSent.take 1) (qs := demoSent.drop 1) ⟨by decide, by decide, by decide, by decide⟩ ?_ ?_
  · exact .cons (pk _ _ _ _ (by decide) (by decide)) .nil
  · refine .cons (ps := demoSent.drop 1) (qs := []) ⟨by decide, by decide, by decide, by decide⟩ ?_ .nil
    exact .cons (pk _ _ _ _ (by decide) (by decide)) (.cons (pk _ _ _ _ (by decide) (by decide)) (.cons (pk _ _ _ _ (by decide) (by decide)) .nil))

example : ∃ c, ClientReachable demoWorld c ∧ onVideo (seen c.trace) = demoSent.map (fun p => (p.1, p.2.encode)) ∧
    reported c.trace = [(0x67, 90, [0x42, 0, 0, 1]), (0x65, 180, [0x88, 0, 0, 0, 0, 3, 1, 0xaf])] := by
  obtain ⟨c, h1, h2⟩ := demoClient_shows (frames := demoSent.map (·.2.encode)) (es := demoPlay ++ demoFrame ++ demoFrame ++ demoFrame ++ demoFrame)
    (f := fun c => onVideo (seen c.trace)) (a := demoSent.map fun p => (p.1, p.2.encode)) (by decide +kernel)
  refine ⟨c, h1, h2, ?_⟩
  rw [C66_units_exact demoWorld c h1 _ _ demoSent_sends h2]
  decide

/-- Units without emulation prevention bytes inside a packet. -/
example : ∀ s ∈ [(⟨⟨0x67, [0x42, 0, 0, 4]⟩, .whole, 90⟩ : Sending), ⟨⟨0x65, [0x88, 0, 0, 3, 1]⟩, .cut [0x88, 0] [] [0, 3, 1], 180⟩],
    ∀ p ∈ s.pieces, ¬ Escaped p := by decide

end Ouro
