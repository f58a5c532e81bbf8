import Verif.Props.Loss
import Verif.Spec.Streams
/-! # C103, C104: packets out of order, and packets of several streams -/
namespace Ouro
open Spec

theorem Spec.Merged.prefix {α : Type} (l : List α) {as bs cs : List α} (h : Merged as bs cs) : Merged as (l ++ bs) (l ++ cs) := by
  induction l with
  | nil => exact h
  | cons x l ih => exact .right ih

theorem Spec.Merged.perm {α : Type} {as bs cs : List α} (h : Merged as bs cs) : cs.Perm (as ++ bs) := by
  induction h with
  | nil => exact .nil
  | left _ ih => exact ih.cons _
  | right _ ih => exact (ih.cons _).trans (List.perm_middle.symm)

theorem Spec.Merged.mem {α : Type} {as bs cs : List α} (h : Merged as bs cs) {x : α} (hx : x ∈ cs) : x ∈ as ∨ x ∈ bs :=
  List.mem_append.mp (h.perm.mem_iff.mp hx)

theorem Spec.Merged.unmap {α β : Type} (f : α → β) {as : List α} {bs : List α} {cs : List β} (h : Merged (as.map f) (bs.map f) cs) :
    ∃ ds, Merged as bs ds ∧ ds.map f = cs := by
  generalize ha : as.map f = as' at h
  generalize hb : bs.map f = bs' at h
  induction h generalizing as bs with
  | nil =>
    rw [List.map_eq_nil_iff] at ha hb
    subst ha hb
    exact ⟨[], .nil, rfl⟩
  | left _ ih =>
    cases as with
    | nil => cases ha
    | cons x as =>
      rw [List.map_cons, List.cons.injEq] at ha
      obtain ⟨ds, h1, h2⟩ := ih ha.2 hb
      exact ⟨x :: ds, .left h1, by rw [List.map_cons, h2, ha.1]⟩
  | right _ ih =>
    cases bs with
    | nil => cases hb
    | cons x bs =>
      rw [List.map_cons, List.cons.injEq] at hb
      obtain ⟨ds, h1, h2⟩ := ih ha hb.2
      exact ⟨x :: ds, .right h1, by rw [List.map_cons, h2, hb.1]⟩

/-- A packet with a unit of its own. -/
def Alone1 (v : Video) (u : UInt8 × Nat × Bytes) : Prop := (∀ b, v.load.units b v.rtp.ts = [u]) ∧ ∀ b, v.load.kept b = b

inductive Alones : List Video → List (UInt8 × Nat × Bytes) → Prop
  | nil : Alones [] []
  | cons {v u vs us} : Alone1 v u → Alones vs us → Alones (v :: vs) (u :: us)

/-- Units sent in one packet each. -/
theorem wholes_videos {ss : List Sending} {ps : List (UInt8 × RtpWire)} (h : Sends264 ss ps) (hw : ∀ s ∈ ss, s.way = .whole) :
    ∃ vs : List Video, vs.map (fun v => (v.ch, v.rtp)) = ps ∧ (∀ v ∈ vs, v.Valid) ∧ Alones vs (ss.map Sending.unescaped) := by
  induction h with
  | nil => exact ⟨[], rfl, by simp, .nil⟩
  | @cons s ps ss qs h1 h2 _ ih =>
    obtain ⟨vs, e1, e2, e3⟩ := ih fun s hs => hw s (by simp [hs])
    have hs := hw s (by simp)
    unfold Sending.payloads at h2
    rw [hs] at h2
    cases h2 with
    | cons g1 g2 =>
      cases g2
      rename_i p
      refine ⟨⟨p.1, p.2, .single ⟨s.unit.header, unescape 0 s.unit.data⟩⟩ :: vs, by rw [List.map_cons, e1]; rfl, ?_, .cons ⟨?_, fun _ => rfl⟩ e3⟩
      · intro v hv
        rcases List.mem_cons.mp hv with rfl | hv
        · exact whole_video h1 g1
        · exact e2 v hv
      · intro b
        simp [Load.units, Sending.unescaped, Sending.pieces, hs, g1.2.2.2.2]

theorem depacketize_merged {as bs cs : List Video} (h : Merged as bs cs) {us : List (UInt8 × Nat × Bytes)} (ha : Alones as us) (b : Bytes) :
    Merged us (depacketize b bs) (depacketize b cs) := by
  induction h generalizing us b with
  | nil => cases ha; exact .nil
  | left _ ih =>
    cases ha with
    | cons h1 h2 =>
      rw [depacketize, h1.1, h1.2]
      exact .left (ih h2 b)
  | right _ ih =>
    rw [depacketize, depacketize]
    exact (ih ha _).prefix _

/-- Packets of units sent whole, among packets of others. -/
theorem merged_reported {w : World} {c : Client} (hr : ClientReachable w c) {ws cs : List Sending} {wp cp ps : List (UInt8 × RtpWire)}
    (hw : ∀ s ∈ ws, s.way = .whole) (h1 : Sends264 ws wp) (h2 : Sends264 cs cp) (hm : Merged wp cp ps)
    (h : onVideo (seen c.trace) = ps.map fun p => (p.1, p.2.encode)) :
    Merged (ws.map Sending.unescaped) (cs.map Sending.unescaped) (reported c.trace) := by
  obtain ⟨as, a1, a2, a3⟩ := wholes_videos h1 hw
  obtain ⟨bs, b1, b2, b3⟩ := sends_videos h2
  subst a1 b1
  obtain ⟨vs, v1, v2⟩ := hm.unmap
  rw [C66_pipeline_partial w c hr vs ⟨by rw [h, encode_pairs v2], fun v hv => (v1.mem hv).elim (a2 v) (b2 v)⟩]
  have := depacketize_merged v1 a3 []
  rwa [b3] at this

/-- C103, part: the packets of units sent whole arrive in any order, among each other and among the fragments of other units; the fragments arrive in their
order. Then every unit sent is reported once and complete, with its time, but not in the order in which the units were sent. Missing: the order
(`C103_order_refuted`), copies (`C103_twice_refuted`), fragments out of order (`C103_fragments_iff`). -/
theorem C103_permuted_partial (w : World) (c : Client) (hr : ClientReachable w c) (ss ws cs : List Sending) (hss : ss.Perm (ws ++ cs))
    (hw : ∀ s ∈ ws, s.way = .whole) (wp cp ps : List (UInt8 × RtpWire)) (h1 : Sends264 ws wp) (h2 : Sends264 cs cp) (hm : Merged wp cp ps)
    (h : onVideo (seen c.trace) = ps.map fun p => (p.1, p.2.encode)) : (reported c.trace).Perm (ss.map Sending.unescaped) := by
  refine (merged_reported hr hw h1 h2 hm h).perm.trans ?_
  rw [← List.map_append]
  exact (hss.map _).symm

/-- C103 fails for every two different units of which the later arrives first: they are reported as they arrive, whatever the sequence numbers. -/
theorem C103_order_refuted (w : World) (c : Client) (hr : ClientReachable w c) (s t : Sending) (hs : s.Ok) (ht : t.Ok) (hne : s.unescaped ≠ t.unescaped)
    (ps qs : List (UInt8 × RtpWire)) (hp : PacketsOf s.ts s.payloads ps) (hq : PacketsOf t.ts t.payloads qs) (_ : Numbered (ps ++ qs))
    (h : onVideo (seen c.trace) = (qs ++ ps).map fun p => (p.1, p.2.encode)) :
    reported c.trace = [t.unescaped, s.unescaped] ∧ reported c.trace ≠ [s.unescaped, t.unescaped] := by
  have : Sends264 [t, s] (qs ++ (ps ++ [])) := .cons ht hq (.cons hs hp .nil)
  rw [List.append_nil] at this
  obtain ⟨vs, e1, e2, e3⟩ := sends_videos this
  rw [C66_pipeline_partial w c hr vs ⟨by rw [h, encode_pairs e1], e2⟩, e3]
  refine ⟨rfl, fun e => hne ?_⟩
  simp only [List.map_cons, List.map_nil, List.cons.injEq] at e
  exact e.1.symm

/-- C103 fails for every unit whose packets arrive twice: it is reported twice. -/
theorem C103_twice_refuted (w : World) (c : Client) (hr : ClientReachable w c) (s : Sending) (hs : s.Ok)
    (ps : List (UInt8 × RtpWire)) (hp : PacketsOf s.ts s.payloads ps) (h : onVideo (seen c.trace) = (ps ++ ps).map fun p => (p.1, p.2.encode)) :
    reported c.trace = [s.unescaped, s.unescaped] := by
  have : Sends264 [s, s] (ps ++ (ps ++ [])) := .cons hs hp (.cons hs hp .nil)
  rw [List.append_nil] at this
  obtain ⟨vs, e1, e2, e3⟩ := sends_videos this
  rw [C66_pipeline_partial w c hr vs ⟨by rw [h, encode_pairs e1], e2⟩, e3]
  rfl

/-- C103 for the fragments between the first and the last, exactly: they arrive in any order, any number of times each. They are put together as they arrive,
so that the unit is right if and only if this makes no difference. -/
theorem C103_fragments_iff (w : World) (c : Client) (hr : ClientReachable w c) (s : Sending) (hs : s.Ok) (first : Bytes) (mids : List Bytes) (last : Bytes)
    (hw : s.way = .cut first mids last) (got : List Bytes) (hk : ∀ m ∈ got, m ∈ mids) (ps : List (UInt8 × RtpWire))
    (hp : PacketsOf s.ts (fuA s.unit.header true false first :: (got.map (fuA s.unit.header false false) ++ [fuA s.unit.header false true last])) ps)
    (h : onVideo (seen c.trace) = ps.map fun p => (p.1, p.2.encode)) :
    reported c.trace = [(s.unit.header, s.ts, unescape 0 first ++ got.flatMap (unescape 0) ++ unescape 0 last)] ∧
      (reported c.trace = [s.unescaped] ↔ got.flatMap (unescape 0) = mids.flatMap (unescape 0)) := by
  have hpieces : s.pieces = first :: (mids ++ [last]) := by unfold Sending.pieces; rw [hw]
  have hrep : reported c.trace = [(s.unit.header, s.ts, unescape 0 first ++ got.flatMap (unescape 0) ++ unescape 0 last)] := by
    cases hp with
    | cons h1 h2 =>
      rename_i p ps
      obtain ⟨vs, e1, e2, e3, _⟩ := mid_videos hs last (piece_infix hs (by simp [hpieces])) got ps
        (fun m hm' => piece_infix hs (by simp [hpieces, hk m hm'])) h2
      rw [C66_pipeline_partial w c hr (fuLoad s.unit.header true false p first :: vs) ⟨by rw [h, encode_pairs (vs := fuLoad s.unit.header true false p first :: vs)]; rw [List.map_cons, e1]; rfl, ?_⟩]
      · simp [depacketize, fuLoad, Load.units, Load.kept, e3]
      · intro v hv
        rcases List.mem_cons.mp hv with rfl | hv
        · exact fu_video hs (piece_infix hs (by simp [hpieces])) h1
        · exact e2 v hv
  refine ⟨hrep, ?_⟩
  rw [hrep, Sending.unescaped, hpieces]
  simp only [List.flatMap_cons, List.flatMap_append, List.flatMap_nil, List.append_nil, List.cons.injEq, Prod.mk.injEq, true_and, and_true, List.append_assoc,
    List.append_cancel_left_eq, List.append_cancel_right_eq]

/-- C104, part: two streams on their channels, of which one sends its units whole. However their packets mix, the units of each are reported complete, in the
order of the stream. If both send fragments, but one unit after the other, `C103_permuted_partial` holds of the units of both. Missing: fragments of both
streams that mix (`C104_mixed_refuted`). -/
theorem C104_apart_partial (w : World) (c : Client) (hr : ClientReachable w c) (ch ch' : UInt8) (ss ts : List Sending) (hw : ∀ s ∈ ss, s.way = .whole)
    (ps qs rs : List (UInt8 × RtpWire)) (h1 : Sends264 ss ps) (_ : OnChannel ch ps) (h2 : Sends264 ts qs) (_ : OnChannel ch' qs) (hm : Merged ps qs rs)
    (h : onVideo (seen c.trace) = rs.map fun p => (p.1, p.2.encode)) :
    Merged (ss.map Sending.unescaped) (ts.map Sending.unescaped) (reported c.trace) :=
  merged_reported hr hw h1 h2 hm h

theorem closed_videos {s : Sending} (hs : s.Ok) (last : Bytes) (hlast : last <:+: s.unit.data) : ∀ (mids : List Bytes) (ps : List (UInt8 × RtpWire)),
    (∀ m ∈ mids, m <:+: s.unit.data) → PacketsOf s.ts (mids.map (fuA s.unit.header false false) ++ [fuA s.unit.header false true last]) ps →
    ∃ vs : List Video, vs.map (fun v => (v.ch, v.rtp)) = ps ∧ (∀ v ∈ vs, v.Valid) ∧
      (∀ b, depacketize b vs = [(s.unit.header, s.ts, b ++ mids.flatMap (unescape 0) ++ unescape 0 last)]) ∧
      ∀ b, keptAfter b vs = b ++ mids.flatMap (unescape 0) ++ unescape 0 last := by
  intro mids
  induction mids with
  | nil =>
    intro ps _ hp
    cases hp with
    | cons h1 h2 =>
      cases h2
      rename_i p
      refine ⟨[fuLoad s.unit.header false true p last], rfl, ?_, ?_, ?_⟩
      · intro v hv; rw [List.mem_singleton] at hv; subst hv; exact fu_video hs hlast h1
      · intro b; simp [depacketize, fuLoad, Load.units, h1.2.2.2.2]
      · intro b; simp [keptAfter, fuLoad, Load.kept]
  | cons m mids ih =>
    intro ps hm hp
    cases hp with
    | cons h1 h2 =>
      rename_i p ps
      obtain ⟨vs, e1, e2, e3, e4⟩ := ih ps (fun x hx => hm x (by simp [hx])) h2
      refine ⟨fuLoad s.unit.header false false p m :: vs, by rw [List.map_cons, e1]; rfl, ?_, ?_, ?_⟩
      · intro v hv
        rcases List.mem_cons.mp hv with rfl | hv
        · exact fu_video hs (hm m (by simp)) h1
        · exact e2 v hv
      · intro b
        simp only [depacketize, fuLoad, Load.units, Load.kept, Bool.false_eq_true, if_false, List.nil_append, e3, List.flatMap_cons, List.append_assoc]
      · intro b
        simp only [keptAfter, fuLoad, Load.kept, Bool.false_eq_true, if_false, e4, List.flatMap_cons, List.append_assoc]

/-- C104 fails for every two units in fragments, one of each stream, if the second begins after the first has begun and goes on after it has ended. Of the
units sent on two channels the client makes two that nobody sent: one with the header of the first unit but the first fragment of the second in place of
its own, one with the header of the second and the rest of the first in its middle. -/
theorem C104_mixed_refuted (w : World) (c : Client) (hr : ClientReachable w c) (ch ch' : UInt8) (_ : ch ≠ ch') (s t : Sending) (hs : s.Ok) (ht : t.Ok)
    (sfirst slast tfirst tlast : Bytes) (smids tmids : List Bytes) (hsw : s.way = .cut sfirst smids slast) (htw : t.way = .cut tfirst tmids tlast)
    (ps qs rs us : List (UInt8 × RtpWire)) (hp : PacketsOf s.ts [fuA s.unit.header true false sfirst] ps)
    (hq : PacketsOf t.ts [fuA t.unit.header true false tfirst] qs)
    (hrs : PacketsOf s.ts (smids.map (fuA s.unit.header false false) ++ [fuA s.unit.header false true slast]) rs)
    (hus : PacketsOf t.ts (tmids.map (fuA t.unit.header false false) ++ [fuA t.unit.header false true tlast]) us)
    (hch : OnChannel ch (ps ++ rs)) (hch' : OnChannel ch' (qs ++ us)) (h : onVideo (seen c.trace) = (ps ++ qs ++ rs ++ us).map fun p => (p.1, p.2.encode)) :
    let mixed := unescape 0 tfirst ++ smids.flatMap (unescape 0) ++ unescape 0 slast
    reported c.trace = [(s.unit.header, s.ts, mixed), (t.unit.header, t.ts, mixed ++ tmids.flatMap (unescape 0) ++ unescape 0 tlast)] := by
  clear hch hch'
  have hsp : s.pieces = sfirst :: (smids ++ [slast]) := by unfold Sending.pieces; rw [hsw]
  have htp : t.pieces = tfirst :: (tmids ++ [tlast]) := by unfold Sending.pieces; rw [htw]
  cases hp with
  | cons p1 p2 =>
  cases p2
  cases hq with
  | cons q1 q2 =>
  cases q2
  rename_i p q
  obtain ⟨vs, e1, e2, e3, e4⟩ := closed_videos hs slast (piece_infix hs (by simp [hsp])) smids rs (fun m hm' => piece_infix hs (by simp [hsp, hm'])) hrs
  obtain ⟨ws, f1, f2, f3, f4⟩ := closed_videos ht tlast (piece_infix ht (by simp [htp])) tmids us (fun m hm' => piece_infix ht (by simp [htp, hm'])) hus
  have he : (fuLoad s.unit.header true false p sfirst :: fuLoad t.unit.header true false q tfirst :: (vs ++ ws)).map (fun v => (v.ch, v.rtp)) =
      [p] ++ [q] ++ rs ++ us := by
    simp only [List.map_cons, List.map_append, e1, f1]
    simp [fuLoad]
  rw [C66_pipeline_partial w c hr _ ⟨by rw [h, encode_pairs he], ?_⟩]
  · simp [depacketize, fuLoad, Load.units, Load.kept, depacketize_append, e3, e4, f3]
  · intro v hv
    rcases List.mem_cons.mp hv with rfl | hv
    · exact fu_video hs (piece_infix hs (by simp [hsp])) p1
    · rcases List.mem_cons.mp hv with rfl | hv
      · exact fu_video ht (piece_infix ht (by simp [htp])) q1
      · rcases List.mem_append.mp hv with hv | hv
        · exact e2 v hv
        · exact f2 v hv

/-! ## Clients that have taken such packets -/

/-- A server with two feeds, and frames on their channels. -/
def demoStream2 (frames : List (UInt8 × Bytes)) : Bytes :=
  b!"RTSP/1.0 200 OK\r\nCSeq: 1\r\n\r\nRTSP/1.0 200 OK\r\nCSeq: 2\r\nContent-Length: 70\r\n\r\nm=video 0 RTP/AVP 96\r\na=control:v\r\nm=video 0 RTP/AVP 96\r\na=control:w\r\n" ++
  b!"RTSP/1.0 200 OK\r\nCSeq: 3\r\n\r\nRTSP/1.0 200 OK\r\nCSeq: 4\r\n\r\nRTSP/1.0 200 OK\r\nCSeq: 5\r\n\r\n" ++ frames.flatMap (fun p => (Msg.frame p.1 p.2).bytes)

/-- The client with that server. -/
def demoClient2 (frames : List (UInt8 × Bytes)) (es : List CEv) : Option Client :=
  match clientOpen demoWorld b!"rtsp://h/x" none ⟨[], none, (demoStream2 frames).map .byte⟩ with
  | .ok c => (csteps demoWorld c es).toOption
  | .error _ => none

theorem demoClient2_shows {frames : List (UInt8 × Bytes)} {es : List CEv} {α : Type} {f : Client → α} {a : α} (h : (demoClient2 frames es).map f = some a) :
    ∃ c, ClientReachable demoWorld c ∧ f c = a := by
  cases hc : demoClient2 frames es with
  | none => rw [hc] at h; cases h
  | some c =>
    rw [hc] at h; injection h with h
    refine ⟨c, ?_, h⟩
    unfold demoClient2 at hc
    split at hc
    · next c0 h0 =>
      cases hs : csteps demoWorld c0 es with
      | error _ => rw [hs] at hc; cases hc
      | ok d => rw [hs] at hc; injection hc with hc; subst hc; exact ⟨_, _, _, 0, _, _, h0, hs⟩
    · cases hc

def demoPlay2 : List CEv := [.read, .read, .read, .read, .stage, .read, .stage]

/-- The two feeds are set up on channels 0 and 2. -/
example : ∃ c, ClientReachable demoWorld c ∧ milestones c.trace = course.take 3 := demoClient2_shows (frames := []) (es := demoPlay2) (by decide +kernel)

theorem demo_packet_on (ch : UInt8) (h0 : ch % 2 = 0) (m : Bool) (sn ts : Nat) (body : List UInt8) (h1 : sn < 65536) (h2 : ts < 2 ^ 32) :
    IsPacket body ts (ch, ⟨false, m, 96, sn, ts, 7, [], none, body⟩) :=
  ⟨h0, ⟨show 96 < 128 by decide, h1, h2, show 7 < 2 ^ 32 by decide, show 0 ≤ 15 by decide, fun c hc => by (cases hc), fun e he => by (cases he)⟩, rfl, rfl, rfl⟩

/-- C103: the unit sent last in one packet arrives between the fragments of the one before. Both are reported, in the other order. -/
example : ∃ c, ClientReachable demoWorld c ∧ Numbered (demoCutSent ++ demoWholeSent) ∧
    onVideo (seen c.trace) = (demoCutSent.take 1 ++ demoWholeSent ++ demoCutSent.drop 1).map (fun p => (p.1, p.2.encode)) ∧
    (reported c.trace).Perm [demoCut.unescaped, demoWhole.unescaped] := by
  obtain ⟨c, h1, h2⟩ := demoClient_shows (frames := (demoCutSent.take 1 ++ demoWholeSent ++ demoCutSent.drop 1).map (·.2.encode)) (es := demoPlay ++ demoFrame ++ demoFrame ++ demoFrame ++ demoFrame)
    (f := fun c => onVideo (seen c.trace)) (a := (demoCutSent.take 1 ++ demoWholeSent ++ demoCutSent.drop 1).map fun p => (p.1, p.2.encode)) (by decide +kernel)
  refine ⟨c, h1, ⟨rfl, rfl, rfl, trivial⟩, h2, ?_⟩
  exact C103_permuted_partial demoWorld c h1 [demoCut, demoWhole] [demoWhole] [demoCut] (.swap _ _ _) (by simp [demoWhole]) (demoWholeSent ++ []) (demoCutSent ++ []) _
    (.cons demoWhole_ok demoWholeSent_of .nil) (.cons demoCut_ok demoCutSent_of .nil) (.right (.left (.right (.right .nil)))) h2

/-- C103: the unit sent last arrives first. -/
example : ∃ c, ClientReachable demoWorld c ∧ Numbered (demoCutSent ++ demoWholeSent) ∧ demoCut.unescaped ≠ demoWhole.unescaped ∧
    onVideo (seen c.trace) = (demoWholeSent ++ demoCutSent).map (fun p => (p.1, p.2.encode)) := by
  obtain ⟨c, h1, h2⟩ := demoClient_shows (frames := (demoWholeSent ++ demoCutSent).map (·.2.encode)) (es := demoPlay ++ demoFrame ++ demoFrame ++ demoFrame ++ demoFrame)
    (f := fun c => onVideo (seen c.trace)) (a := (demoWholeSent ++ demoCutSent).map fun p => (p.1, p.2.encode)) (by decide +kernel)
  exact ⟨c, h1, ⟨rfl, rfl, rfl, trivial⟩, by decide, h2⟩

/-- C103: a packet arrives twice. -/
example : ∃ c, ClientReachable demoWorld c ∧ PacketsOf demoWhole.ts demoWhole.payloads demoWholeSent ∧
    onVideo (seen c.trace) = (demoWholeSent ++ demoWholeSent).map (fun p => (p.1, p.2.encode)) := by
  obtain ⟨c, h1, h2⟩ := demoClient_shows (frames := (demoWholeSent ++ demoWholeSent).map (·.2.encode)) (es := demoPlay ++ demoFrame ++ demoFrame)
    (f := fun c => onVideo (seen c.trace)) (a := (demoWholeSent ++ demoWholeSent).map fun p => (p.1, p.2.encode)) (by decide +kernel)
  exact ⟨c, h1, demoWholeSent_of, h2⟩

/-- C103: the fragment between the first and the last arrives twice, and its data are twice in the unit. -/
example : ∃ c, ClientReachable demoWorld c ∧ onVideo (seen c.trace) = (demoCutSent.take 2 ++ demoCutSent.drop 1).map (fun p => (p.1, p.2.encode)) ∧
    reported c.trace = [(0x65, 180, [0x88, 1, 2, 3, 2, 3, 4, 5])] := by
  obtain ⟨c, h1, h2⟩ := demoClient_shows (frames := (demoCutSent.take 2 ++ demoCutSent.drop 1).map (·.2.encode)) (es := demoPlay ++ demoFrame ++ demoFrame ++ demoFrame ++ demoFrame)
    (f := fun c => onVideo (seen c.trace)) (a := (demoCutSent.take 2 ++ demoCutSent.drop 1).map fun p => (p.1, p.2.encode)) (by decide +kernel)
  refine ⟨c, h1, h2, ?_⟩
  exact (C103_fragments_iff demoWorld c h1 demoCut demoCut_ok [0x88, 1] [[2, 3]] [4, 5] rfl [[2, 3], [2, 3]] (by simp) (demoCutSent.take 2 ++ demoCutSent.drop 1)
    (.cons (demo_packet _ _ _ _ (by decide) (by decide)) (.cons (demo_packet _ _ _ _ (by decide) (by decide)) (.cons (demo_packet _ _ _ _ (by decide) (by decide))
      (.cons (demo_packet _ _ _ _ (by decide) (by decide)) .nil)))) h2).1

/-- The packets of the second stream. -/
def demoOther : List (UInt8 × RtpWire) := [
  (2, ⟨false, false, 96, 70, 360, 7, [], none, fuA 0x41 true false [0x9a]⟩),
  (2, ⟨false, true, 96, 71, 360, 7, [], none, fuA 0x41 false true [7, 8]⟩)]

/-- C104: a stream in fragments on channel 2, a unit in one packet on channel 0 in between. -/
example : ∃ c, ClientReachable demoWorld c ∧ OnChannel 0 demoWholeSent ∧ OnChannel 2 demoOther ∧
    onVideo (seen c.trace) = (demoOther.take 1 ++ demoWholeSent ++ demoOther.drop 1).map (fun p => (p.1, p.2.encode)) ∧
    Merged [demoWhole.unescaped] [demoCut2.unescaped] (reported c.trace) := by
  obtain ⟨c, h1, h2⟩ := demoClient2_shows (frames := (demoOther.take 1 ++ demoWholeSent ++ demoOther.drop 1).map fun p => (p.1, p.2.encode)) (es := demoPlay2 ++ demoFrame ++ demoFrame ++ demoFrame)
    (f := fun c => onVideo (seen c.trace)) (a := (demoOther.take 1 ++ demoWholeSent ++ demoOther.drop 1).map fun p => (p.1, p.2.encode)) (by decide +kernel)
  have ho : OnChannel 2 demoOther := by intro p hp; simp [demoOther] at hp; rcases hp with rfl | rfl <;> rfl
  have hc : OnChannel 0 demoWholeSent := by intro p hp; simp [demoWholeSent] at hp; subst hp; rfl
  refine ⟨c, h1, hc, ho, h2, ?_⟩
  exact C104_apart_partial demoWorld c h1 0 2 [demoWhole] [demoCut2] (by simp [demoWhole]) (demoWholeSent ++ []) (demoOther ++ []) _
    (.cons demoWhole_ok demoWholeSent_of .nil) hc (.cons ⟨by decide, by decide, by decide, by decide⟩ (.cons (demo_packet_on 2 rfl _ _ _ _ (by decide) (by decide))
      (.cons (demo_packet_on 2 rfl _ _ _ _ (by decide) (by decide)) .nil)) .nil) ho (.right (.left (.right .nil))) h2

/-- C104: fragments of both streams mix. -/
example : ∃ c, ClientReachable demoWorld c ∧
    onVideo (seen c.trace) = (demoCutSent.take 1 ++ demoOther.take 1 ++ demoCutSent.drop 1 ++ demoOther.drop 1).map (fun p => (p.1, p.2.encode)) ∧
    reported c.trace = [(0x65, 180, [0x9a, 2, 3, 4, 5]), (0x41, 360, [0x9a, 2, 3, 4, 5, 7, 8])] := by
  obtain ⟨c, h1, h2⟩ := demoClient2_shows (frames := (demoCutSent.take 1 ++ demoOther.take 1 ++ demoCutSent.drop 1 ++ demoOther.drop 1).map fun p => (p.1, p.2.encode))
    (es := demoPlay2 ++ demoFrame ++ demoFrame ++ demoFrame ++ demoFrame ++ demoFrame)
    (f := fun c => onVideo (seen c.trace)) (a := (demoCutSent.take 1 ++ demoOther.take 1 ++ demoCutSent.drop 1 ++ demoOther.drop 1).map fun p => (p.1, p.2.encode)) (by decide +kernel)
  have ho : OnChannel 2 demoOther := by intro p hp; simp [demoOther] at hp; rcases hp with rfl | rfl <;> rfl
  have hc : OnChannel 0 demoCutSent := by intro p hp; simp [demoCutSent] at hp; rcases hp with rfl | rfl | rfl <;> rfl
  refine ⟨c, h1, h2, ?_⟩
  rw [C104_mixed_refuted demoWorld c h1 0 2 (by decide) demoCut demoCut2 demoCut_ok ⟨by decide, by decide, by decide, by decide⟩ [0x88, 1] [4, 5] [0x9a] [7, 8] [[2, 3]] [] rfl rfl
    (demoCutSent.take 1) (demoOther.take 1) (demoCutSent.drop 1) (demoOther.drop 1)
    (.cons (demo_packet _ _ _ _ (by decide) (by decide)) .nil) (.cons (demo_packet_on 2 rfl _ _ _ _ (by decide) (by decide)) .nil)
    (.cons (demo_packet _ _ _ _ (by decide) (by decide)) (.cons (demo_packet _ _ _ _ (by decide) (by decide)) .nil))
    (.cons (demo_packet_on 2 rfl _ _ _ _ (by decide) (by decide)) .nil) hc ho h2]
  decide

end Ouro
