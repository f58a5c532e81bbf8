import Verif.Spec.Channels
import Verif.Props.Main
import Verif.Props.Compound
import Verif.Lemmas.Nal2
/-!
# C113: the channels granted by the server are the channels that are used
-/
namespace Ouro
open Spec

/-- A server that grants a stream the channels `a` and `b` and sends frames. -/
def grantStream (a b : UInt8) (frames : List (UInt8 × Bytes)) : Bytes :=
  b!"RTSP/1.0 200 OK\r\nCSeq: 1\r\n\r\nRTSP/1.0 200 OK\r\nCSeq: 2\r\nContent-Length: 35\r\n\r\nm=video 0 RTP/AVP 96\r\na=control:v\r\n" ++
  b!"RTSP/1.0 200 OK\r\nCSeq: 3\r\nTransport: RTP/AVP/TCP;unicast;interleaved=" ++ itoa a.toNat ++ b!"-" ++ itoa b.toNat ++
  b!"\r\n\r\nRTSP/1.0 200 OK\r\nCSeq: 4\r\n\r\n" ++ frames.flatMap (fun x => (Msg.frame x.1 x.2).bytes)

/-- The client with that server. -/
def grantClient (a b : UInt8) (frames : List (UInt8 × Bytes)) (es : List CEv) : Option Client :=
  match clientOpen demoWorld b!"rtsp://h/x" none ⟨[], none, (grantStream a b frames).map .byte⟩ with
  | .ok c => (csteps demoWorld c es).toOption
  | .error _ => none

theorem grantClient_shows {a b : UInt8} {frames : List (UInt8 × Bytes)} {es : List CEv} {α : Type} {f : Client → α} {x : α}
    (h : (grantClient a b frames es).map f = some x) : ∃ c, ClientReachable demoWorld c ∧ f c = x := by
  cases hc : grantClient a b frames es with
  | none => rw [hc] at h; cases h
  | some c =>
    rw [hc] at h
    injection h with h
    refine ⟨c, ?_, h⟩
    unfold grantClient at hc
    split at hc
    · next c0 h0 =>
      cases hs : csteps demoWorld c0 es with
      | error p => rw [hs] at hc; cases hc
      | ok d => rw [hs] at hc; injection hc with hc; subst hc; exact ⟨_, _, _, 0, c0, es, h0, hs⟩
    · cases hc

/-! ## What holds -/

theorem mediaOf_frames (a b : UInt8) (ha : a % 2 = 0) (hb : b % 2 ≠ 0) : ∀ cs : List Carried,
    onVideo (cs.map (Carried.frame a b)) = (mediaOf a cs).map fun v => (v.ch, v.rtp.encode)
  | [] => rfl
  | .media rtp load :: rest => by
    have ih := mediaOf_frames a b ha hb rest
    unfold onVideo at ih ⊢
    rw [List.map_cons, List.filter_cons_of_pos (a := Carried.frame a b (.media rtp load)) (decide_eq_true ha), ih]
    rfl
  | .control first more :: rest => by
    have ih := mediaOf_frames a b ha hb rest
    unfold onVideo at ih ⊢
    rw [List.map_cons, List.filter_cons_of_neg (a := Carried.frame a b (.control first more)) (fun h => hb (of_decide_eq_true h)), ih]
    rfl

theorem mediaOf_valid (a : UInt8) (ha : a % 2 = 0) : ∀ cs : List Carried, (∀ x ∈ cs, x.Valid) → ∀ v ∈ mediaOf a cs, v.Valid
  | [], _, v, hv => by (cases hv)
  | .media rtp load :: rest, h, v, hv => by
    rcases List.mem_cons.1 hv with rfl | hv
    · obtain ⟨h1, h2, h3, h4⟩ := h (.media rtp load) (List.mem_cons_self ..)
      exact ⟨ha, h1, h2, h3, h4⟩
    · exact mediaOf_valid a ha rest (fun x hx => h x (List.mem_cons_of_mem _ hx)) v hv
  | .control first more :: rest, h, v, hv => mediaOf_valid a ha rest (fun x hx => h x (List.mem_cons_of_mem _ hx)) v hv

/-- C113, with an even data channel and an odd control channel: what is reported are the units of the RTP packets, and the RTCP packets
change nothing. Missing: other channels, see below. -/
theorem C113_units_partial (a b : UInt8) (ha : a % 2 = 0) (hb : b % 2 ≠ 0) (w : World) (c : Client) (hr : ClientReachable w c)
    (cs : List Carried) (hv : ∀ x ∈ cs, x.Valid) (hs : seen c.trace = cs.map (Carried.frame a b)) :
    reported c.trace = depacketize [] (mediaOf a cs) :=
  C66_pipeline_partial w c hr _ ⟨by rw [hs, mediaOf_frames a b ha hb], mediaOf_valid a ha cs hv⟩

/-- C113, with such channels: no packet of the stream ends the client. -/
theorem C113_goes_on_partial (a b : UInt8) (ha : a % 2 = 0) (hb : b % 2 ≠ 0) (w : World) (c : Client) (hr : ClientReachable w c) (hne : c.ended = false)
    (x : Carried) (hv : x.Valid) (rest : List (UInt8 × Bytes)) (hd : c.data = x.frame a b :: rest) :
    ∃ c', cstep w c .packet = .ok c' ∧ c'.ended = false ∧ c'.data = rest ∧ seen c'.trace = seen c.trace ++ [x.frame a b] := by
  cases x with
  | media rtp load =>
    obtain ⟨h1, h2, h3, h4⟩ := hv
    obtain ⟨c', k1, k2, k3, _, k5⟩ := C66_packet_partial w c hr hne ⟨a, rtp, load⟩ ⟨ha, h1, h2, h3, h4⟩ rest hd
    exact ⟨c', k1, k2, k3, k5⟩
  | control first more => exact ⟨_, C105_client w c hne b hb first hv more rest hd, hne, rfl, rfl⟩

/-! ## What does not -/

/-- C113: an RTP packet on an odd channel is taken for an RTCP packet: nothing of it is reported, and the client goes on or, if it looks
like a sender report that is too short, ends. -/
theorem C113_odd_exact (a : UInt8) (ha : a % 2 ≠ 0) (w : World) (c : Client) (hne : c.ended = false) (p : RtpWire) (hp : p.Valid)
    (rest : List (UInt8 × Bytes)) (hd : c.data = (a, p.encode) :: rest) :
    ∃ c', cstep w c .packet = .ok c' ∧ reported c'.trace = reported c.trace ∧ seen c'.trace = seen c.trace ++ [(a, p.encode)] ∧ c'.data = rest ∧
      (c'.ended = true ↔ p.marker = true ∧ p.pt = 72 ∧ p.encode.length < 28 + 24 * (bit p.ext.isSome 16 + p.csrc.length)) := by
  have hb : ∀ x : Bool, ∀ n, bit x n ≤ n := fun x n => by unfold bit; split <;> omega
  have hbx := hb p.padding 32
  have hbe := hb p.ext.isSome 16
  have hbm := hb p.marker 128
  have hcc := hp.cc
  have hpt := hp.pt
  obtain ⟨b0, e0⟩ : ∃ b0, b0 = UInt8.ofNat (128 + bit p.padding 32 + bit p.ext.isSome 16 + p.csrc.length) := ⟨_, rfl⟩
  obtain ⟨b1, e1⟩ : ∃ b1, b1 = UInt8.ofNat (bit p.marker 128 + p.pt) := ⟨_, rfl⟩
  have n0 : b0.toNat = 128 + bit p.padding 32 + bit p.ext.isSome 16 + p.csrc.length := by
    rw [e0, UInt8.toNat_ofNat']; omega
  have n1 : b1.toNat = bit p.marker 128 + p.pt := by rw [e1, UInt8.toNat_ofNat']; omega
  obtain ⟨x, y, tl, he, hl⟩ : ∃ x y tl, p.encode = b0 :: b1 :: x :: y :: tl ∧ p.encode.length = tl.length + 4 := by
    refine ⟨UInt8.ofNat (p.sn / 256), UInt8.ofNat p.sn, be32 p.ts ++ be32 p.ssrc ++ p.csrc.flatMap be32 ++ p.extBytes ++ p.body, ?_, ?_⟩
    · rw [e0, e1]; unfold RtpWire.encode; simp [be16]
    · unfold RtpWire.encode; simp [be16]
  have v2 : b0.toNat / 64 = 2 := by
    rw [n0]; unfold bit; split <;> split <;> omega
  have cnt : b0.toNat % 32 = bit p.ext.isSome 16 + p.csrc.length := by
    rw [n0]; unfold bit; split <;> split <;> omega
  have h200 : b1 = 200 ↔ p.marker = true ∧ p.pt = 72 := by
    rw [← UInt8.toNat_inj, n1, show (200 : UInt8).toNat = 200 from rfl]
    cases p.marker <;> simp [bit] <;> omega
  unfold cstep
  rw [if_neg (by rw [hne]; decide)]
  dsimp only
  unfold clientPacket
  rw [hd]
  dsimp only
  rw [if_neg ha, he]
  by_cases hok : b1 = 200 → 24 + 24 * (b0.toNat % 32) ≤ tl.length
  · obtain ⟨q, hq⟩ := (C105_accepted_iff b0 b1 x y tl).2 ⟨v2, hok⟩
    rw [hq]
    refine ⟨_, rfl, rfl, rfl, rfl, ?_⟩
    refine ⟨fun h => ?_, fun ⟨m1, m2, m3⟩ => ?_⟩
    · have h : c.ended = true := h
      rw [hne] at h; cases h
    · have := hok (h200.2 ⟨m1, m2⟩)
      rw [← he, hl, ← cnt] at m3
      omega
  · have h1 : b1 = 200 := Decidable.byContradiction fun h => hok fun h' => absurd h' h
    have h2 : ¬ 24 + 24 * (b0.toNat % 32) ≤ tl.length := fun h => hok fun _ => h
    rw [h1, C26_short b0 x y tl v2 (by simp only [List.length_cons]; omega)]
    refine ⟨_, rfl, rfl, rfl, rfl, fun _ => ⟨(h200.1 h1).1, (h200.1 h1).2, ?_⟩, fun _ => rfl⟩
    rw [← h1, ← he, hl, ← cnt]
    omega

/-- A unit in an RTP packet. -/
def demoUnit : RtpWire := ⟨false, false, 96, 4, 270, 7, [], none, [0x41, 9]⟩

theorem demoUnit_valid : (Carried.media demoUnit (.single ⟨0x41, [9]⟩)).Valid :=
  ⟨⟨show 96 < 128 by decide, show 4 < 65536 by decide, show 270 < 2 ^ 32 by decide, show 7 < 2 ^ 32 by decide, show 0 ≤ 15 by decide,
    fun c hc => by (cases hc), fun e he => by (cases he)⟩, by decide, by decide, by show (0x41 : UInt8) &&& 0x1F ∉ [24, 25, 26, 27, 28, 29]; decide⟩

/-- The channels granted to the streams of a session. -/
def grants (c : Client) : List (Option Pair) := c.sess.feeds.map fun f => if f.isSet then some f.transp.interleave else none

theorem odd_run : ∀ a : UInt8, a % 2 = 0 ∨ (grantClient a (a + 1) [(a, demoUnit.encode)] (demoPlay ++ demoFrame)).map (fun c =>
    decide (grants c = [some ⟨a.toNat, (a + 1).toNat⟩] ∧ seen c.trace = [(a, demoUnit.encode)] ∧ reported c.trace = [])) = some true := by
  refine forall_u8 ?_
  decide +kernel

theorem succ_odd : ∀ a : UInt8, a % 2 = 0 → (a + 1) % 2 ≠ 0 := by
  refine forall_u8 ?_
  decide +kernel

/-- C113, exactly, for a stream that was granted the channels `a` and `a + 1`, as servers do: what is reported are the units of the RTP
packets of the stream, whatever is sent, if and only if `a` is even. -/
theorem C113_granted_iff (a : UInt8) :
    (∀ (w : World) (c : Client), ClientReachable w c → grants c = [some ⟨a.toNat, (a + 1).toNat⟩] →
      ∀ cs : List Carried, (∀ x ∈ cs, x.Valid) → seen c.trace = cs.map (Carried.frame a (a + 1)) →
        reported c.trace = depacketize [] (mediaOf a cs)) ↔ a % 2 = 0 := by
  refine ⟨fun h => ?_, fun ha w c hr _ cs hv hs => C113_units_partial a (a + 1) ha (succ_odd a ha) w c hr cs hv hs⟩
  rcases odd_run a with he | ho
  · exact he
  · obtain ⟨c, hr, hc⟩ := grantClient_shows ho
    obtain ⟨h1, h2, h3⟩ := of_decide_eq_true hc
    have := h demoWorld c hr h1 [.media demoUnit (.single ⟨0x41, [9]⟩)] (fun x hx => by rw [List.mem_singleton] at hx; subst hx; exact demoUnit_valid) h2
    rw [h3] at this
    cases this

/-- C113 refuted: with the channels 1 and 2, granted by the server, the unit in the packet on channel 1 is not reported. -/
theorem C113_shifted_refuted : ∃ (c : Client) (x : Carried), ClientReachable demoWorld c ∧ grants c = [some ⟨1, 2⟩] ∧ x.Valid ∧
    seen c.trace = [x.frame 1 2] ∧ depacketize [] (mediaOf 1 [x]) = [(0x41, 270, [9])] ∧ reported c.trace = [] := by
  obtain ⟨c, hr, hc⟩ := grantClient_shows ((odd_run 1).resolve_left (by decide))
  obtain ⟨h1, h2, h3⟩ := of_decide_eq_true hc
  exact ⟨c, .media demoUnit (.single ⟨0x41, [9]⟩), hr, h1, demoUnit_valid, h2, by decide, h3⟩

/-- A sender report. -/
def demoReport : RtcpWire := ⟨false, 0, 200, [0, 0, 0, 7, 0xE5, 1, 2, 3, 0x41, 4, 5, 6, 3, 0, 1, 14, 9, 9, 9, 9, 8, 8, 8, 8]⟩

/-- C113 refuted: with the channels 0 and 2, granted by the server, a sender report on channel 2 is reported as a unit of video. -/
theorem C113_report_refuted : ∃ (c : Client) (x : Carried), ClientReachable demoWorld c ∧ grants c = [some ⟨0, 2⟩] ∧ x.Valid ∧
    seen c.trace = [x.frame 0 2] ∧ depacketize [] (mediaOf 0 [x]) = [] ∧
    reported c.trace = [(0x41, 7, [4, 5, 6, 3, 0, 1, 14, 9, 9, 9, 9, 8, 8, 8, 8])] := by
  have h : (grantClient 0 2 [(2, demoReport.encode)] (demoPlay ++ demoFrame)).map (fun c =>
      decide (grants c = [some ⟨0, 2⟩] ∧ seen c.trace = [(2, demoReport.encode)] ∧
        reported c.trace = [(0x41, 7, [4, 5, 6, 3, 0, 1, 14, 9, 9, 9, 9, 8, 8, 8, 8])])) = some true := by decide +kernel
  obtain ⟨c, hr, hc⟩ := grantClient_shows h
  obtain ⟨h1, h2, h3⟩ := of_decide_eq_true hc
  refine ⟨c, .control demoReport [], hr, h1, ⟨by decide, by decide, by decide, by decide⟩, ?_, rfl, h3⟩
  rw [h2]
  show _ = [((2 : UInt8), demoReport.encode ++ [])]
  rw [List.append_nil]

/-! ## Cases -/

/-- Channels 2 and 3: a unit and a sender report. -/
example : ∃ (c : Client) (cs : List Carried), ClientReachable demoWorld c ∧ grants c = [some ⟨2, 3⟩] ∧ (∀ x ∈ cs, x.Valid) ∧
    seen c.trace = cs.map (Carried.frame 2 3) ∧ cs.length = 2 ∧ reported c.trace = [(0x41, 270, [9])] := by
  have h : (grantClient 2 3 [(3, demoReport.encode ++ []), (2, demoUnit.encode)] (demoPlay ++ demoFrame ++ demoFrame)).map (fun c =>
      decide (grants c = [some ⟨2, 3⟩] ∧ seen c.trace = [(3, demoReport.encode ++ []), (2, demoUnit.encode)] ∧
        reported c.trace = [(0x41, 270, [9])])) = some true := by decide +kernel
  obtain ⟨c, hr, hc⟩ := grantClient_shows h
  obtain ⟨h1, h2, h3⟩ := of_decide_eq_true hc
  refine ⟨c, [.control demoReport [], .media demoUnit (.single ⟨0x41, [9]⟩)], hr, h1, ?_, h2, rfl, h3⟩
  intro x hx
  rcases List.mem_cons.1 hx with rfl | hx
  · exact ⟨by decide, by decide, by decide, by decide⟩
  · rw [List.mem_singleton] at hx; subst hx; exact demoUnit_valid

/-- A client about to take an RTP packet from an odd channel, and one that ends on it. -/
example : ∃ c, ClientReachable demoWorld c ∧ decide (c.ended = false ∧ c.data = [(1, demoUnit.encode)]) = true :=
  grantClient_shows (a := 1) (b := 2) (frames := [(1, demoUnit.encode)]) (es := demoPlay ++ [.read]) (by decide +kernel)

example : ∃ c, ClientReachable demoWorld c ∧ c.ended = true :=
  grantClient_shows (a := 1) (b := 2) (frames := [(1, { demoUnit with marker := true, pt := 72 }.encode)]) (es := demoPlay ++ demoFrame) (by decide +kernel)

end Ouro
