import Verif.Spec.Padded
import Verif.Props.Sending
import Verif.Props.Sprop
/-! # C66, C23 for a sender that pads its packets -/
namespace Ouro
open Spec

theorem pad_whole {s : PadSending} (hs : s.Ok) {q : Bytes × Bytes} (hq : s.pieces = [q]) {p : UInt8 × RtpWire}
    (hp : IsPadPacket (s.unit.header :: q.1, q.2) s.ts p) :
    Video.Valid ⟨p.1, p.2, .single ⟨s.unit.header, unescape 0 (q.1 ++ q.2)⟩⟩ := by
  obtain ⟨h1, h2, h3, _, h4, h5⟩ := hp
  refine ⟨h1, h2, ?_, ?_, hs.type⟩
  · show ¬ _ <:+: p.2.body
    rw [h4, List.cons_append, infix_cons_nz (legal_header hs.legal)]
    exact hs.start q (by rw [hq]; simp)
  · show unescape 0 p.2.body = _
    rw [h4, List.cons_append, unescape_cons_nz (legal_header hs.legal)]
    rfl

theorem pad_fu {s : PadSending} (hs : s.Ok) {a b : Bool} {q : Bytes × Bytes} (hq : q ∈ s.pieces) {p : UInt8 × RtpWire}
    (hp : IsPadPacket (fuA s.unit.header a b q.1, q.2) s.ts p) : (fuLoad s.unit.header a b p (q.1 ++ q.2)).Valid := by
  obtain ⟨h1, h2, h3, _, h4, h5⟩ := hp
  have e : fuA s.unit.header a b q.1 ++ q.2 = fuA s.unit.header a b (q.1 ++ q.2) := by simp [fuA]
  rw [e] at h4
  refine ⟨h1, h2, ?_, ?_, hs.forbidden⟩
  · show ¬ _ <:+: p.2.body
    rw [h4]
    exact fuA_no_start hs.legal.1 a b (hs.start q hq)
  · show unescape 0 p.2.body = _
    rw [h4]
    exact unescape_fu ⟨none, q.1 ++ q.2, 0⟩ a b hs.legal.1

theorem pad_later {s : PadSending} (hs : s.Ok) : ∀ (qs : List (Bytes × Bytes)) (ps : List (UInt8 × RtpWire)),
    qs ≠ [] → (∀ q ∈ qs, q ∈ s.pieces) → PadPacketsOf s.ts (laterFragments s.unit.header qs) ps →
    ∃ vs : List Video, vs.map (fun v => (v.ch, v.rtp)) = ps ∧ (∀ v ∈ vs, v.Valid) ∧
      ∀ b, depacketize b vs = [(s.unit.header, s.ts, b ++ qs.flatMap fun p => unescape 0 (p.1 ++ p.2))] := by
  intro qs
  induction qs with
  | nil => intro ps h; exact absurd rfl h
  | cons q qs ih =>
    intro ps _ hm hp
    cases qs with
    | nil =>
      cases hp with
      | cons h1 h2 =>
        cases h2
        rename_i p
        refine ⟨[fuLoad s.unit.header false true p (q.1 ++ q.2)], rfl, ?_, ?_⟩
        · intro v hv; rw [List.mem_singleton] at hv; subst hv; exact pad_fu hs (hm q (by simp)) h1
        · intro b; simp [depacketize, fuLoad, Load.units, h1.2.2.2.2.2]
    | cons r qs =>
      cases hp with
      | cons h1 h2 =>
        rename_i p ps
        obtain ⟨vs, e1, e2, e3⟩ := ih ps (by simp) (fun x hx => hm x (List.mem_cons_of_mem _ hx)) h2
        refine ⟨fuLoad s.unit.header false false p (q.1 ++ q.2) :: vs, ?_, ?_, ?_⟩
        · rw [List.map_cons, e1]; rfl
        · intro v hv
          rcases List.mem_cons.mp hv with rfl | hv
          · exact pad_fu hs (hm q (by simp)) h1
          · exact e2 v hv
        · intro b
          rw [List.flatMap_cons]
          simp only [depacketize, fuLoad, Load.units, Load.kept, Bool.false_eq_true, if_false, List.nil_append, e3, List.append_assoc]

theorem pad_videos {s : PadSending} (hs : s.Ok) {ps : List (UInt8 × RtpWire)} (hp : PadPacketsOf s.ts s.payloads ps) :
    ∃ vs : List Video, vs.map (fun v => (v.ch, v.rtp)) = ps ∧ (∀ v ∈ vs, v.Valid) ∧ ∀ b, depacketize b vs = [s.padded] := by
  unfold PadSending.payloads at hp
  unfold PadSending.padded
  cases hq : s.pieces with
  | nil => exact absurd hq hs.nonempty
  | cons q qs =>
    rw [hq] at hp
    cases qs with
    | nil =>
      cases hp with
      | cons h1 h2 =>
        cases h2
        rename_i p
        refine ⟨[⟨p.1, p.2, .single ⟨s.unit.header, unescape 0 (q.1 ++ q.2)⟩⟩], rfl, ?_, ?_⟩
        · intro v hv; rw [List.mem_singleton] at hv; subst hv; exact pad_whole hs hq h1
        · intro b; simp [depacketize, Load.units, h1.2.2.2.2.2]
    | cons r qs =>
      cases hp with
      | cons h1 h2 =>
        rename_i p ps
        obtain ⟨vs, e1, e2, e3⟩ := pad_later hs (r :: qs) ps (by simp) (fun x hx => by rw [hq]; exact List.mem_cons_of_mem _ hx) h2
        refine ⟨fuLoad s.unit.header true false p (q.1 ++ q.2) :: vs, ?_, ?_, ?_⟩
        · rw [List.map_cons, e1]; rfl
        · intro v hv
          rcases List.mem_cons.mp hv with rfl | hv
          · exact pad_fu hs (by rw [hq]; simp) h1
          · exact e2 v hv
        · intro b
          rw [List.flatMap_cons]
          simp [depacketize, fuLoad, Load.units, Load.kept, e3]

theorem padded_videos {ss : List PadSending} {ps : List (UInt8 × RtpWire)} (h : SendsPadded ss ps) :
    ∃ vs : List Video, vs.map (fun v => (v.ch, v.rtp)) = ps ∧ (∀ v ∈ vs, v.Valid) ∧ ∀ b, depacketize b vs = ss.map PadSending.padded := by
  induction h with
  | nil => exact ⟨[], rfl, by simp, fun _ => rfl⟩
  | cons h1 h2 _ ih =>
    obtain ⟨vs, a1, a2, a3⟩ := pad_videos h1 h2
    obtain ⟨us, b1, b2, b3⟩ := ih
    refine ⟨vs ++ us, by rw [List.map_append, a1, b1], ?_, ?_⟩
    · intro v hv
      rcases List.mem_append.mp hv with hv | hv
      · exact a2 v hv
      · exact b2 v hv
    · intro b; rw [depacketize_append, a3, b3]; rfl

/-- C66 for a sender that may pad its packets, exact: the client has reported exactly the units sent, in order, each once and
with its time, but with the padding of each packet as part of the data, and the emulation prevention bytes of each packet
(with its padding) removed. -/
theorem C66_padded_exact (w : World) (c : Client) (hr : ClientReachable w c) (ss : List PadSending) (ps : List (UInt8 × RtpWire))
    (hs : SendsPadded ss ps) (h : onVideo (seen c.trace) = ps.map fun p => (p.1, p.2.encode)) :
    reported c.trace = ss.map PadSending.padded := by
  obtain ⟨vs, e1, e2, e3⟩ := padded_videos hs
  rw [C66_pipeline_partial w c hr vs ⟨by rw [h, encode_pairs e1], e2⟩, e3]

theorem unescape_len (l : Bytes) : ∀ z, l.length ≤ (unescape z l).length + (l.length + min z 2) / 3 := by
  induction l with
  | nil => intro z; simp
  | cons b l ih =>
    intro z
    rw [unescape]
    split
    · next h =>
      have := ih 0
      simp only [List.length_cons]
      omega
    · simp only [List.length_cons]
      by_cases hb : b = 0
      · rw [if_pos hb]
        have := ih (z + 1)
        omega
      · rw [if_neg hb]
        have := ih 0
        omega

/-- Padding is never removed altogether. -/
theorem padding_shows (a pad : Bytes) (ha : ¬ Escaped a) (hp : IsPadding pad) (hne : pad ≠ []) : a.length < (unescape 0 (a ++ pad)).length := by
  obtain ⟨z, hz⟩ := unescape_clean pad a 0 ha
  rw [hz, List.length_append]
  rcases hp with h | h
  · exact absurd h hne
  · match pad, hne with
    | [x], _ =>
      have hx : x.toNat = 1 := by simpa using h
      have : x ≠ 3 := by rintro rfl; exact absurd hx (by decide)
      rw [unescape, if_neg (fun h => this h.2)]
      simp
    | x :: y :: t, _ =>
      have := unescape_len (x :: y :: t) z
      simp only [List.length_cons] at *
      omega

theorem later_pads (h : UInt8) (qs : List (Bytes × Bytes)) : (laterFragments h qs).map (·.2) = qs.map (·.2) := by
  fun_induction laterFragments h qs with
  | case1 => rfl
  | case2 => rfl
  | case3 p ps _ ih => rw [List.map_cons, List.map_cons, ih]

theorem payloads_pads (s : PadSending) : s.payloads.map (·.2) = s.pieces.map (·.2) := by
  unfold PadSending.payloads
  split
  · next h => rw [h]; first | done | rfl
  · next h => rw [h]; first | done | rfl
  · next h => rw [h, List.map_cons, later_pads]; rfl

theorem packets_padding {ts : Nat} {bodies : List (Bytes × Bytes)} {ps : List (UInt8 × RtpWire)} (h : PadPacketsOf ts bodies ps) :
    (∀ p ∈ ps, p.2.padding = false) ↔ ∀ pad ∈ bodies.map (·.2), pad = [] := by
  induction h with
  | nil => simp
  | cons h1 _ ih =>
    rw [List.map_cons, List.forall_mem_cons, List.forall_mem_cons, ih, h1.2.2.1]
    simp

theorem padded_as_sent {s : PadSending} (hs : s.Ok) (he : ∀ p ∈ s.pieces, ¬ Escaped p.1) :
    s.padded = s.asSent ↔ ∀ pad ∈ s.pieces.map (·.2), pad = [] := by
  unfold PadSending.padded PadSending.asSent
  rw [hs.data]
  have hp := hs.padding
  generalize s.pieces = l at he hp
  clear hs
  have key : ∀ l : List (Bytes × Bytes), (∀ p ∈ l, ¬ Escaped p.1) → (∀ p ∈ l, IsPadding p.2) →
      (l.map (·.1)).flatten.length ≤ (l.flatMap fun p => unescape 0 (p.1 ++ p.2)).length ∧
      ((∃ p ∈ l, p.2 ≠ []) → (l.map (·.1)).flatten.length < (l.flatMap fun p => unescape 0 (p.1 ++ p.2)).length) := by
    intro l
    induction l with
    | nil => intro _ _; exact ⟨Nat.le_refl _, fun ⟨p, hp, _⟩ => by cases hp⟩
    | cons q l ih =>
      intro he hp
      obtain ⟨i1, i2⟩ := ih (fun p h => he p (by simp [h])) (fun p h => hp p (by simp [h]))
      have hq : q.2 ≠ [] → q.1.length < (unescape 0 (q.1 ++ q.2)).length :=
        padding_shows q.1 q.2 (he q (by simp)) (hp q (by simp))
      have hq' : q.2 = [] → unescape 0 (q.1 ++ q.2) = q.1 := by
        intro h; rw [h, List.append_nil]; exact (unescape_self_iff q.1).2 (he q (by simp))
      rw [List.map_cons, List.flatten_cons, List.flatMap_cons, List.length_append, List.length_append]
      by_cases h : q.2 = []
      · rw [hq' h]
        refine ⟨by omega, ?_⟩
        rintro ⟨p, hm, hpn⟩
        rcases List.mem_cons.1 hm with rfl | hm
        · exact absurd h hpn
        · have := i2 ⟨p, hm, hpn⟩; omega
      · have := hq h
        exact ⟨by omega, fun _ => by omega⟩
  constructor
  · intro h
    injection h with _ h
    injection h with _ h
    intro pad hm
    obtain ⟨p, hpl, rfl⟩ := List.mem_map.1 hm
    apply Classical.byContradiction
    intro hn
    have := (key l he hp).2 ⟨p, hpl, hn⟩
    rw [h] at this
    exact Nat.lt_irrefl _ this
  · intro h
    congr 2
    clear key hp
    induction l with
    | nil => rfl
    | cons q l ih =>
      rw [List.flatMap_cons, List.map_cons, List.flatten_cons, h q.2 (by simp), List.append_nil,
        (unescape_self_iff q.1).2 (he q (by simp)), ih (fun p h => he p (by simp [h])) (fun p hm => h p (by rw [List.map_cons]; exact List.mem_cons_of_mem _ hm))]

/-- C66 for a sender that may pad its packets: if no packet has an emulation prevention byte in it, the units are reported as they
were sent exactly if no packet is padded. -/
theorem C66_padded_iff (w : World) (c : Client) (hr : ClientReachable w c) (ss : List PadSending) (ps : List (UInt8 × RtpWire))
    (hs : SendsPadded ss ps) (he : ∀ s ∈ ss, ∀ p ∈ s.pieces, ¬ Escaped p.1) (h : onVideo (seen c.trace) = ps.map fun p => (p.1, p.2.encode)) :
    reported c.trace = ss.map PadSending.asSent ↔ ∀ p ∈ ps, p.2.padding = false := by
  rw [C66_padded_exact w c hr ss ps hs h]
  clear h hr
  induction hs with
  | nil => simp
  | cons h1 h2 _ ih =>
    rw [List.map_cons, List.map_cons, List.cons.injEq, ih (fun x hx => he x (by simp [hx])), padded_as_sent h1 (he _ (by simp)),
      ← payloads_pads, ← packets_padding h2]
    constructor
    · rintro ⟨a, b⟩ p hp
      rcases List.mem_append.1 hp with hp | hp
      · exact a p hp
      · exact b p hp
    · intro a
      exact ⟨fun p hp => a p (by simp [hp]), fun p hp => a p (by simp [hp])⟩

/-- C76 for a sender that may pad its packets, exact: a server sends responses and interleaved frames, of at most 2048 bytes of
data each, in pieces of any size, with read deadlines expiring between them. When everything was read and taken, exactly the
units have been reported, the padding of each packet being part of the data. -/
theorem C76_padded_exact (w : World) (uri : Bytes) (user : Option (Bytes × Bytes)) (ms : List Msg) (hm : ∀ m ∈ ms, m.Legal ∧ m.size ≤ 2048) (n : Nat)
    (evs : List Ev) (ha : Arrives ms n evs []) (ss : List PadSending) (ps : List (UInt8 × RtpWire)) (hs : SendsPadded ss ps)
    (hv : onVideo (framesSent ms) = ps.map fun p => (p.1, p.2.encode)) (es : List CEv) (c : Client)
    (hc : ClientRuns w uri user evs es c) (hread : c.rdr.buf = [] ∧ c.rdr.net = []) (htaken : c.data = []) :
    reported c.trace = ss.map PadSending.padded := by
  obtain ⟨vs, e1, e2, e3⟩ := padded_videos hs
  rw [C76_all_partial w uri user ms hm n evs ha vs ⟨by rw [hv, encode_pairs e1], e2⟩ es c hc hread htaken, e3]

/-- A unit in two fragments, the first packet padded with four octets, the second with three. -/
def demoPadSending : PadSending := ⟨⟨0x41, [9, 8, 7]⟩, [([9], [0, 0, 0, 4]), ([8, 7], [0, 0, 3])], 270⟩

/-- The packets. -/
def demoPadPackets : List (UInt8 × RtpWire) :=
  [(0, ⟨true, false, 96, 1, 270, 7, [], none, fuA 0x41 true false [9] ++ [0, 0, 0, 4]⟩),
   (0, ⟨true, true, 96, 2, 270, 7, [], none, fuA 0x41 false true [8, 7] ++ [0, 0, 3]⟩)]

theorem demoPad_sends : SendsPadded [demoPadSending] demoPadPackets := by
  have rtp : ∀ (m : Bool) (sn : Nat) (body : List UInt8), sn < 65536 → RtpWire.Valid ⟨true, m, 96, sn, 270, 7, [], none, body⟩ :=
    fun m sn body h1 => ⟨show 96 < 128 by decide, h1, show 270 < 2 ^ 32 by decide, show 7 < 2 ^ 32 by decide, show 0 ≤ 15 by decide, fun c hc => by (cases hc), fun e he => by (cases he)⟩
  refine SendsPadded.cons (ps := demoPadPackets) (qs := []) ⟨⟨by decide, by unfold HasForbidden; decide, by decide⟩, by decide, by decide, by decide, by decide, ?_, by decide⟩ ?_ .nil
  · intro p hp
    simp only [demoPadSending, List.mem_cons, List.not_mem_nil, or_false] at hp
    rcases hp with rfl | rfl <;> exact .inr (by decide)
  · exact .cons ⟨by decide, rtp _ _ _ (by decide), by decide, by decide, by decide, rfl⟩
      (.cons ⟨by decide, rtp _ _ _ (by decide), by decide, by decide, by decide, rfl⟩ .nil)

/-- The padding becomes part of the unit; the count of the second is taken for an emulation prevention byte. -/
example : demoPadSending.padded = (0x41, 270, [9, 0, 0, 0, 4, 8, 7, 0, 0]) := by decide

example : ∃ c, ClientReachable demoWorld c ∧ onVideo (seen c.trace) = demoPadPackets.map fun p => (p.1, p.2.encode) := by
  obtain ⟨c, h1, h2⟩ := demoClient_shows (frames := demoPadPackets.map (·.2.encode)) (es := demoPlay ++ demoFrame ++ demoFrame)
    (f := fun c => seen c.trace) (a := demoPadPackets.map fun p => (p.1, p.2.encode)) (by decide +kernel)
  exact ⟨c, h1, by rw [h2]; decide⟩

/-- C76 for a sender that may pad its packets: if no packet has an emulation prevention byte in it, then, when everything was read and taken, the units have been
reported as they were sent exactly if no packet is padded. -/
theorem C76_padded_iff (w : World) (uri : Bytes) (user : Option (Bytes × Bytes)) (ms : List Msg) (hm : ∀ m ∈ ms, m.Legal ∧ m.size ≤ 2048) (n : Nat)
    (evs : List Ev) (ha : Arrives ms n evs []) (ss : List PadSending) (ps : List (UInt8 × RtpWire)) (hs : SendsPadded ss ps)
    (hv : onVideo (framesSent ms) = ps.map fun p => (p.1, p.2.encode)) (he : ∀ s ∈ ss, ∀ p ∈ s.pieces, ¬ Escaped p.1) (es : List CEv) (c : Client)
    (hc : ClientRuns w uri user evs es c) (hread : c.rdr.buf = [] ∧ c.rdr.net = []) (htaken : c.data = []) :
    reported c.trace = ss.map PadSending.asSent ↔ ∀ p ∈ ps, p.2.padding = false := by
  refine C66_padded_iff w c (runs_reachable hc) ss ps hs he ?_
  obtain ⟨⟨pre, post, _, e1, e2, e3⟩, _⟩ := runs_rinv hc hm ha
  have hp : post = [] := arrives_nil e2 (by unfold Rdr.evs; rw [hread.1, hread.2]; rfl)
  have hf := C66_fifo w c (runs_reachable hc)
  rw [hp, List.append_nil] at e1
  rw [htaken, List.append_nil] at hf
  rw [hf, e3, ← e1, hv]

/-- The server of the demonstration with padded packets. -/
def demoPadMsgs : List Msg := demoMsgs.take 4 ++ demoPadPackets.map fun p => .frame p.1 p.2.encode

/-- What the connection delivers. -/
def demoPadEvents : List Ev := demoPadMsgs.flatMap fun m => m.bytes.map .byte

theorem demoPadMsgs_legal : ∀ m ∈ demoPadMsgs, m.Legal ∧ m.size ≤ 2048 := by
  intro m hm
  rcases List.mem_append.1 hm with hm | hm
  · exact demoMsgs_legal m (List.mem_of_mem_take hm)
  · obtain ⟨p, hp, rfl⟩ := List.mem_map.1 hm
    have : ∀ p ∈ demoPadPackets, p.2.encode.length ≤ 2048 := by decide
    have := this p hp
    exact ⟨show p.2.encode.length ≤ 65535 by omega, this⟩

/-- A run in which everything was read and taken. -/
theorem demoPad_runs : ∃ c, ClientRuns demoWorld b!"rtsp://h/x" none demoPadEvents (demoPlay ++ demoFrame ++ demoFrame) c ∧
    (c.rdr.buf = [] ∧ c.rdr.net = []) ∧ c.data = [] := by
  have h : ((clientOpen demoWorld b!"rtsp://h/x" none ⟨[], none, demoPadEvents⟩).toOption.bind fun c0 =>
      (csteps demoWorld c0 (demoPlay ++ demoFrame ++ demoFrame)).toOption.map fun c => (c.rdr.buf, c.rdr.net, c.data)) = some ([], [], []) := by decide +kernel
  cases h0 : clientOpen demoWorld b!"rtsp://h/x" none ⟨[], none, demoPadEvents⟩ with
  | error p => rw [h0] at h; cases h
  | ok c0 =>
    rw [h0] at h
    have h : (csteps demoWorld c0 (demoPlay ++ demoFrame ++ demoFrame)).toOption.map (fun c => (c.rdr.buf, c.rdr.net, c.data)) = some ([], [], []) := h
    cases h1 : csteps demoWorld c0 (demoPlay ++ demoFrame ++ demoFrame) with
    | error p => rw [h1] at h; cases h
    | ok c =>
      rw [h1] at h
      injection h with h
      injection h with h2 h
      injection h with h3 h4
      exact ⟨c, ⟨0, c0, h0, h1⟩, ⟨h2, h3⟩, h4⟩

/-- C76 is refuted as stated: a sender may pad its packets, and then the client does not report exactly the units, although it has read and taken everything. -/
theorem C76_refuted : ¬ ∀ (w : World) (uri : Bytes) (user : Option (Bytes × Bytes)) (ms : List Msg) (n : Nat) (evs : List Ev) (ss : List PadSending) (ps : List (UInt8 × RtpWire))
    (es : List CEv) (c : Client), (∀ m ∈ ms, m.Legal ∧ m.size ≤ 2048) → Arrives ms n evs [] → SendsPadded ss ps →
    onVideo (framesSent ms) = ps.map (fun p => (p.1, p.2.encode)) → ClientRuns w uri user evs es c → (c.rdr.buf = [] ∧ c.rdr.net = []) → c.data = [] →
    reported c.trace = ss.map PadSending.asSent := by
  intro h
  obtain ⟨c, h1, h2, h3⟩ := demoPad_runs
  have hv : onVideo (framesSent demoPadMsgs) = demoPadPackets.map (fun p => (p.1, p.2.encode)) := by decide
  have hr := h _ _ _ demoPadMsgs _ _ [demoPadSending] demoPadPackets _ c demoPadMsgs_legal (arrives_plain demoPadMsgs) demoPad_sends hv h1 h2 h3
  have := C76_padded_exact _ _ _ demoPadMsgs demoPadMsgs_legal _ _ (arrives_plain demoPadMsgs) [demoPadSending] demoPadPackets demoPad_sends hv _ c h1 h2 h3
  rw [this] at hr
  exact absurd hr (by decide)

end Ouro
