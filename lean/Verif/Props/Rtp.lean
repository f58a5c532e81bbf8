import Verif.Lemmas.Rtp
/-! # C23–C27: RTP and RTCP packets -/
namespace Ouro
open Spec

/-! ## C23 -/

theorem first_byte (p : RtpWire) (hp : p.Valid) :
    (UInt8.ofNat (128 + bit p.padding 32 + bit p.ext.isSome 16 + p.csrc.length)).toNat =
      128 + bit p.padding 32 + bit p.ext.isSome 16 + p.csrc.length := by
  rw [UInt8.toNat_ofNat']
  have := hp.cc
  have h1 : bit p.padding 32 ≤ 32 := by unfold bit; split <;> omega
  have h2 : bit p.ext.isSome 16 ≤ 16 := by unfold bit; split <;> omega
  omega

/-- C23: `Unpack` of a packet as RFC 3550 puts it on the wire succeeds, with every field as sent. -/
theorem C23_unpack (p : RtpWire) (hp : p.Valid) : ∃ q, rtpUnpack p.encode = .ok (.ok q) ∧
    q.p = p.padding ∧ q.x = p.ext.isSome ∧ q.cc.toNat = p.csrc.length ∧ q.m = p.marker ∧ q.pt.toNat = p.pt ∧
    q.sn = p.sn ∧ q.ts = p.ts ∧ q.ssrc = p.ssrc ∧ q.csrc = p.csrc ∧
    (∀ e ∈ p.ext, q.xh = e.1 ∧ q.xl = e.2.length / 4 ∧ q.xd = e.2) ∧ (p.ext = none → q.xh = 0 ∧ q.xl = 0 ∧ q.xd = []) ∧
    q.pl = p.body := by
  obtain ⟨b0, hb0⟩ : ∃ b0, b0 = UInt8.ofNat (128 + bit p.padding 32 + bit p.ext.isSome 16 + p.csrc.length) := ⟨_, rfl⟩
  obtain ⟨b1, hb1⟩ : ∃ b1, b1 = UInt8.ofNat (bit p.marker 128 + p.pt) := ⟨_, rfl⟩
  have n0 : b0.toNat = 128 + bit p.padding 32 + bit p.ext.isSome 16 + p.csrc.length := by rw [hb0, first_byte p hp]
  have n1 : b1.toNat = bit p.marker 128 + p.pt := by
    rw [hb1, UInt8.toNat_ofNat']
    have := hp.pt
    unfold bit; split <;> omega
  have hpad : (bit p.padding 32 = 32 ∧ p.padding = true) ∨ (bit p.padding 32 = 0 ∧ p.padding = false) := by
    unfold bit; cases p.padding <;> simp
  have hext : (bit p.ext.isSome 16 = 16 ∧ p.ext.isSome = true) ∨ (bit p.ext.isSome 16 = 0 ∧ p.ext.isSome = false) := by
    unfold bit; cases p.ext.isSome <;> simp
  have hmk : (bit p.marker 128 = 128 ∧ p.marker = true) ∨ (bit p.marker 128 = 0 ∧ p.marker = false) := by
    unfold bit; cases p.marker <;> simp
  have hcc := hp.cc
  have hpt := hp.pt
  have ver : ((b0 &&& 0xC0) != 0x80) = false := by rw [ver_bits]; simp; omega
  have cc : (b0 &&& 0x0F).toNat = p.csrc.length := by rw [low4]; omega
  have xx : ((b0 &&& 0x10) != 0) = p.ext.isSome := by
    rw [bit4]; rcases hext with ⟨h, e⟩ | ⟨h, e⟩ <;> rw [e] <;> simp <;> omega
  have pp : ((b0 &&& 0x20) != 0) = p.padding := by
    rw [bit5]; rcases hpad with ⟨h, e⟩ | ⟨h, e⟩ <;> rw [e] <;> simp <;> omega
  have mm : ((b1 &&& 0x80) != 0) = p.marker := by
    rw [bit7]; rcases hmk with ⟨h, e⟩ | ⟨h, e⟩ <;> rw [e] <;> simp <;> omega
  have ptn : (b1 &&& 0x7F).toNat = p.pt := by rw [low7]; omega
  have henc : p.encode = [b0, b1] ++ (be16 p.sn ++ (be32 p.ts ++ (be32 p.ssrc ++ (p.csrc.flatMap be32 ++ (p.extBytes ++ p.body))))) := by
    simp [RtpWire.encode, hb0, hb1]
  have hcl : (p.csrc.flatMap be32).length = p.csrc.length * 4 := by
    clear hcc cc n0 hb0
    induction p.csrc with
    | nil => rfl
    | cons c cs ih => rw [List.flatMap_cons, List.length_append, ih, length_be32, List.length_cons]; omega
  have e2 : u16At p.encode 2 = .ok p.sn := by rw [henc]; exact u16At_append rfl hp.sn
  have e4 : u32At p.encode 4 = .ok p.ts := by
    have := u32At_append (pre := [b0, b1] ++ be16 p.sn) (off := 4)
      (rest := be32 p.ssrc ++ (p.csrc.flatMap be32 ++ (p.extBytes ++ p.body))) rfl hp.ts
    rw [henc]; simpa using this
  have e8 : u32At p.encode 8 = .ok p.ssrc := by
    have := u32At_append (pre := [b0, b1] ++ be16 p.sn ++ be32 p.ts) (off := 8)
      (rest := p.csrc.flatMap be32 ++ (p.extBytes ++ p.body)) rfl hp.ssrc
    rw [henc]; simpa using this
  have ec : csrcLoop p.encode p.csrc.length 12 = .ok p.csrc := by
    have := csrcLoop_append p.csrc ([b0, b1] ++ be16 p.sn ++ be32 p.ts ++ be32 p.ssrc) (p.extBytes ++ p.body) 12 rfl hp.csrc
    rw [henc]; simpa using this
  obtain ⟨pre, hpre⟩ : ∃ pre, pre = [b0, b1] ++ be16 p.sn ++ be32 p.ts ++ be32 p.ssrc ++ p.csrc.flatMap be32 := ⟨_, rfl⟩
  have hprel : pre.length = 12 + p.csrc.length * 4 := by
    rw [hpre]; simp only [List.length_append, hcl, length_be16, length_be32, List.length_cons, List.length_nil]
  have henc2 : p.encode = pre ++ (p.extBytes ++ p.body) := by rw [henc, hpre]; simp
  have i0 : idx p.encode 0 = .ok b0 := by rw [henc]; rfl
  have i1 : idx p.encode 1 = .ok b1 := by rw [henc]; rfl
  unfold rtpUnpack
  simp only [i0, i1, go_ok_bind, ver, Bool.false_eq_true, if_false, e2, e4, e8, cc, ec, xx]
  cases hx : p.ext with
  | none =>
    have hs : sliceFrom p.encode (12 + p.csrc.length * 4) = .ok p.body := by
      rw [henc2, ← hprel]
      have : p.extBytes = [] := by simp [RtpWire.extBytes, hx]
      rw [this]
      exact sliceFrom_append rfl
    refine ⟨⟨b0, b1, p.sn, p.ts, p.ssrc, p.csrc, 0, 0, [], p.body⟩, ?_, pp, by rw [← hx]; exact xx, cc, mm, ptn, rfl, rfl, rfl, rfl,
      by simp, by simp, rfl⟩
    simp only [extAt, Option.isSome_none, Bool.false_eq_true, if_false, go_pure, go_ok_bind, hs]
  | some e =>
    obtain ⟨xh, xd⟩ := e
    obtain ⟨v1, v2, v3⟩ := hp.ext (xh, xd) (by simp [hx])
    simp only at v1 v2 v3
    have hb : p.extBytes = be16 xh ++ be16 (xd.length / 4) ++ xd := by simp [RtpWire.extBytes, hx]
    have hd4 : xd.length / 4 * 4 = xd.length := by omega
    have ex1 : u16At p.encode (12 + p.csrc.length * 4) = .ok xh := by
      rw [henc2, hb, List.append_assoc, List.append_assoc]; exact u16At_append hprel.symm v1
    have ex2 : u16At p.encode (12 + p.csrc.length * 4 + 2) = .ok (xd.length / 4) := by
      have := u16At_append (pre := pre ++ be16 xh) (rest := xd ++ p.body) (off := 12 + p.csrc.length * 4 + 2)
        (by rw [List.length_append, hprel, length_be16]) v3
      rw [henc2, hb]; simpa using this
    have ex3 : slice p.encode (12 + p.csrc.length * 4 + 4) (12 + p.csrc.length * 4 + 4 + xd.length / 4 * 4) = .ok xd := by
      rw [hd4]
      have hl : p.encode = (pre ++ be16 xh ++ be16 (xd.length / 4)) ++ xd ++ p.body := by rw [henc2, hb]; simp
      have hl2 : (pre ++ be16 xh ++ be16 (xd.length / 4)).length = 12 + p.csrc.length * 4 + 4 := by
        simp only [List.length_append, hprel, length_be16]
      rw [hl, ← hl2, slice_ok (by omega) (by simp; omega)]
      have : ((pre ++ be16 xh ++ be16 (xd.length / 4)) ++ xd ++ p.body).take ((pre ++ be16 xh ++ be16 (xd.length / 4)).length + xd.length) =
          (pre ++ be16 xh ++ be16 (xd.length / 4)) ++ xd := by
        rw [← List.length_append, List.take_left]
      rw [this, List.drop_left]
    have ex4 : sliceFrom p.encode (12 + p.csrc.length * 4 + 4 + xd.length / 4 * 4) = .ok p.body := by
      have hl : p.encode = (pre ++ be16 xh ++ be16 (xd.length / 4) ++ xd) ++ p.body := by rw [henc2, hb]; simp
      rw [hl]
      exact sliceFrom_append (by simp only [List.length_append, hprel, length_be16]; omega)
    by_cases h0 : xd.length / 4 > 0
    · refine ⟨⟨b0, b1, p.sn, p.ts, p.ssrc, p.csrc, xh, xd.length / 4, xd, p.body⟩, ?_, pp, by rw [← hx]; exact xx, cc, mm, ptn,
        rfl, rfl, rfl, rfl, by simp, by simp, rfl⟩
      simp only [extAt, Option.isSome_some, if_true, ex1, ex2, go_ok_bind, h0, ex3, go_pure, ex4]
    · have h00 : xd.length / 4 = 0 := by omega
      have hnil : xd = [] := List.length_eq_zero_iff.mp (by omega)
      subst hnil
      refine ⟨⟨b0, b1, p.sn, p.ts, p.ssrc, p.csrc, xh, 0, [], p.body⟩, ?_, pp, by rw [← hx]; exact xx, cc, mm, ptn,
        rfl, rfl, rfl, rfl, by simp, by simp, rfl⟩
      simp at ex2 ex4
      simp only [extAt, Option.isSome_some, if_true, ex1, ex2, go_ok_bind, Nat.lt_irrefl, if_false, go_pure, ex4, gt_iff_lt]

/-- C23: without padding the returned payload is the packet's payload. -/
theorem C23_payload (p : RtpWire) (hp : p.Valid) (h : p.padding = false) :
    ∃ q, rtpUnpack p.encode = .ok (.ok q) ∧ q.pl = p.payload := by
  obtain ⟨q, h1, h2⟩ := C23_unpack p hp
  refine ⟨q, h1, ?_⟩
  rw [h2.2.2.2.2.2.2.2.2.2.2.2]
  simp [RtpWire.payload, h]

/-- C23 refuted for padded packets: the padding is returned as payload. -/
theorem C23_padding_refuted (p : RtpWire) (hp : p.Valid) (h : p.padding = true) (b : UInt8) (hl : p.body.getLast? = some b)
    (hb : 0 < b.toNat) : ∃ q, rtpUnpack p.encode = .ok (.ok q) ∧ q.pl ≠ p.payload := by
  obtain ⟨q, h1, h2⟩ := C23_unpack p hp
  refine ⟨q, h1, ?_⟩
  rw [h2.2.2.2.2.2.2.2.2.2.2.2]
  intro e
  have := congrArg List.length e
  have hne : 0 < p.body.length := by
    cases hb : p.body with
    | nil => rw [hb] at hl; simp at hl
    | cons => simp
  simp only [RtpWire.payload, h, if_true, hl, Option.getD_some, List.length_take] at this
  omega

/-- A packet with every optional part. -/
def sampleRtp : RtpWire :=
  { padding := true, marker := true, pt := 96, sn := 65535, ts := 4000000000, ssrc := 7, csrc := [1, 4294967295],
    ext := some (48862, [1, 2, 3, 4]), body := [9, 0, 2] }

theorem sampleRtp_valid : sampleRtp.Valid := by
  constructor <;> simp [sampleRtp]

example : sampleRtp.body.getLast? = some 2 ∧ sampleRtp.payload = [9] := by decide
example : rtpUnpack sampleRtp.encode = .ok (.ok
    { vpxcc := 0xB2, mpt := 0xE0, sn := 65535, ts := 4000000000, ssrc := 7, csrc := [1, 4294967295], xh := 48862, xl := 1,
      xd := [1, 2, 3, 4], pl := [9, 0, 2] }) := by decide

/-! ## C24 -/

/-- The packet described by the result of `Unpack`. -/
def RtpPacket.wire (q : RtpPacket) : RtpWire :=
  { padding := q.p, marker := q.m, pt := q.pt.toNat, sn := q.sn, ts := q.ts, ssrc := q.ssrc, csrc := q.csrc
    ext := if q.x then some (q.xh, q.xd) else none, body := q.pl }

theorem idx_zero {buf : Bytes} {b : UInt8} (h : idx buf 0 = .ok b) : ∃ rest, buf = b :: rest := by
  match buf, h with
  | a :: rest, h => simp [idx] at h; exact ⟨rest, by rw [h]⟩

theorem extAt_inv {buf : Bytes} {x : Bool} {off xh xl off' : Nat} {xd : Bytes}
    (h : extAt buf x off = .ok (xh, xl, xd, off')) :
    buf.drop off = (if x then be16 xh ++ be16 (xd.length / 4) ++ xd else []) ++ buf.drop off' ∧
    (x = true → xh < 65536 ∧ xd.length % 4 = 0 ∧ xd.length / 4 < 65536) := by
  unfold extAt at h
  cases x with
  | false =>
    simp only [Bool.false_eq_true, if_false, go_pure] at h
    injection h with h
    simp only [Prod.mk.injEq] at h
    obtain ⟨_, _, _, rfl⟩ := h
    simp
  | true =>
    simp only [if_true, go_bind_ok] at h
    obtain ⟨a, h1, b, h2, h3⟩ := h
    obtain ⟨g1, g2⟩ := u16At_inv h1
    obtain ⟨g3, g4⟩ := u16At_inv h2
    split at h3
    · rw [go_bind_ok] at h3
      obtain ⟨d, h4, h5⟩ := h3
      simp only [go_pure] at h5
      injection h5 with h5
      simp only [Prod.mk.injEq] at h5
      obtain ⟨rfl, rfl, rfl, rfl⟩ := h5
      unfold slice at h4
      split at h4
      · rename_i hle
        injection h4 with h4
        have hl : d.length = b * 4 := by rw [← h4]; simp; omega
        have hd : buf.drop (off + 4) = d ++ buf.drop (off + 4 + b * 4) := by
          rw [← h4]
          have := List.take_append_drop (b * 4) (buf.drop (off + 4))
          rw [List.drop_drop] at this
          rw [← this]
          congr 1
          rw [List.drop_take]; congr 1; omega
        refine ⟨?_, fun _ => ⟨g1, by omega, by omega⟩⟩
        rw [g2, g4, show off + 2 + 2 = off + 4 by omega, hd, show d.length / 4 = b by omega]
        simp
      · cases h4
    · simp only [go_pure] at h3
      injection h3 with h3
      simp only [Prod.mk.injEq] at h3
      obtain ⟨rfl, rfl, rfl, rfl⟩ := h3
      have hb : b = 0 := by omega
      refine ⟨?_, fun _ => ⟨g1, by simp, by simp⟩⟩
      rw [g2, g4, hb]
      simp

theorem wire_extBytes (q : RtpPacket) :
    q.wire.extBytes = if q.x = true then be16 q.xh ++ be16 (q.xd.length / 4) ++ q.xd else [] := by
  cases hx : q.x <;> simp [RtpWire.extBytes, RtpPacket.wire, hx]

/-- C24: whatever `Unpack` accepts is the wire form of the packet it returns: nothing is lost or invented. -/
theorem C24_accepts_only_packets (buf : Bytes) (q : RtpPacket) (h : rtpUnpack buf = .ok (.ok q)) :
    q.wire.Valid ∧ q.wire.encode = buf := by
  unfold rtpUnpack at h
  rw [go_bind_ok] at h
  obtain ⟨b0, h0, h⟩ := h
  split at h
  · simp [go_pure] at h
  rename_i hver
  simp only [Bool.not_eq_true] at hver
  rw [ver_bits] at hver
  have hver := Decidable.not_not.mp (of_decide_eq_false hver)
  rw [go_bind_ok] at h
  obtain ⟨b1, h1, h⟩ := h
  rw [go_bind_ok] at h
  obtain ⟨sn, h2, h⟩ := h
  rw [go_bind_ok] at h
  obtain ⟨ts, h3, h⟩ := h
  rw [go_bind_ok] at h
  obtain ⟨ssrc, h4, h⟩ := h
  rw [go_bind_ok] at h
  obtain ⟨csrc, h5, h⟩ := h
  rw [go_bind_ok] at h
  obtain ⟨⟨xh, xl, xd, off⟩, h6, h⟩ := h
  simp only at h
  rw [go_bind_ok] at h
  obtain ⟨pl, h7, h⟩ := h
  simp only [go_pure] at h
  injection h with h
  injection h with h
  obtain ⟨rest0, rfl⟩ := idx_zero h0
  obtain ⟨rest, rfl⟩ : ∃ rest, rest0 = b1 :: rest := idx_zero (buf := rest0) (by simpa [idx] using h1)
  obtain ⟨g2, g2'⟩ := u16At_inv h2
  obtain ⟨g3, g3'⟩ := u32At_inv h3
  obtain ⟨g4, g4'⟩ := u32At_inv h4
  obtain ⟨g5, g5', g5''⟩ := csrcLoop_inv _ _ _ _ h5
  obtain ⟨g6, g6'⟩ := extAt_inv h6
  have g7 : (b0 :: b1 :: rest).drop off = pl := by
    unfold sliceFrom at h7
    split at h7
    · injection h7
    · cases h7
  have hb0 := b0.toNat_lt
  have hb1 := b1.toNat_lt
  rw [low4] at g5
  constructor
  · subst h
    constructor
    · simp only [RtpPacket.wire, RtpPacket.pt, low7]; omega
    · exact g2
    · exact g3
    · exact g4
    · simp only [RtpPacket.wire]; omega
    · exact g5'
    · intro e he
      simp only [RtpPacket.wire, RtpPacket.x] at he
      cases hx : (b0 &&& 0x10 != 0) with
      | true =>
        simp only [hx, if_true, Option.mem_def, Option.some.injEq] at he
        subst he
        exact g6' hx
      | false => simp [hx] at he
  · have hw : q.wire.extBytes = if ((b0 &&& 0x10) != 0) = true then be16 xh ++ be16 (xd.length / 4) ++ xd else [] := by
      rw [wire_extBytes]
      subst h
      rfl
    have hbody : b0 :: b1 :: rest = b0 :: b1 :: (be16 sn ++ (be32 ts ++ (be32 ssrc ++ (csrc.flatMap be32 ++ (q.wire.extBytes ++ pl))))) := by
      congr 2
      rw [hw, ← g7, ← g6, ← g5'', ← g4', ← g3', ← g2']
      rfl
    rw [hbody]
    have f0 : UInt8.ofNat (128 + bit q.wire.padding 32 + bit q.wire.ext.isSome 16 + q.wire.csrc.length) = b0 := by
      apply UInt8.toNat_inj.mp
      rw [UInt8.toNat_ofNat']
      have e1 : bit q.wire.padding 32 = b0.toNat / 32 % 2 * 32 := by
        subst h
        simp only [RtpPacket.wire, RtpPacket.p, bit5, bit, decide_eq_true_eq]
        split <;> omega
      have e2 : bit q.wire.ext.isSome 16 = b0.toNat / 16 % 2 * 16 := by
        subst h
        simp only [RtpPacket.wire, RtpPacket.x, bit4, bit, decide_eq_true_eq]
        by_cases hx : b0.toNat / 16 % 2 = 1
        · simp [hx]
        · simp [hx]; omega
      have e3 : q.wire.csrc.length = b0.toNat % 16 := by subst h; exact g5
      rw [e1, e2, e3]; omega
    have f1 : UInt8.ofNat (bit q.wire.marker 128 + q.wire.pt) = b1 := by
      apply UInt8.toNat_inj.mp
      rw [UInt8.toNat_ofNat']
      have e1 : bit q.wire.marker 128 = b1.toNat / 128 * 128 := by
        subst h
        simp only [RtpPacket.wire, RtpPacket.m, bit7, bit, decide_eq_true_eq]
        split <;> omega
      have e2 : q.wire.pt = b1.toNat % 128 := by subst h; simp only [RtpPacket.wire, RtpPacket.pt, low7]
      rw [e1, e2]; omega
    rw [RtpWire.encode, f0, f1]
    have e : q.wire.sn = sn ∧ q.wire.ts = ts ∧ q.wire.ssrc = ssrc ∧ q.wire.csrc = csrc ∧ q.wire.body = pl := by
      subst h; exact ⟨rfl, rfl, rfl, rfl, rfl⟩
    rw [e.1, e.2.1, e.2.2.1, e.2.2.2.1, e.2.2.2.2]
    simp

/-- C24: a first byte with a version other than 2 is an error, whatever follows. -/
theorem C24_version (b0 : UInt8) (rest : Bytes) (h : b0.toNat / 64 ≠ 2) :
    rtpUnpack (b0 :: rest) = .ok (.error .invalidVersion) := by
  unfold rtpUnpack
  have : ((b0 &&& 0xC0) != 0x80) = true := by rw [ver_bits]; simpa using h
  simp only [idx, List.getElem?_cons_zero, go_ok_bind, this, if_true, go_pure]

/-- C24, exact: `Unpack` panics exactly on the empty datagram and on data that starts like an RTP packet of version 2 but
is not a complete packet. -/
theorem C24_panics_iff (buf : Bytes) : Panics (rtpUnpack buf) ↔
    (buf = [] ∨ ∃ b0 rest, buf = b0 :: rest ∧ b0.toNat / 64 = 2 ∧ ¬ ∃ p : RtpWire, p.Valid ∧ p.encode = buf) := by
  constructor
  · intro h
    match buf, h with
    | [], _ => exact .inl rfl
    | b0 :: rest, h =>
      refine .inr ⟨b0, rest, rfl, ?_, ?_⟩
      · apply Decidable.byContradiction
        intro hv
        rw [C24_version b0 rest hv] at h
        exact not_panics_ok _ h
      · rintro ⟨p, hp, he⟩
        obtain ⟨q, hq, _⟩ := C23_unpack p hp
        rw [← he, hq] at h
        exact not_panics_ok _ h
  · rintro (rfl | ⟨b0, rest, rfl, hv, hn⟩)
    · exact ⟨_, rfl⟩
    · rcases panics_or_ok (rtpUnpack (b0 :: rest)) with h | ⟨v | q, h⟩
      · exact h
      · exfalso
        unfold rtpUnpack at h
        have : ((b0 &&& 0xC0) != 0x80) = false := by rw [ver_bits]; simpa using hv
        simp only [idx, List.getElem?_cons_zero, go_ok_bind, this, Bool.false_eq_true, if_false, go_bind_ok, go_pure] at h
        obtain ⟨_, _, _, _, _, _, _, _, _, _, _, _, _, _, h⟩ := h
        cases h
      · exact absurd ⟨q.wire, C24_accepts_only_packets _ _ h⟩ hn

/-- C24, the part that holds: no panic for complete packets and for data of another version. Missing for the full claim:
truncated packets, refuted below. -/
theorem C24_total_partial (buf : Bytes) (h : (∃ p : RtpWire, p.Valid ∧ p.encode = buf) ∨ ∃ b0 rest, buf = b0 :: rest ∧ b0.toNat / 64 ≠ 2) :
    ∃ r, rtpUnpack buf = .ok r := by
  rcases h with ⟨p, hp, rfl⟩ | ⟨b0, rest, rfl, hv⟩
  · obtain ⟨q, hq, _⟩ := C23_unpack p hp; exact ⟨_, hq⟩
  · exact ⟨_, C24_version b0 rest hv⟩

/-- C24 refuted: every strict prefix of the fixed header of a version 2 packet panics. -/
theorem C24_truncated_refuted (p : RtpWire) (hp : p.Valid) (n : Nat) (hn : n < 12) : Panics (rtpUnpack (p.encode.take n)) := by
  rw [C24_panics_iff]
  match n, hn with
  | 0, _ => left; rfl
  | n + 1, hn =>
    refine .inr ⟨_, _, rfl, ?_, ?_⟩
    · rw [first_byte p hp]
      have := hp.cc
      have h1 : bit p.padding 32 ≤ 32 := by unfold bit; split <;> omega
      have h2 : bit p.ext.isSome 16 ≤ 16 := by unfold bit; split <;> omega
      omega
    · rintro ⟨q, _, he⟩
      have := congrArg List.length he
      have hl : 12 ≤ q.encode.length := by simp [RtpWire.encode, be16, be32]
      rw [List.length_take] at this
      omega

example : Panics (rtpUnpack []) ∧ Panics (rtpUnpack [0x80, 96, 0]) :=
  ⟨(C24_panics_iff _).mpr (.inl rfl), ⟨.index, by decide⟩⟩

/-! ## C25 -/

/-- Length of the buffer `Pack` allocates. -/
def packLen (q : RtpPacket) : Nat :=
  if q.x then (12 + q.cc.toNat * 4 + 4 * (1 + q.xl)) % 65536 else 12 + q.cc.toNat * 4

theorem drop_replicate_zero (n k : Nat) : (List.replicate n (0 : UInt8)).drop k = List.replicate (n - k) 0 := by simp

/-- C25, exact: `Pack` returns the first eight bytes of the packet and zeros up to the length of the header; it panics
when the 16-bit length wraps below eight. -/
theorem C25_pack_exact (q : RtpPacket) :
    (8 ≤ packLen q → rtpPack (some q) = .ok (some (q.vpxcc :: q.mpt :: (be16 q.sn ++ be32 q.ts ++
      List.replicate (packLen q - 8) 0)))) ∧
    (packLen q < 8 → Panics (rtpPack (some q))) := by
  have hsz : (if q.x then u16 (12 + q.cc.toNat * 4 + u16 (4 * u16 (1 + q.xl))) else 12 + q.cc.toNat * 4) = packLen q := by
    unfold packLen u16; split <;> omega
  unfold rtpPack
  simp only [hsz]
  generalize packLen q = n
  constructor
  · intro h
    obtain ⟨m, rfl⟩ : ∃ m, n = m + 8 := ⟨n - 8, by omega⟩
    have : List.replicate (m + 8) (0 : UInt8) = 0 :: 0 :: 0 :: 0 :: 0 :: 0 :: 0 :: 0 :: List.replicate m 0 := by
      simp [List.replicate_succ]
    rw [this]
    simp [setAt, putU16, putU32, go_ok_bind, go_pure, be16, be32, bind, Except.bind, pure, Except.pure]
  · intro h
    match n, h with
    | 0, _ | 1, _ | 2, _ | 3, _ | 4, _ | 5, _ | 6, _ | 7, _ =>
      simp [setAt, putU16, putU32, bind, Except.bind, List.replicate_succ, Panics]

/-- C25: the eight bytes `Pack` writes are the right ones, and it panics for no unpacked packet whose extension is
shorter than 64 kB. Missing for the full claim: SSRC, CSRC list, extension and payload (refuted below). -/
theorem C25_prefix_partial (buf : Bytes) (q : RtpPacket) (h : rtpUnpack buf = .ok (.ok q)) (hl : q.xl ≤ 16364) :
    ∃ out, rtpPack (some q) = .ok (some out) ∧ out.take 8 = buf.take 8 ∧ out.length + q.pl.length = buf.length := by
  obtain ⟨hv, he⟩ := C24_accepts_only_packets buf q h
  have hcc : q.cc.toNat = q.csrc.length ∧ q.xl = q.xd.length / 4 ∧ (q.x = false → q.xl = 0) := by
    obtain ⟨q', hq', _, h2, h3, _, _, _, _, _, h9, h10, h11, _⟩ := C23_unpack _ hv
    rw [he, h] at hq'
    injection hq' with hq'
    injection hq' with hq'
    subst hq'
    refine ⟨h3, ?_, ?_⟩
    · cases hx : q.x with
      | true => exact (h10 (q.xh, q.xd) (by simp [RtpPacket.wire, hx])).2.1
      | false => have := h11 (by simp [RtpPacket.wire, hx]); simp [this.2.1, this.2.2]
    · intro hx; exact (h11 (by simp [RtpPacket.wire, hx])).2.1
  have hc15 : q.csrc.length ≤ 15 := hv.cc
  have hpl : packLen q = 12 + q.csrc.length * 4 + if q.x then 4 * (1 + q.xl) else 0 := by
    unfold packLen; rw [hcc.1]; split <;> omega
  refine ⟨_, (C25_pack_exact q).1 (by omega), ?_, ?_⟩
  · rw [← he]
    have e := he
    have f : ∀ b0 b1 (r1 r2 : Bytes), (b0 :: b1 :: (be16 q.sn ++ be32 q.ts ++ r1)).take 8 = (b0 :: b1 :: (be16 q.sn ++ be32 q.ts ++ r2)).take 8 := by
      intros; simp [be16, be32]
    rw [RtpWire.encode]
    have hb : UInt8.ofNat (128 + bit q.wire.padding 32 + bit q.wire.ext.isSome 16 + q.wire.csrc.length) = q.vpxcc ∧
        UInt8.ofNat (bit q.wire.marker 128 + q.wire.pt) = q.mpt := by
      have hh := h
      rw [← he] at hh
      unfold rtpUnpack at hh
      rw [go_bind_ok] at hh
      obtain ⟨b0, h0, hh⟩ := hh
      split at hh
      · simp [go_pure] at hh
      simp only [go_bind_ok, go_pure] at hh
      obtain ⟨b1, h1, _, _, _, _, _, _, _, _, _, _, _, _, hh⟩ := hh
      injection hh with hh
      injection hh with hh
      have e1 : q.vpxcc = b0 := by rw [← hh]
      have e2 : q.mpt = b1 := by rw [← hh]
      rw [e1, e2]
      simp only [idx, RtpWire.encode, List.getElem?_cons_zero, List.getElem?_cons_succ, Except.ok.injEq] at h0 h1
      exact ⟨h0, h1⟩
    rw [hb.1, hb.2]
    simp only [List.append_assoc]
    simp only [RtpPacket.wire]
    have := f q.vpxcc q.mpt (List.replicate (packLen q - 8) 0) (be32 q.ssrc ++ (q.csrc.flatMap be32 ++ (q.wire.extBytes ++ q.pl)))
    simp only [List.append_assoc, RtpPacket.wire] at this
    exact this
  · rw [← he]
    have hcl : ∀ l : List Nat, (l.flatMap be32).length = l.length * 4 := by
      intro l
      induction l with
      | nil => rfl
      | cons c cs ih => rw [List.flatMap_cons, List.length_append, ih, length_be32, List.length_cons]; omega
    have hel : q.wire.extBytes.length = if q.x then 4 * (1 + q.xl) else 0 := by
      cases hx : q.x with
      | true =>
        have : q.xd.length % 4 = 0 := (hv.ext (q.xh, q.xd) (by simp [RtpPacket.wire, hx])).2.1
        simp [RtpWire.extBytes, RtpPacket.wire, hx, be16]
        omega
      | false => simp [RtpWire.extBytes, RtpPacket.wire, hx]
    simp only [RtpWire.encode, List.length_cons, List.length_append, length_be16, length_be32, List.length_replicate, hel, hcl]
    simp only [RtpPacket.wire]
    rw [hpl]; omega

/-- C25 refuted: no packet with a payload survives. -/
theorem C25_payload_refuted (buf : Bytes) (q : RtpPacket) (h : rtpUnpack buf = .ok (.ok q)) (hl : q.xl ≤ 16364) (hp : q.pl ≠ []) :
    ∃ out, rtpPack (some q) = .ok (some out) ∧ out ≠ buf := by
  obtain ⟨out, h1, _, h2⟩ := C25_prefix_partial buf q h hl
  refine ⟨out, h1, ?_⟩
  rintro rfl
  have := List.length_pos_iff.mpr hp
  omega

/-- C25: `Pack` of nil is nil. -/
theorem C25_nil : rtpPack none = .ok none := rfl

example : ∃ q, rtpUnpack sampleRtp.encode = .ok (.ok q) ∧ q.xl ≤ 16364 ∧ q.pl ≠ [] :=
  ⟨⟨0xB2, 0xE0, 65535, 4000000000, 7, [1, 4294967295], 48862, 1, [1, 2, 3, 4], [9, 0, 2]⟩, by decide⟩

/-! ## C26, C27 -/

theorem rtcp_first (padding : Bool) (count : Nat) (h : count < 32) :
    (UInt8.ofNat (128 + bit padding 32 + count)).toNat = 128 + bit padding 32 + count := by
  rw [UInt8.toNat_ofNat']
  have : bit padding 32 ≤ 32 := by unfold bit; split <;> omega
  omega

/-- C26: a sender report at least as long as its report count implies is decoded with every field of the header and of
the sender information as sent. -/
theorem C26_sender_report (padding : Bool) (count len : Nat) (i : SenderInfo) (rest : Bytes) (hc : count < 32) (hl : len < 65536)
    (hi : i.Valid) (hr : count * 24 ≤ rest.length) :
    ∃ q, rtcpUnpack (senderReport padding count len i rest) = .ok (.ok q) ∧
      q.p = padding ∧ q.c.toNat = count ∧ q.pt = 200 ∧ q.ln = len ∧
      q.dsr = some { ssrc := i.ssrc, ntpts := i.ntp, rtpts := i.rtp, pc := i.packets, oc := i.octets } := by
  obtain ⟨b0, hb0⟩ : ∃ b0, b0 = UInt8.ofNat (128 + bit padding 32 + count) := ⟨_, rfl⟩
  have n0 : b0.toNat = 128 + bit padding 32 + count := by rw [hb0, rtcp_first _ _ hc]
  have hpad : (bit padding 32 = 32 ∧ padding = true) ∨ (bit padding 32 = 0 ∧ padding = false) := by
    unfold bit; cases padding <;> simp
  have ver : ((b0 &&& 0xC0) != 0x80) = false := by rw [ver_bits]; simp; omega
  have cc : (b0 &&& 0x1F).toNat = count := by rw [low5]; omega
  have pp : ((b0 &&& 0x20) != 0) = padding := by
    rw [bit5]; rcases hpad with ⟨h, e⟩ | ⟨h, e⟩ <;> rw [e] <;> simp <;> omega
  have henc : senderReport padding count len i rest = [b0, 200] ++ (be16 len ++ (be32 i.ssrc ++ (be64 i.ntp ++ (be32 i.rtp ++
      (be32 i.packets ++ (be32 i.octets ++ rest)))))) := by
    simp [senderReport, rtcpHeader, hb0]
  have h2 : u16At (senderReport padding count len i rest) 2 = .ok len := by rw [henc]; exact u16At_append rfl hl
  have h4 : u32At (senderReport padding count len i rest) 4 = .ok i.ssrc := by
    have := u32At_append (pre := [b0, 200] ++ be16 len) (off := 4)
      (rest := be64 i.ntp ++ (be32 i.rtp ++ (be32 i.packets ++ (be32 i.octets ++ rest)))) rfl hi.ssrc
    rw [henc]; simpa using this
  have h8 : u64At (senderReport padding count len i rest) (4 + 4) = .ok i.ntp := by
    have := u64At_append (pre := [b0, 200] ++ be16 len ++ be32 i.ssrc) (off := 8)
      (rest := be32 i.rtp ++ (be32 i.packets ++ (be32 i.octets ++ rest))) rfl hi.ntp
    rw [henc]; simpa using this
  have h16 : u32At (senderReport padding count len i rest) (4 + 12) = .ok i.rtp := by
    have := u32At_append (pre := [b0, 200] ++ be16 len ++ be32 i.ssrc ++ be64 i.ntp) (off := 16)
      (rest := be32 i.packets ++ (be32 i.octets ++ rest)) rfl hi.rtp
    rw [henc]; simpa using this
  have h20 : u32At (senderReport padding count len i rest) (4 + 16) = .ok i.packets := by
    have := u32At_append (pre := [b0, 200] ++ be16 len ++ be32 i.ssrc ++ be64 i.ntp ++ be32 i.rtp) (off := 20)
      (rest := be32 i.octets ++ rest) rfl hi.packets
    rw [henc]; simpa using this
  have h24 : u32At (senderReport padding count len i rest) (4 + 20) = .ok i.octets := by
    have := u32At_append (pre := [b0, 200] ++ be16 len ++ be32 i.ssrc ++ be64 i.ntp ++ be32 i.rtp ++ be32 i.packets) (off := 24)
      (rest := rest) rfl hi.octets
    rw [henc]; simpa using this
  have i0 : idx (senderReport padding count len i rest) 0 = .ok b0 := by rw [henc]; rfl
  have i1 : idx (senderReport padding count len i rest) 1 = .ok 200 := by rw [henc]; rfl
  have hlen : ¬ (senderReport padding count len i rest).length < 28 + count * 24 := by
    rw [henc]; simp [be16, be32, be64]; omega
  refine ⟨⟨b0, 200, len, some { ssrc := i.ssrc, ntpts := i.ntp, rtpts := i.rtp, pc := i.packets, oc := i.octets }⟩, ?_, pp, cc, rfl, rfl, rfl⟩
  unfold rtcpUnpack
  simp only [i0, i1, go_ok_bind, h2, ver, Bool.false_eq_true, if_false, cc, hlen, h4, h8, h16, h20, h24, go_pure, beq_self_eq_true, if_true]

/-- C26: a sender report too short for its report count is an error. -/
theorem C26_short (b0 x y : UInt8) (rest : Bytes) (hv : b0.toNat / 64 = 2)
    (hs : (b0 :: 200 :: x :: y :: rest).length < 28 + (b0.toNat % 32) * 24) :
    rtcpUnpack (b0 :: 200 :: x :: y :: rest) = .ok (.error .packetTooShort) := by
  have ver : ((b0 &&& 0xC0) != 0x80) = false := by rw [ver_bits]; simpa using hv
  unfold rtcpUnpack
  simp only [idx, List.getElem?_cons_zero, List.getElem?_cons_succ, go_ok_bind, u16At, sliceFrom, List.length_cons,
    Nat.le_add_left, if_true, List.drop_succ_cons, List.drop_zero, beU16, ver, Bool.false_eq_true, if_false, beq_self_eq_true, low5]
  simp only [List.length_cons] at hs
  rw [if_pos hs]; rfl

/-- C26: other packet types return the header and nothing else. -/
theorem C26_other (b0 pt x y : UInt8) (rest : Bytes) (hv : b0.toNat / 64 = 2) (hp : pt ≠ 200) :
    rtcpUnpack (b0 :: pt :: x :: y :: rest) =
      .ok (.ok { vpc := b0, pt := pt, ln := x.toNat * 256 + y.toNat, dsr := none }) := by
  have ver : ((b0 &&& 0xC0) != 0x80) = false := by rw [ver_bits]; simpa using hv
  unfold rtcpUnpack
  simp only [idx, List.getElem?_cons_zero, List.getElem?_cons_succ, go_ok_bind, u16At, sliceFrom, List.length_cons,
    List.drop_succ_cons, List.drop_zero, beU16, ver, Bool.false_eq_true, if_false]
  rw [if_pos (by omega)]
  simp only [go_ok_bind]
  rw [if_neg (by simpa using hp)]; rfl

example : ∃ i : SenderInfo, i.Valid ∧ i.ntp = 2 ^ 64 - 1 := ⟨⟨1, 2 ^ 64 - 1, 2, 3, 4⟩, by constructor <;> decide, rfl⟩

/-- C27, exact: the only datagrams on which `Unpack` panics are those shorter than four bytes. -/
theorem C27_panics_iff (buf : Bytes) : Panics (rtcpUnpack buf) ↔ buf.length < 4 := by
  constructor
  · intro h
    apply Decidable.byContradiction
    intro hl
    match buf, hl, h with
    | b0 :: b1 :: x :: y :: rest, _, h =>
      by_cases hv : b0.toNat / 64 = 2
      · by_cases hp : b1 = 200
        · subst hp
          by_cases hs : (b0 :: 200 :: x :: y :: rest).length < 28 + (b0.toNat % 32) * 24
          · rw [C26_short _ _ _ _ hv hs] at h; exact not_panics_ok _ h
          · have ver : ((b0 &&& 0xC0) != 0x80) = false := by rw [ver_bits]; simpa using hv
            unfold rtcpUnpack at h
            simp only [List.length_cons] at hs
            match rest, hs, h with
            | a1 :: a2 :: a3 :: a4 :: a5 :: a6 :: a7 :: a8 :: a9 :: a10 :: a11 :: a12 :: a13 :: a14 :: a15 :: a16 :: a17 :: a18 ::
                a19 :: a20 :: a21 :: a22 :: a23 :: a24 :: rest, hs, h =>
              simp only [idx, List.getElem?_cons_zero, List.getElem?_cons_succ, go_ok_bind, u16At, u32At, u64At, sliceFrom, List.length_cons,
                List.drop_succ_cons, List.drop_zero, beU16, beU32, beU64, ver, Bool.false_eq_true, if_false, beq_self_eq_true, low5, if_true] at h hs
              rw [if_pos (by omega)] at h
              simp only [go_ok_bind] at h
              rw [if_neg (by omega), if_pos (by omega)] at h
              simp only [go_ok_bind] at h
              rw [if_pos (by omega)] at h
              simp only [go_ok_bind, Nat.reduceAdd, List.drop_succ_cons, List.drop_zero, beU64] at h
              rw [if_pos (by omega)] at h
              simp only [go_ok_bind, Nat.reduceAdd, List.drop_succ_cons, List.drop_zero, beU32] at h
              rw [if_pos (by omega)] at h
              simp only [go_ok_bind, Nat.reduceAdd, List.drop_succ_cons, List.drop_zero, beU32] at h
              rw [if_pos (by omega)] at h
              simp only [go_ok_bind, Nat.reduceAdd, List.drop_succ_cons, List.drop_zero, beU32] at h
              exact not_panics_ok _ h
            | [], hs, _ | [_], hs, _ | [_, _], hs, _ | [_, _, _], hs, _ => simp at hs; omega
            | [_, _, _, _], hs, _ | [_, _, _, _, _], hs, _ | [_, _, _, _, _, _], hs, _ => simp at hs; omega
            | [_, _, _, _, _, _, _], hs, _ | [_, _, _, _, _, _, _, _], hs, _ => simp at hs; omega
            | [_, _, _, _, _, _, _, _, _], hs, _ | [_, _, _, _, _, _, _, _, _, _], hs, _ => simp at hs; omega
            | [_, _, _, _, _, _, _, _, _, _, _], hs, _ | [_, _, _, _, _, _, _, _, _, _, _, _], hs, _ => simp at hs; omega
            | [_, _, _, _, _, _, _, _, _, _, _, _, _], hs, _ => simp at hs; omega
            | [_, _, _, _, _, _, _, _, _, _, _, _, _, _], hs, _ => simp at hs; omega
            | [_, _, _, _, _, _, _, _, _, _, _, _, _, _, _], hs, _ => simp at hs; omega
            | [_, _, _, _, _, _, _, _, _, _, _, _, _, _, _, _], hs, _ => simp at hs; omega
            | [_, _, _, _, _, _, _, _, _, _, _, _, _, _, _, _, _], hs, _ => simp at hs; omega
            | [_, _, _, _, _, _, _, _, _, _, _, _, _, _, _, _, _, _], hs, _ => simp at hs; omega
            | [_, _, _, _, _, _, _, _, _, _, _, _, _, _, _, _, _, _, _], hs, _ => simp at hs; omega
            | [_, _, _, _, _, _, _, _, _, _, _, _, _, _, _, _, _, _, _, _], hs, _ => simp at hs; omega
            | [_, _, _, _, _, _, _, _, _, _, _, _, _, _, _, _, _, _, _, _, _], hs, _ => simp at hs; omega
            | [_, _, _, _, _, _, _, _, _, _, _, _, _, _, _, _, _, _, _, _, _, _], hs, _ => simp at hs; omega
            | [_, _, _, _, _, _, _, _, _, _, _, _, _, _, _, _, _, _, _, _, _, _, _], hs, _ => simp at hs; omega
        · rw [C26_other _ _ _ _ _ hv hp] at h; exact not_panics_ok _ h
      · have ver : ((b0 &&& 0xC0) != 0x80) = true := by rw [ver_bits]; simpa using hv
        unfold rtcpUnpack at h
        simp only [idx, List.getElem?_cons_zero, List.getElem?_cons_succ, go_ok_bind, u16At, sliceFrom, List.length_cons,
          List.drop_succ_cons, List.drop_zero, beU16, ver, if_true, go_pure] at h
        rw [if_pos (by omega)] at h
        exact not_panics_ok _ h
    | [], hl, _ | [_], hl, _ | [_, _], hl, _ | [_, _, _], hl, _ => simp at hl
  · intro h
    match buf, h with
    | [], _ | [_], _ | [_, _], _ | [_, _, _], _ =>
      simp [rtcpUnpack, idx, u16At, sliceFrom, beU16, bind, Except.bind, Panics]

/-- A version 1 packet, a sender report that is cut off after its header, and a goodbye. -/
example : (0x41 : UInt8).toNat / 64 ≠ 2 ∧ ((0x81 : UInt8).toNat / 64 = 2 ∧ ([0x81, 200, 0, 12, 1, 2, 3, 4] : Bytes).length < 28 + ((0x81 : UInt8).toNat % 32) * 24) ∧
    rtcpUnpack [0x81, 203, 0, 1, 1, 2, 3, 4] = .ok (.ok { vpc := 0x81, pt := 203, ln := 1, dsr := none }) := by decide +kernel

/-- C27, the part that holds. Missing: datagrams of fewer than four bytes (refuted below). -/
theorem C27_total_partial (buf : Bytes) (h : 4 ≤ buf.length) : ∃ r, rtcpUnpack buf = .ok r := by
  rcases panics_or_ok (rtcpUnpack buf) with hp | h'
  · have := (C27_panics_iff buf).mp hp; omega
  · exact h'

/-- C27 refuted: a datagram of up to three bytes, of any version, panics. -/
theorem C27_short_refuted (b0 : UInt8) : Panics (rtcpUnpack [b0]) := (C27_panics_iff _).mpr (by simp)

end Ouro
