import Verif.Props.Rtp
import Verif.Props.Streams
import Verif.Spec.Compound
/-! # C105: compound RTCP packets -/
namespace Ouro
open Spec

theorem idx_more {a : Bytes} (b : Bytes) {i : Nat} (h : i < a.length) : idx (a ++ b) i = idx a i := by
  unfold idx; rw [List.getElem?_append_left h]

theorem sliceFrom_more {a : Bytes} (b : Bytes) {i : Nat} (h : i ≤ a.length) : sliceFrom (a ++ b) i = .ok (a.drop i ++ b) := by
  unfold sliceFrom; rw [if_pos (by rw [List.length_append]; omega), List.drop_append_of_le_length h]

theorem u16At_more {a : Bytes} (b : Bytes) {i : Nat} (h : i + 2 ≤ a.length) : u16At (a ++ b) i = u16At a i := by
  unfold u16At
  rw [sliceFrom_more b (by omega), sliceFrom, if_pos (by omega)]
  have : 2 ≤ (a.drop i).length := by rw [List.length_drop]; omega
  match a.drop i, this with
  | _ :: _ :: _, _ => rfl

theorem u32At_more {a : Bytes} (b : Bytes) {i : Nat} (h : i + 4 ≤ a.length) : u32At (a ++ b) i = u32At a i := by
  unfold u32At
  rw [sliceFrom_more b (by omega), sliceFrom, if_pos (by omega)]
  have : 4 ≤ (a.drop i).length := by rw [List.length_drop]; omega
  match a.drop i, this with
  | _ :: _ :: _ :: _ :: _, _ => rfl

theorem u64At_more {a : Bytes} (b : Bytes) {i : Nat} (h : i + 8 ≤ a.length) : u64At (a ++ b) i = u64At a i := by
  unfold u64At
  rw [sliceFrom_more b (by omega), sliceFrom, if_pos (by omega)]
  have : 8 ≤ (a.drop i).length := by rw [List.length_drop]; omega
  match a.drop i, this with
  | _ :: _ :: _ :: _ :: _ :: _ :: _ :: _ :: _, _ => rfl

theorem rtcp_more {b0 b1 x y : UInt8} {t : Bytes} (more : Bytes) (h : b1 = 200 → 24 + (b0 &&& 0x1F).toNat * 24 ≤ t.length) :
    rtcpUnpack (b0 :: b1 :: x :: y :: (t ++ more)) = rtcpUnpack (b0 :: b1 :: x :: y :: t) := by
  have e : b0 :: b1 :: x :: y :: (t ++ more) = (b0 :: b1 :: x :: y :: t) ++ more := rfl
  have hl : (b0 :: b1 :: x :: y :: t).length = t.length + 4 := rfl
  rw [e]
  unfold rtcpUnpack
  rw [idx_more _ (by rw [hl]; omega), idx_more _ (by rw [hl]; omega), u16At_more _ (by rw [hl]; omega)]
  by_cases hb : b1 = 200
  · have hh := h hb
    have h1 : ¬ (b0 :: b1 :: x :: y :: t).length < 28 + (b0 &&& 0x1F).toNat * 24 := by rw [hl]; omega
    have h2 : ¬ ((b0 :: b1 :: x :: y :: t) ++ more).length < 28 + (b0 &&& 0x1F).toNat * 24 := by rw [List.length_append]; omega
    rw [u32At_more _ (by rw [hl]; omega), u64At_more _ (by rw [hl]; omega), u32At_more _ (by rw [hl]; omega), u32At_more _ (by rw [hl]; omega),
      u32At_more _ (by rw [hl]; omega)]
    have i0 : idx (b0 :: b1 :: x :: y :: t) 0 = .ok b0 := rfl
    have i1 : idx (b0 :: b1 :: x :: y :: t) 1 = .ok b1 := rfl
    simp only [i0, i1, go_ok_bind, h1, h2, if_false]
  · have i0 : idx (b0 :: b1 :: x :: y :: t) 0 = .ok b0 := rfl
    have i1 : idx (b0 :: b1 :: x :: y :: t) 1 = .ok b1 := rfl
    have hn : (b1 == 200) = false := by simpa using hb
    simp only [i0, i1, go_ok_bind, hn, Bool.false_eq_true, if_false]

theorem encode_shape (p : RtcpWire) (hp : p.Valid) : ∃ b0 x y, p.encode = b0 :: p.pt :: x :: y :: p.body ∧ b0.toNat / 64 = 2 ∧ b0.toNat % 32 = p.count ∧
    x.toNat * 256 + y.toNat = p.body.length / 4 ∧ ((b0 &&& 0x20) != 0) = p.padding := by
  have n0 := rtcp_first p.padding p.count hp.count
  have hpad : (bit p.padding 32 = 32 ∧ p.padding = true) ∨ (bit p.padding 32 = 0 ∧ p.padding = false) := by
    unfold bit; cases p.padding <;> simp
  have hc := hp.count
  have hl := hp.length
  refine ⟨UInt8.ofNat (128 + bit p.padding 32 + p.count), UInt8.ofNat (p.body.length / 4 / 256), UInt8.ofNat (p.body.length / 4), rfl, ?_, ?_, ?_, ?_⟩
  · rw [n0]; omega
  · rw [n0]; omega
  · rw [UInt8.toNat_ofNat', UInt8.toNat_ofNat']; omega
  · rw [bit5, n0]; rcases hpad with ⟨h, e⟩ | ⟨h, e⟩ <;> rw [h, e] <;> simp <;> omega

/-- C105, part: the first packet of a frame is understood, whatever follows: type, count, padding flag and length are those that were sent. Sender
information: C26. Missing: the packets that follow (`C105_rest_refuted`). -/
theorem C105_first_partial (p : RtcpWire) (hp : p.Valid) (more : Bytes) :
    ∃ q, rtcpUnpack (p.encode ++ more) = .ok (.ok q) ∧ q.p = p.padding ∧ q.c.toNat = p.count ∧ q.pt = p.pt ∧ q.ln = p.body.length / 4 := by
  obtain ⟨b0, x, y, e, h1, h2, h3, h4⟩ := encode_shape p hp
  rw [e]
  show ∃ q, rtcpUnpack (b0 :: p.pt :: x :: y :: (p.body ++ more)) = _ ∧ _
  by_cases hpt : p.pt = 200
  · have hrep := hp.report hpt
    have hlen : 28 + (b0 &&& 0x1F).toNat * 24 ≤ (b0 :: p.pt :: x :: y :: (p.body ++ more)).length := by
      rw [low5, h2]; simp only [List.length_cons, List.length_append]; omega
    have ver : ((b0 &&& 0xC0) != 0x80) = false := by rw [ver_bits]; simpa using h1
    have hok := C27_total_partial (b0 :: p.pt :: x :: y :: (p.body ++ more)) (by simp)
    obtain ⟨r, hr⟩ := hok
    rw [hr]
    unfold rtcpUnpack at hr
    have i0 : idx (b0 :: p.pt :: x :: y :: (p.body ++ more)) 0 = .ok b0 := rfl
    have i1 : idx (b0 :: p.pt :: x :: y :: (p.body ++ more)) 1 = .ok p.pt := rfl
    have i2 : u16At (b0 :: p.pt :: x :: y :: (p.body ++ more)) 2 = .ok (x.toNat * 256 + y.toNat) := rfl
    have heq : (p.pt == 200) = true := by simpa using hpt
    simp only [i0, i1, i2, go_ok_bind, ver, Bool.false_eq_true, if_false, heq, if_true, Nat.not_lt.mpr hlen] at hr
    cases h5 : u32At (b0 :: p.pt :: x :: y :: (p.body ++ more)) 4 with
    | error _ => rw [h5] at hr; cases hr
    | ok v1 =>
    cases h6 : u64At (b0 :: p.pt :: x :: y :: (p.body ++ more)) (4 + 4) with
    | error _ => rw [h5, h6] at hr; cases hr
    | ok v2 =>
    cases h7 : u32At (b0 :: p.pt :: x :: y :: (p.body ++ more)) (4 + 12) with
    | error _ => rw [h5, h6, h7] at hr; cases hr
    | ok v3 =>
    cases h8 : u32At (b0 :: p.pt :: x :: y :: (p.body ++ more)) (4 + 16) with
    | error _ => rw [h5, h6, h7, h8] at hr; cases hr
    | ok v4 =>
    cases h9 : u32At (b0 :: p.pt :: x :: y :: (p.body ++ more)) (4 + 20) with
    | error _ => rw [h5, h6, h7, h8, h9] at hr; cases hr
    | ok v5 =>
    rw [h5, h6, h7, h8, h9] at hr
    simp only [go_ok_bind, go_pure] at hr
    injection hr with hr
    subst hr
    exact ⟨_, rfl, h4, by show (b0 &&& 0x1F).toNat = _; rw [low5, h2], rfl, h3⟩
  · rw [C26_other b0 p.pt x y _ h1 hpt]
    exact ⟨_, rfl, h4, by show (b0 &&& 0x1F).toNat = _; rw [low5, h2], rfl, h3⟩

/-- C105, exact law: the result is that of the first packet alone. -/
theorem C105_first_exact (p : RtcpWire) (hp : p.Valid) (more : Bytes) : rtcpUnpack (p.encode ++ more) = rtcpUnpack p.encode := by
  obtain ⟨b0, x, y, e, h1, h2, h3, h4⟩ := encode_shape p hp
  rw [e]
  exact rtcp_more more fun h => by rw [low5, h2]; have := hp.report h; omega

/-- C105 fails: from the result nobody can tell even the types of the packets in the frame. -/
theorem C105_rest_refuted : ¬ ∃ types : Go (Except RtpErr RtcpPacket) → List UInt8, ∀ ps : List RtcpWire, ps ≠ [] → (∀ p ∈ ps, p.Valid) →
    types (rtcpUnpack (compound ps)) = ps.map (·.pt) := by
  rintro ⟨types, h⟩
  have hv : ∀ pt, pt ≠ 200 → (⟨false, 1, pt, [0, 0, 0, 7]⟩ : RtcpWire).Valid := fun pt hpt => ⟨show 1 < 32 by decide, (by decide : 4 % 4 = 0), show 4 / 4 < 65536 by decide, fun h => absurd h hpt⟩
  have h1 := h [⟨false, 1, 201, [0, 0, 0, 7]⟩] (by simp) (by intro p hp; rw [List.mem_singleton] at hp; subst hp; exact hv 201 (by decide))
  have h2 := h [⟨false, 1, 201, [0, 0, 0, 7]⟩, ⟨false, 1, 203, [0, 0, 0, 7]⟩] (by simp) (by
    intro p hp
    simp only [List.mem_cons, List.not_mem_nil, or_false] at hp
    rcases hp with rfl | rfl
    · exact hv 201 (by decide)
    · exact hv 203 (by decide))
  have : compound [⟨false, 1, 201, [0, 0, 0, 7]⟩, ⟨false, 1, 203, [0, 0, 0, 7]⟩] =
      (⟨false, 1, 201, [0, 0, 0, 7]⟩ : RtcpWire).encode ++ compound [⟨false, 1, 203, [0, 0, 0, 7]⟩] := rfl
  rw [this, C105_first_exact _ (hv 201 (by decide))] at h2
  have e : compound [⟨false, 1, 201, [0, 0, 0, 7]⟩] = (⟨false, 1, 201, [0, 0, 0, 7]⟩ : RtcpWire).encode := by simp [compound]
  rw [e, h2] at h1
  simp at h1

/-- C105, lengths, exact law: a frame of four bytes or more is accepted if and only if its version is 2 and, if it begins with a sender report, its report blocks
fit in the frame. The length field does not matter. -/
theorem C105_accepted_iff (b0 pt x y : UInt8) (rest : Bytes) :
    (∃ q, rtcpUnpack (b0 :: pt :: x :: y :: rest) = .ok (.ok q)) ↔ b0.toNat / 64 = 2 ∧ (pt = 200 → 24 + 24 * (b0.toNat % 32) ≤ rest.length) := by
  constructor
  · rintro ⟨q, h⟩
    by_cases hv : b0.toNat / 64 = 2
    · refine ⟨hv, fun hpt => Decidable.byContradiction fun hs => ?_⟩
      subst hpt
      rw [C26_short b0 x y rest hv (by simp only [List.length_cons]; omega)] at h
      cases h
    · have ver : ((b0 &&& 0xC0) != 0x80) = true := by rw [ver_bits]; simpa using hv
      have i0 : idx (b0 :: pt :: x :: y :: rest) 0 = .ok b0 := rfl
      have i1 : idx (b0 :: pt :: x :: y :: rest) 1 = .ok pt := rfl
      have i2 : u16At (b0 :: pt :: x :: y :: rest) 2 = .ok (x.toNat * 256 + y.toNat) := rfl
      unfold rtcpUnpack at h
      simp only [i0, i1, i2, go_ok_bind, ver, if_true, go_pure] at h
      cases h
  · rintro ⟨hv, hs⟩
    by_cases hpt : pt = 200
    · obtain ⟨r, hr⟩ := C27_total_partial (b0 :: pt :: x :: y :: rest) (by simp)
      cases r with
      | ok q => exact ⟨q, hr⟩
      | error e =>
        exfalso
        have ver : ((b0 &&& 0xC0) != 0x80) = false := by rw [ver_bits]; simpa using hv
        have i0 : idx (b0 :: pt :: x :: y :: rest) 0 = .ok b0 := rfl
        have i1 : idx (b0 :: pt :: x :: y :: rest) 1 = .ok pt := rfl
        have i2 : u16At (b0 :: pt :: x :: y :: rest) 2 = .ok (x.toNat * 256 + y.toNat) := rfl
        have heq : (pt == 200) = true := by simpa using hpt
        have hlen : ¬ (b0 :: pt :: x :: y :: rest).length < 28 + (b0 &&& 0x1F).toNat * 24 := by
          rw [low5]; have := hs hpt; simp only [List.length_cons]; omega
        unfold rtcpUnpack at hr
        simp only [i0, i1, i2, go_ok_bind, ver, Bool.false_eq_true, if_false, heq, if_true, hlen] at hr
        revert hr
        cases u32At (b0 :: pt :: x :: y :: rest) 4 with
        | error _ => intro hr; cases hr
        | ok v1 =>
        cases u64At (b0 :: pt :: x :: y :: rest) (4 + 4) with
        | error _ => intro hr; cases hr
        | ok v2 =>
        cases u32At (b0 :: pt :: x :: y :: rest) (4 + 12) with
        | error _ => intro hr; cases hr
        | ok v3 =>
        cases u32At (b0 :: pt :: x :: y :: rest) (4 + 16) with
        | error _ => intro hr; cases hr
        | ok v4 =>
        cases u32At (b0 :: pt :: x :: y :: rest) (4 + 20) with
        | error _ => intro hr; cases hr
        | ok v5 => intro hr; cases hr
    · rw [C26_other b0 pt x y rest hv hpt]; exact ⟨_, rfl⟩

/-- C105 fails for lengths: for every packet whose length field is wrong, in either direction, that is no sender report. -/
theorem C105_length_refuted (padding : Bool) (count : Nat) (hc : count < 32) (pt : UInt8) (hpt : pt ≠ 200) (len : Nat) (body : Bytes) :
    ∃ q, rtcpUnpack (rtcpHeader padding count pt len ++ body) = .ok (.ok q) := by
  have n0 := rtcp_first padding count hc
  have hpad : bit padding 32 ≤ 32 := by unfold bit; cases padding <;> simp
  exact (C105_accepted_iff _ pt _ _ body).mpr ⟨by rw [n0]; unfold bit at *; cases padding <;> simp <;> omega, fun h => absurd h hpt⟩

/-- C105, the client: a frame on an odd channel whose first packet is valid is taken and nothing comes of it, whatever packets it has; also if one of them says
goodbye. -/
theorem C105_client (w : World) (c : Client) (hne : c.ended = false) (ch : UInt8) (hch : ch % 2 ≠ 0) (p : RtcpWire) (hp : p.Valid) (more : Bytes)
    (rest : List (UInt8 × Bytes)) (hd : c.data = (ch, p.encode ++ more) :: rest) :
    cstep w c .packet = .ok { c with data := rest, trace := .packet ch (p.encode ++ more) :: c.trace } := by
  obtain ⟨q, hq, _⟩ := C105_first_partial p hp more
  unfold cstep
  rw [if_neg (by rw [hne]; decide)]
  dsimp only
  unfold clientPacket
  rw [hd]
  dsimp only
  rw [if_neg hch, hq]
  rfl

/-- A sender report with a goodbye. -/
def demoCompound : List RtcpWire := [⟨false, 0, 200, List.replicate 24 1⟩, ⟨false, 1, 203, [0, 0, 0, 7]⟩]

example : ∀ p ∈ demoCompound, p.Valid := by
  intro p hp
  simp only [demoCompound, List.mem_cons, List.not_mem_nil, or_false] at hp
  rcases hp with rfl | rfl
  · exact ⟨by decide, by decide, by decide, by decide⟩
  · exact ⟨by decide, by decide, by decide, by decide⟩

/-- A client that has read it. -/
example : ∃ c, ClientReachable demoWorld c ∧ (c.ended, c.data) = (false, [(1, compound demoCompound)]) := by
  obtain ⟨c, h1, h2⟩ := demoClient2_shows (frames := [(1, compound demoCompound)]) (es := demoPlay2 ++ [.read]) (f := fun c => (c.ended, c.data)) (a := (false, [(1, compound demoCompound)])) (by decide +kernel)
  exact ⟨c, h1, h2⟩

end Ouro
