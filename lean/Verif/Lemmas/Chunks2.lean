import Verif.Lemmas.Chunks
/-! # Programs over readers that meet the same specification -/
namespace Ouro
open Spec

section
variable {ρ σ : Type} {m : Methods ρ} {n : Methods σ} {okr : ρ → Prop} {oks : σ → Prop} {er : ρ → List Ev} {es : σ → List Ev}

/-- Two readers with the same events to come. -/
def Twins (okr : ρ → Prop) (oks : σ → Prop) (er : ρ → List Ev) (es : σ → List Ev) (r : ρ) (s : σ) : Prop := okr r ∧ oks s ∧ er r = es s

/-- The same result, and twins again. -/
def Agree (okr : ρ → Prop) (oks : σ → Prop) (er : ρ → List Ev) (es : σ → List Ev) {α : Type} (x : α × ρ) (y : α × σ) : Prop :=
  x.1 = y.1 ∧ Twins okr oks er es x.2 y.2

/-- The same result, and twins again unless the result is `stop`. -/
def AgreeBut {α : Type} (stop : α) (okr : ρ → Prop) (oks : σ → Prop) (er : ρ → List Ev) (es : σ → List Ev) (x : α × ρ) (y : α × σ) : Prop :=
  x.1 = y.1 ∧ (x.1 = stop ∨ Twins okr oks er es x.2 y.2)

theorem lead_cons {l : List Ev} {b : UInt8} {t : Bytes} (h : leadBytes l = b :: t) : ∃ l', l = .byte b :: l' := by
  cases l with
  | nil => cases h
  | cons e t => cases e with
    | byte c => injection h with h _; subst h; exact ⟨t, rfl⟩
    | timeout => cases h
    | reset => cases h

variable (hm : Meets m okr er) (hn : Meets n oks es)
include hm hn

theorem agree_readByte {r : ρ} {s : σ} (h : Twins okr oks er es r s) : Agree okr oks er es (m.readByte r) (n.readByte s) := by
  obtain ⟨h1, h2, h3⟩ := h
  cases hl : leadBytes (er r) with
  | nil =>
    obtain ⟨r', a1, a2, a3⟩ := hm.byte_err r h1 hl
    obtain ⟨s', b1, b2, b3⟩ := hn.byte_err s h2 (by rw [← h3]; exact hl)
    rw [a1, b1, ← h3]
    exact ⟨rfl, a2, b2, by rw [a3, b3, h3]⟩
  | cons b t =>
    obtain ⟨l, hl'⟩ := lead_cons hl
    obtain ⟨r', a1, a2, a3⟩ := hm.byte_ok r b l h1 hl'
    obtain ⟨s', b1, b2, b3⟩ := hn.byte_ok s b l h2 (by rw [← h3]; exact hl')
    rw [a1, b1]
    exact ⟨rfl, a2, b2, by rw [a3, b3]⟩

theorem agree_readLine {r : ρ} {s : σ} (h : Twins okr oks er es r s) : Agree okr oks er es (m.readLine r) (n.readLine s) := by
  obtain ⟨h1, h2, h3⟩ := h
  by_cases hl : (10 : UInt8) ∈ leadBytes (er r)
  · obtain ⟨a, b, hab, ha⟩ := cut_at hl
    have he : er r = a.map .byte ++ .byte 10 :: (b.map .byte ++ afterLead (er r)) := by
      conv => lhs; rw [lead_split (er r), hab]
      simp
    obtain ⟨r', a1, a2, a3⟩ := hm.line_ok r a _ h1 ha he
    obtain ⟨s', b1, b2, b3⟩ := hn.line_ok s a _ h2 ha (by rw [← h3]; exact he)
    rw [a1, b1]
    exact ⟨rfl, a2, b2, by rw [a3, b3]⟩
  · obtain ⟨r', a1, a2, a3⟩ := hm.line_err r h1 hl
    obtain ⟨s', b1, b2, b3⟩ := hn.line_err s h2 (by rw [← h3]; exact hl)
    rw [a1, b1, ← h3]
    exact ⟨rfl, a2, b2, by rw [a3, b3, h3]⟩

theorem agree_readFull {r : ρ} {s : σ} (k : Nat) (h : Twins okr oks er es r s) : Agree okr oks er es (m.readFull r k) (n.readFull s k) := by
  obtain ⟨h1, h2, h3⟩ := h
  by_cases hl : (leadBytes (er r)).length < k
  · obtain ⟨r', a1, a2, a3⟩ := hm.full_err r k h1 hl
    obtain ⟨s', b1, b2, b3⟩ := hn.full_err s k h2 (by rw [← h3]; exact hl)
    rw [a1, b1, ← h3]
    exact ⟨rfl, a2, b2, by rw [a3, b3, h3]⟩
  · have hk : ((leadBytes (er r)).take k).length = k := by simp; omega
    have he : er r = ((leadBytes (er r)).take k).map .byte ++ (((leadBytes (er r)).drop k).map .byte ++ afterLead (er r)) := by
      rw [← List.append_assoc, ← List.map_append, List.take_append_drop, ← lead_split]
    obtain ⟨r', a1, a2, a3⟩ := hm.full_ok r _ _ h1 he
    obtain ⟨s', b1, b2, b3⟩ := hn.full_ok s _ _ h2 (h3.symm.trans he)
    rw [hk] at a1 b1
    rw [a1, b1]
    exact ⟨rfl, a2, b2, by rw [a3, b3]⟩

/-- `Peek`: the same result; twins again unless too much was asked for; and twins also after `Discard` of what was seen. -/
theorem agree_peek {r : ρ} {s : σ} (k : Nat) (h : Twins okr oks er es r s) :
    AgreeBut (.error .bufferFull) okr oks er es (m.peek r k) (n.peek s k) ∧
    ((∃ b, (m.peek r k).1 = .ok b) → Twins okr oks er es (m.discard (m.peek r k).2 k) (n.discard (n.peek s k).2 k)) := by
  obtain ⟨h1, h2, h3⟩ := h
  by_cases hb : k ≤ bufSize
  · by_cases hl : k ≤ (leadBytes (er r)).length
    · obtain ⟨r', a1, a2, a3, a4, a5⟩ := hm.peek_ok r k h1 hb hl
      obtain ⟨s', b1, b2, b3, b4, b5⟩ := hn.peek_ok s k h2 hb (by rw [← h3]; exact hl)
      rw [a1, b1, ← h3]
      exact ⟨⟨rfl, .inr ⟨a2, b2, by rw [a3, b3, h3]⟩⟩, fun _ => ⟨a4, b4, by rw [a5, b5, h3]⟩⟩
    · obtain ⟨r', a1, a2, a3⟩ := hm.peek_err r k h1 hb (by omega)
      obtain ⟨s', b1, b2, b3⟩ := hn.peek_err s k h2 hb (by rw [← h3]; omega)
      rw [a1, b1, ← h3]
      exact ⟨⟨rfl, .inr ⟨a2, b2, by rw [a3, b3, h3]⟩⟩, fun ⟨b, hb⟩ => by cases hb⟩
  · obtain ⟨r', a1⟩ := hm.peek_full r k h1 (by omega)
    obtain ⟨s', b1⟩ := hn.peek_full s k h2 (by omega)
    rw [a1, b1]
    exact ⟨⟨rfl, .inl rfl⟩, fun ⟨b, hb⟩ => by cases hb⟩

theorem agree_readBytes {r : ρ} {s : σ} (k : Nat) (h : Twins okr oks er es r s) :
    AgreeBut (.error .bufferFull) okr oks er es (readBytesM m r k) (readBytesM n s k) := by
  obtain ⟨⟨h1, h2⟩, h3⟩ := agree_peek hm hn k h
  unfold readBytesM
  revert h1 h2 h3
  rcases m.peek r k with ⟨_ | b, r'⟩ <;> rcases n.peek s k with ⟨_ | b', s'⟩ <;> dsimp only <;> intro h3 h1 h2
  · injection h1 with h1; subst h1
    exact ⟨rfl, h2⟩
  · cases h1
  · cases h1
  · injection h1 with h1; subst h1
    exact ⟨rfl, .inr (h3 ⟨_, rfl⟩)⟩

theorem agree_readUint16 {r : ρ} {s : σ} (h : Twins okr oks er es r s) : Agree okr oks er es (readUint16M m r) (readUint16M n s) := by
  obtain ⟨h1, h2⟩ := agree_readFull hm hn 2 h
  unfold readUint16M
  revert h1 h2
  rcases m.readFull r 2 with ⟨_ | b, r'⟩ <;> rcases n.readFull s 2 with ⟨_ | b', s'⟩ <;> dsimp only <;> intro h1 h2
  · injection h1 with h1; subst h1; exact ⟨rfl, h2⟩
  · cases h1
  · cases h1
  · injection h1 with h1; subst h1; exact ⟨rfl, h2⟩

theorem agree_headerLoop (k : Nat) : ∀ {r : ρ} {s : σ} (hd : Header), Twins okr oks er es r s →
    Agree okr oks er es (headerLoopM m k r hd) (headerLoopM n k s hd) := by
  induction k with
  | zero => intro r s hd h; exact ⟨rfl, h⟩
  | succ k ih =>
    intro r s hd h
    obtain ⟨h1, h2⟩ := agree_readLine hm hn h
    rw [headerLoopM, headerLoopM]
    revert h1 h2
    rcases m.readLine r with ⟨_ | line, r'⟩ <;> rcases n.readLine s with ⟨_ | line', s'⟩ <;> dsimp only <;> intro h1 h2
    · injection h1 with h1; subst h1; exact ⟨rfl, h2⟩
    · cases h1
    · cases h1
    · injection h1 with h1; subst h1
      split
      · exact ⟨rfl, h2⟩
      · split
        · exact ih _ h2
        · exact ⟨rfl, h2⟩

theorem agree_unpackRsp {r : ρ} {s : σ} (h : Twins okr oks er es r s) :
    AgreeBut (.error (.io .bufferFull)) okr oks er es (unpackRspM m r) (unpackRspM n s) := by
  obtain ⟨h1, h2⟩ := agree_readLine hm hn h
  unfold unpackRspM
  revert h1 h2
  rcases m.readLine r with ⟨_ | line, r'⟩ <;> rcases n.readLine s with ⟨_ | line', s'⟩ <;> dsimp only <;> intro h1 h2
  · injection h1 with h1; subst h1; exact ⟨rfl, .inr h2⟩
  · cases h1
  · cases h1
  · injection h1 with h1; subst h1
    cases statusLine b!"RTSP/1.0" line with
    | error e => exact ⟨rfl, .inr h2⟩
    | ok p =>
      obtain ⟨status, code⟩ := p
      dsimp only
      have hs : m.size r' = n.size s' := by rw [hm.size _ h2.1, hn.size _ h2.2.1, h2.2.2]
      rw [hs]
      obtain ⟨h3, h4⟩ := agree_headerLoop hm hn (n.size s' + 1) [] h2
      revert h3 h4
      rcases headerLoopM m (n.size s' + 1) r' [] with ⟨_ | hd, r''⟩ <;> rcases headerLoopM n (n.size s' + 1) s' [] with ⟨_ | hd', s''⟩ <;> dsimp only <;> intro h3 h4
      · injection h3 with h3; subst h3; exact ⟨rfl, .inr h4⟩
      · cases h3
      · cases h3
      · injection h3 with h3; subst h3
        split
        · obtain ⟨h5, h6⟩ := agree_readBytes hm hn (contentLen (hd.get b!"Content-Length")).toNat h4
          revert h5 h6
          rcases readBytesM m r'' (contentLen (hd.get b!"Content-Length")).toNat with ⟨_ | b, r3⟩ <;>
            rcases readBytesM n s'' (contentLen (hd.get b!"Content-Length")).toNat with ⟨_ | b', s3⟩ <;> dsimp only <;> intro h5 h6
          · injection h5 with h5; subst h5
            refine ⟨rfl, ?_⟩
            rcases h6 with h6 | h6
            · injection h6 with h6; subst h6; exact .inl rfl
            · exact .inr h6
          · cases h5
          · cases h5
          · injection h5 with h5; subst h5
            refine ⟨rfl, ?_⟩
            rcases h6 with h6 | h6
            · cases h6
            · exact .inr h6
        · exact ⟨rfl, .inr h4⟩

theorem agree_recvFrame {r : ρ} {s : σ} (h : Twins okr oks er es (m.discard r 1) (n.discard s 1)) :
    AgreeBut (.error (.io .bufferFull)) okr oks er es (recvFrameM m r) (recvFrameM n s) := by
  obtain ⟨h1, h2⟩ := agree_readByte hm hn h
  unfold recvFrameM
  revert h1 h2
  rcases m.readByte (m.discard r 1) with ⟨_ | ch, r'⟩ <;> rcases n.readByte (n.discard s 1) with ⟨_ | ch', s'⟩ <;> dsimp only <;> intro h1 h2
  · injection h1 with h1; subst h1; exact ⟨rfl, .inr h2⟩
  · cases h1
  · cases h1
  · injection h1 with h1; subst h1
    obtain ⟨h3, h4⟩ := agree_readUint16 hm hn h2
    revert h3 h4
    rcases readUint16M m r' with ⟨_ | len, r2⟩ <;> rcases readUint16M n s' with ⟨_ | len', s2⟩ <;> dsimp only <;> intro h3 h4
    · injection h3 with h3; subst h3; exact ⟨rfl, .inr h4⟩
    · cases h3
    · cases h3
    · injection h3 with h3; subst h3
      obtain ⟨h5, h6⟩ := agree_readBytes hm hn len h4
      revert h5 h6
      rcases readBytesM m r2 len with ⟨_ | b, r3⟩ <;> rcases readBytesM n s2 len with ⟨_ | b', s3⟩ <;> dsimp only <;> intro h5 h6
      · injection h5 with h5; subst h5
        refine ⟨rfl, ?_⟩
        rcases h6 with h6 | h6
        · injection h6 with h6; subst h6; exact .inl rfl
        · exact .inr h6
      · cases h5
      · cases h5
      · injection h5 with h5; subst h5
        refine ⟨rfl, ?_⟩
        rcases h6 with h6 | h6
        · cases h6
        · exact .inr h6

theorem agree_recv {r : ρ} {s : σ} (h : Twins okr oks er es r s) : AgreeBut (.error (.io .bufferFull)) okr oks er es (recvM m r) (recvM n s) := by
  obtain ⟨⟨h1, h2⟩, h3⟩ := agree_peek hm hn 1 h
  unfold recvM
  revert h1 h2 h3
  rcases m.peek r 1 with ⟨_ | b, r'⟩ <;> rcases n.peek s 1 with ⟨_ | b', s'⟩ <;> dsimp only <;> intro h3 h1 h2
  · injection h1 with h1; subst h1
    refine ⟨rfl, ?_⟩
    rcases h2 with h2 | h2
    · injection h2 with h2; subst h2; exact .inl rfl
    · exact .inr h2
  · cases h1
  · cases h1
  · injection h1 with h1; subst h1
    split
    · exact agree_recvFrame hm hn (h3 ⟨_, rfl⟩)
    · have h2 : Twins okr oks er es r' s' := h2.resolve_left (fun h => by cases h)
      obtain ⟨h5, h6⟩ := agree_unpackRsp hm hn h2
      revert h5 h6
      rcases unpackRspM m r' with ⟨_ | q, r2⟩ <;> rcases unpackRspM n s' with ⟨_ | q', s2⟩ <;> dsimp only <;> intro h5 h6
      · injection h5 with h5; subst h5
        refine ⟨rfl, ?_⟩
        rcases h6 with h6 | h6
        · injection h6 with h6; subst h6; exact .inl rfl
        · exact .inr h6
      · cases h5
      · cases h5
      · injection h5 with h5; subst h5
        refine ⟨rfl, ?_⟩
        rcases h6 with h6 | h6
        · cases h6
        · exact .inr h6

theorem agree_httpHeaderLoop (k : Nat) : ∀ {r : ρ} {s : σ}, Twins okr oks er es r s → Agree okr oks er es (httpHeaderLoopM m k r) (httpHeaderLoopM n k s) := by
  induction k with
  | zero => intro r s h; exact ⟨rfl, h⟩
  | succ k ih =>
    intro r s h
    obtain ⟨h1, h2⟩ := agree_readLine hm hn h
    rw [httpHeaderLoopM, httpHeaderLoopM]
    revert h1 h2
    rcases m.readLine r with ⟨_ | line, r'⟩ <;> rcases n.readLine s with ⟨_ | line', s'⟩ <;> dsimp only <;> intro h1 h2
    · injection h1 with h1; subst h1; exact ⟨rfl, h2⟩
    · cases h1
    · cases h1
    · injection h1 with h1; subst h1
      split
      · exact ⟨rfl, h2⟩
      · split
        · exact ⟨rfl, h2⟩
        · exact ih h2

theorem agree_receiveHTTP {r : ρ} {s : σ} (h : Twins okr oks er es r s) : Agree okr oks er es (receiveHTTPM m r) (receiveHTTPM n s) := by
  obtain ⟨h1, h2⟩ := agree_readLine hm hn h
  unfold receiveHTTPM
  revert h1 h2
  rcases m.readLine r with ⟨_ | line, r'⟩ <;> rcases n.readLine s with ⟨_ | line', s'⟩ <;> dsimp only <;> intro h1 h2
  · injection h1 with h1; subst h1; exact ⟨rfl, h2⟩
  · cases h1
  · cases h1
  · injection h1 with h1; subst h1
    cases statusLine b!"HTTP/1.0" line with
    | error e => exact ⟨rfl, h2⟩
    | ok p =>
      dsimp only
      have hs : m.size r' = n.size s' := by rw [hm.size _ h2.1, hn.size _ h2.2.1, h2.2.2]
      rw [hs]
      exact agree_httpHeaderLoop hm hn _ h2

end
end Ouro
