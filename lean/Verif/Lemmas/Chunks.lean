import Verif.Model.Chunks
import Verif.Lemmas.Bufio
import Verif.Lemmas.TransportField
/-! # Both readers show the same -/
namespace Ouro
open Spec

/-- The bytes before the first event that is not a byte. -/
def leadBytes : List Ev → Bytes
  | .byte b :: t => b :: leadBytes t
  | _ => []

/-- What follows them. -/
def afterLead : List Ev → List Ev
  | .byte _ :: t => afterLead t
  | l => l

theorem lead_split (l : List Ev) : l = (leadBytes l).map .byte ++ afterLead l := by
  induction l with
  | nil => rfl
  | cons e t ih => cases e <;> simp [leadBytes, afterLead, ← ih]

/-- The error that a read finds there, and what is left after it. -/
def stopErr : List Ev → IOErr
  | .timeout :: _ => .timeout
  | .reset :: _ => .reset
  | _ => .eof

def stopRest : List Ev → List Ev
  | .timeout :: t => t
  | .reset :: t => t
  | _ => []

theorem lead_bytes (s : Bytes) (l : List Ev) : leadBytes (s.map .byte ++ l) = s ++ leadBytes l ∧ afterLead (s.map .byte ++ l) = afterLead l := by
  induction s with
  | nil => exact ⟨rfl, rfl⟩
  | cons b s ih => simp [leadBytes, afterLead, ih]

/-- What the methods of a reader must do, in terms of the events `evs` still to come. `ok` is an invariant of the reader between calls. -/
structure Meets {ρ : Type} (m : Methods ρ) (ok : ρ → Prop) (evs : ρ → List Ev) : Prop where
  size : ∀ r, ok r → m.size r = (evs r).length
  peek_ok : ∀ r n, ok r → n ≤ bufSize → n ≤ (leadBytes (evs r)).length →
    ∃ r', m.peek r n = (.ok ((leadBytes (evs r)).take n), r') ∧ ok r' ∧ evs r' = evs r ∧
      ok (m.discard r' n) ∧ evs (m.discard r' n) = (evs r).drop n
  peek_err : ∀ r n, ok r → n ≤ bufSize → (leadBytes (evs r)).length < n →
    ∃ r', m.peek r n = (.error (stopErr (afterLead (evs r))), r') ∧ ok r' ∧ evs r' = (leadBytes (evs r)).map .byte ++ stopRest (afterLead (evs r))
  peek_full : ∀ r n, ok r → bufSize < n → ∃ r', m.peek r n = (.error .bufferFull, r')
  byte_ok : ∀ r b t, ok r → evs r = .byte b :: t → ∃ r', m.readByte r = (.ok b, r') ∧ ok r' ∧ evs r' = t
  byte_err : ∀ r, ok r → leadBytes (evs r) = [] → ∃ r', m.readByte r = (.error (stopErr (evs r)), r') ∧ ok r' ∧ evs r' = stopRest (evs r)
  line_ok : ∀ r a t, ok r → (10 : UInt8) ∉ a → evs r = a.map .byte ++ .byte 10 :: t → ∃ r', m.readLine r = (.ok (a ++ [10]), r') ∧ ok r' ∧ evs r' = t
  line_err : ∀ r, ok r → (10 : UInt8) ∉ leadBytes (evs r) → ∃ r', m.readLine r = (.error (stopErr (afterLead (evs r))), r') ∧ ok r' ∧ evs r' = stopRest (afterLead (evs r))
  full_ok : ∀ r s t, ok r → evs r = s.map .byte ++ t → ∃ r', m.readFull r s.length = (.ok s, r') ∧ ok r' ∧ evs r' = t
  full_err : ∀ r n, ok r → (leadBytes (evs r)).length < n → ∃ r', m.readFull r n = (.error (stopErr (afterLead (evs r))), r') ∧ ok r' ∧ evs r' = stopRest (afterLead (evs r))

/-! ## The reader of single bytes -/

def Rdr.Calm (r : Rdr) : Prop := r.err = none

theorem fillLoop_stop (n : Nat) : ∀ (net : List Ev) (buf : Bytes), (buf ++ leadBytes net).length < n →
    fillLoop n buf net = ⟨buf ++ leadBytes net, some (stopErr (afterLead net)), stopRest (afterLead net)⟩ := by
  intro net
  induction net with
  | nil => intro buf h; simp only [leadBytes, List.append_nil] at h; simp [fillLoop, leadBytes, afterLead, stopErr, stopRest, h]
  | cons e t ih =>
    intro buf h
    cases e with
    | byte b =>
      simp only [leadBytes, List.length_append, List.length_cons] at h
      rw [fillLoop, if_pos (by omega), ih _ (by simp; omega)]
      simp [leadBytes, afterLead]
    | timeout => simp only [leadBytes, List.append_nil] at h; simp [fillLoop, leadBytes, afterLead, stopErr, stopRest, h]
    | reset => simp only [leadBytes, List.append_nil] at h; simp [fillLoop, leadBytes, afterLead, stopErr, stopRest, h]

theorem evs_lead (r : Rdr) : leadBytes r.evs = r.buf ++ leadBytes r.net ∧ afterLead r.evs = afterLead r.net := lead_bytes _ _

theorem lineLoop_stop : ∀ (net : List Ev) (acc : Bytes), (10 : UInt8) ∉ leadBytes net →
    lineLoop acc net = (.error (stopErr (afterLead net)), ⟨[], none, stopRest (afterLead net)⟩) := by
  intro net
  induction net with
  | nil => intro acc _; rfl
  | cons e t ih =>
    intro acc h
    cases e with
    | byte b =>
      simp only [leadBytes, List.mem_cons, not_or] at h
      rw [lineLoop, if_neg (Ne.symm h.1), ih _ h.2]; rfl
    | timeout => rfl
    | reset => rfl

theorem fullLoop_stop : ∀ (net : List Ev) (acc : Bytes) (n : Nat), (leadBytes net).length < n →
    fullLoop acc n net = (.error (stopErr (afterLead net)), ⟨[], none, stopRest (afterLead net)⟩) := by
  intro net
  induction net with
  | nil => intro acc n h; cases n with
    | zero => simp at h
    | succ n => rfl
  | cons e t ih =>
    intro acc n h
    cases n with
    | zero => simp at h
    | succ n =>
      cases e with
      | byte b =>
        simp only [leadBytes, List.length_cons] at h
        rw [fullLoop, ih _ _ (by omega)]; rfl
      | timeout => rfl
      | reset => rfl

theorem byte_meets : Meets byteMethods Rdr.Calm Rdr.evs where
  size r _ := by simp [byteMethods, Rdr.evs]
  peek_ok r n hr hn hl := by
    obtain ⟨r', h1, h2, h3, h4⟩ := Ouro.peek_ok hr (lead_split r.evs) hl hn
    refine ⟨r', h1, h2, by rw [h3, ← lead_split], h2, ?_⟩
    have := (evs_take h3 hl h4).2
    show ({ r' with buf := r'.buf.drop n } : Rdr).evs = _
    rw [this]
    conv => rhs; rw [lead_split r.evs]
    rw [List.drop_append_of_le_length (by simpa using hl), List.map_drop]
  peek_err r n hr hn hl := by
    obtain ⟨e1, e2⟩ := evs_lead r
    have hf := fillLoop_stop (min n bufSize) r.net r.buf (by rw [e1] at hl; omega)
    refine ⟨⟨r.buf ++ leadBytes r.net, none, stopRest (afterLead r.net)⟩, ?_, ?_⟩
    · show Rdr.peek r n = _
      unfold Rdr.peek
      rw [if_pos (show r.err = none from hr), hf]
      dsimp only
      rw [if_neg (by omega), if_pos (by rw [← e1]; exact hl), e2]
    · exact ⟨rfl, by rw [e1, e2]; rfl⟩
  peek_full r n hr hn := by
    refine ⟨(Rdr.peek r n).2, Prod.ext ?_ rfl⟩
    show (Rdr.peek r n).1 = _
    unfold Rdr.peek
    dsimp only
    rw [if_pos hn]
  byte_ok r b t hr h := Ouro.readByte_ok hr h
  byte_err r hr h := by
    obtain ⟨e1, e2⟩ := evs_lead r
    rw [e1] at h
    obtain ⟨h1, h2⟩ := List.append_eq_nil_iff.1 h
    have hf := fillLoop_stop 1 r.net r.buf (by rw [h]; decide)
    have e3 : r.evs = r.net := by unfold Rdr.evs; rw [h1]; rfl
    have e4 : afterLead r.net = r.net := by
      conv => rhs; rw [lead_split r.net, h2]
      rfl
    refine ⟨⟨[], none, stopRest r.net⟩, ?_, ?_⟩
    · show Rdr.readByte r = _
      unfold Rdr.readByte
      rw [if_pos (show r.err = none from hr), hf, h]
      dsimp only
      rw [e3, e4]
    · exact ⟨rfl, by rw [e3]; rfl⟩
  line_ok r a t hr ha h := by
    exact Ouro.readLine_ok hr (by rw [h]; simp) ha
  line_err r hr h := by
    obtain ⟨e1, e2⟩ := evs_lead r
    rw [e1, List.mem_append, not_or] at h
    refine ⟨⟨[], none, stopRest (afterLead r.evs)⟩, ?_, ?_⟩
    · show Rdr.readLine r = _
      unfold Rdr.readLine
      rw [cut_none.2 h.1]
      dsimp only
      rw [show r.err = none from hr]
      dsimp only
      rw [lineLoop_stop r.net r.buf h.2, e2]
    · exact ⟨rfl, rfl⟩
  full_ok r s t hr h := Ouro.readFull_ok hr h
  full_err r n hr h := by
    obtain ⟨e1, e2⟩ := evs_lead r
    rw [e1, List.length_append] at h
    refine ⟨⟨[], none, stopRest (afterLead r.evs)⟩, ?_, ?_⟩
    · show Rdr.readFull r n = _
      unfold Rdr.readFull
      rw [if_neg (by omega), show r.err = none from hr]
      dsimp only
      rw [fullLoop_stop r.net r.buf _ (by omega), e2]
    · exact ⟨rfl, rfl⟩

/-! ## The reader of pieces -/

/-- The events of a piece. -/
def Rd.evs : Rd → List Ev
  | .data b more => (b :: more).map .byte
  | .timeout => [.timeout]
  | .reset => [.reset]

def netEvs (net : List Rd) : List Ev := net.flatMap Rd.evs

def CRdr.evs (r : CRdr) : List Ev := r.buf.map .byte ++ netEvs r.net

def CRdr.Calm (r : CRdr) : Prop := r.err = none ∧ r.buf.length ≤ bufSize

theorem netEvs_leftOver (l : Bytes) (t : List Rd) : netEvs (leftOver l t) = l.map .byte ++ netEvs t := by
  cases l with
  | nil => rfl
  | cons b m => simp [leftOver, netEvs, Rd.evs]

theorem netEvs_length (net : List Rd) : (netEvs net).length = netSize net := by
  induction net with
  | nil => rfl
  | cons e t ih =>
    have : netEvs (e :: t) = e.evs ++ netEvs t := rfl
    rw [this, List.length_append, ih]
    cases e <;> simp [Rd.evs, netSize]

/-- A read of the connection: some of the next bytes, or the next error. -/
theorem sockRead_cases (k : Nat) (hk : 0 < k) (net : List Rd) :
    (∃ bs t, sockRead k net = (.ok bs, t) ∧ 0 < bs.length ∧ bs.length ≤ k ∧ netEvs net = bs.map .byte ++ netEvs t) ∨
    (∃ t, sockRead k net = (.error (stopErr (netEvs net)), t) ∧ leadBytes (netEvs net) = [] ∧ afterLead (netEvs net) = netEvs net ∧ netEvs t = stopRest (netEvs net)) := by
  cases net with
  | nil => exact .inr ⟨[], rfl, rfl, rfl, rfl⟩
  | cons e t =>
    cases e with
    | data b more =>
      refine .inl ⟨(b :: more).take k, leftOver ((b :: more).drop k) t, rfl, by simp; omega, by simp; omega, ?_⟩
      rw [netEvs_leftOver, ← List.append_assoc, ← List.map_append, List.take_append_drop]; rfl
    | timeout => exact .inr ⟨t, rfl, rfl, rfl, rfl⟩
    | reset => exact .inr ⟨t, rfl, rfl, rfl, rfl⟩

theorem fill_cases {r : CRdr} (hr : r.err = none) (hb : r.buf.length < bufSize) :
    (∃ bs t, r.fill = ⟨r.buf ++ bs, none, t⟩ ∧ 0 < bs.length ∧ r.buf.length + bs.length ≤ bufSize ∧ netEvs r.net = bs.map .byte ++ netEvs t) ∨
    (∃ t, r.fill = ⟨r.buf, some (stopErr (netEvs r.net)), t⟩ ∧ leadBytes (netEvs r.net) = [] ∧ afterLead (netEvs r.net) = netEvs r.net ∧ netEvs t = stopRest (netEvs r.net)) := by
  rcases sockRead_cases (bufSize - r.buf.length) (by omega) r.net with ⟨bs, t, h1, h2, h3, h4⟩ | ⟨t, h1, h2⟩
  · exact .inl ⟨bs, t, by unfold CRdr.fill; rw [h1, hr], h2, by omega, h4⟩
  · exact .inr ⟨t, by unfold CRdr.fill; rw [h1], h2⟩

theorem cevs_lead (r : CRdr) : leadBytes r.evs = r.buf ++ leadBytes (netEvs r.net) ∧ afterLead r.evs = afterLead (netEvs r.net) := lead_bytes _ _

theorem fillTo_spec (n : Nat) (hn : n ≤ bufSize) : ∀ (k : Nat) (r : CRdr), r.todo = k → r.Calm →
    (n ≤ (leadBytes r.evs).length → (r.fillTo n).Calm ∧ (r.fillTo n).evs = r.evs ∧ n ≤ (r.fillTo n).buf.length) ∧
    ((leadBytes r.evs).length < n → ∃ t, r.fillTo n = ⟨leadBytes r.evs, some (stopErr (afterLead r.evs)), t⟩ ∧ netEvs t = stopRest (afterLead r.evs)) := by
  intro k
  induction k using Nat.strongRecOn with
  | _ k ih =>
    intro r hk hc
    obtain ⟨e1, e2⟩ := cevs_lead r
    by_cases h : r.buf.length < n
    · have hb : r.buf.length < bufSize := by omega
      have hu : r.fillTo n = r.fill.fillTo n := by rw [CRdr.fillTo, dif_pos ⟨h, hb, hc.1⟩]
      have hlt := CRdr.fill_todo hc.1 hb
      rcases fill_cases hc.1 hb with ⟨bs, t, h1, h2, h3, h4⟩ | ⟨t, h1, h2, h3, h4⟩
      · have hev : r.fill.evs = r.evs := by
          rw [h1]; unfold CRdr.evs; dsimp only; rw [h4]; simp
        have := ih _ (by rw [← hk]; exact hlt) r.fill rfl (by rw [h1]; exact ⟨rfl, by simpa using h3⟩)
        rw [hev, ← hu] at this
        exact this
      · rw [hu, h1]
        rw [e1, e2, h2, h3, List.append_nil]
        refine ⟨fun hl => by omega, fun _ => ⟨t, ?_, h4⟩⟩
        rw [CRdr.fillTo, dif_neg (by rintro ⟨_, _, h⟩; cases h)]
    · have hu : r.fillTo n = r := by rw [CRdr.fillTo, dif_neg (fun hh => h hh.1)]
      rw [hu]
      refine ⟨fun _ => ⟨hc, rfl, by omega⟩, fun hl => ?_⟩
      rw [e1, List.length_append] at hl
      omega

theorem cevs_take {r : CRdr} {n : Nat} (hn : n ≤ r.buf.length) : r.buf.take n = (leadBytes r.evs).take n ∧ (r.discard n).evs = r.evs.drop n := by
  obtain ⟨e1, _⟩ := cevs_lead r
  refine ⟨by rw [e1, List.take_append_of_le_length hn], ?_⟩
  unfold CRdr.evs CRdr.discard
  dsimp only
  rw [List.drop_append_of_le_length (by simpa using hn), List.map_drop]

theorem creadByte_cons {r : CRdr} {b : UInt8} {t : Bytes} (h : r.buf = b :: t) : r.readByte = (.ok b, { r with buf := t }) := by
  rw [CRdr.readByte]
  split
  · next h' => rw [h] at h'; injection h' with h1 h2; subst h1; subst h2; rfl
  · next h' => rw [h] at h'; cases h'

theorem creadByte_nil {r : CRdr} (h : r.buf = []) (he : r.err = none) : r.readByte = r.fill.readByte := by
  rw [CRdr.readByte]
  split
  · next h' => rw [h] at h'; cases h'
  · split
    · next h' => rw [he] at h'; cases h'
    · rfl

theorem creadByte_err {r : CRdr} {e : IOErr} (h : r.buf = []) (he : r.err = some e) : r.readByte = (.error e, { r with err := none }) := by
  rw [CRdr.readByte]
  split
  · next h' => rw [h] at h'; cases h'
  · split
    · next h' => rw [he] at h'; injection h' with h'; subst h'; rfl
    · next h' => rw [he] at h'; cases h'

theorem creadByte_spec (r : CRdr) (hc : r.Calm) :
    (∀ b t, r.evs = .byte b :: t → ∃ r', r.readByte = (.ok b, r') ∧ r'.Calm ∧ r'.evs = t) ∧
    (leadBytes r.evs = [] → ∃ r', r.readByte = (.error (stopErr r.evs), r') ∧ r'.Calm ∧ r'.evs = stopRest r.evs) := by
  obtain ⟨e1, e2⟩ := cevs_lead r
  cases hb : r.buf with
  | cons x xs =>
    have hev : r.evs = .byte x :: (xs.map .byte ++ netEvs r.net) := by unfold CRdr.evs; rw [hb]; rfl
    refine ⟨fun b t h => ?_, fun h => ?_⟩
    · rw [hev] at h; injection h with h1 h2; injection h1 with h1; subst h1
      refine ⟨_, creadByte_cons hb, ⟨hc.1, ?_⟩, h2⟩
      have := hc.2; rw [hb] at this; simp at this ⊢; omega
    · rw [e1, hb] at h; cases h
  | nil =>
    have hev : r.evs = netEvs r.net := by unfold CRdr.evs; rw [hb]; rfl
    have hlt : r.buf.length < bufSize := by rw [hb]; decide
    rw [creadByte_nil hb hc.1, hev]
    rcases fill_cases hc.1 hlt with ⟨bs, t, h1, h2, h3, h4⟩ | ⟨t, h1, h2, h3, h4⟩
    · rw [hb] at h1 h3
      cases bs with
      | nil => simp at h2
      | cons y ys =>
        refine ⟨fun b t' h => ?_, fun h => ?_⟩
        · rw [h4] at h; injection h with ha hb'; injection ha with ha; subst ha
          refine ⟨⟨ys, none, t⟩, ?_, ⟨rfl, by simp at h3 ⊢; omega⟩, hb'⟩
          rw [h1]; exact creadByte_cons rfl
        · rw [h4] at h; cases h
    · rw [hb] at h1
      refine ⟨fun b t' h => ?_, fun h => ⟨⟨[], none, t⟩, ?_, ⟨rfl, by simp⟩, h4⟩⟩
      · rw [h] at h2; cases h2
      · rw [h1]; exact creadByte_err rfl rfl

theorem readString_spec : ∀ (k : Nat) (r : CRdr) (acc : Bytes), r.todo * (bufSize + 1) + r.buf.length = k → r.Calm →
    (∀ a t, (10 : UInt8) ∉ a → r.evs = a.map .byte ++ .byte 10 :: t → ∃ r', r.readString acc = (.ok (acc ++ a ++ [10]), r') ∧ r'.Calm ∧ r'.evs = t) ∧
    ((10 : UInt8) ∉ leadBytes r.evs → ∃ r', r.readString acc = (.error (stopErr (afterLead r.evs)), r') ∧ r'.Calm ∧ r'.evs = stopRest (afterLead r.evs)) := by
  intro k
  induction k using Nat.strongRecOn with
  | _ k ih =>
    intro r acc hk hc
    obtain ⟨e1, e2⟩ := cevs_lead r
    cases hcut : cut 10 r.buf with
    | some p =>
      obtain ⟨x, y⟩ := p
      obtain ⟨hxy, hx⟩ := cut_some hcut
      have hev : r.evs = x.map .byte ++ .byte 10 :: (y.map .byte ++ netEvs r.net) := by unfold CRdr.evs; rw [hxy]; simp
      have hrs : r.readString acc = (.ok (acc ++ x ++ [10]), { r with buf := y }) := by rw [CRdr.readString, hcut]
      refine ⟨fun a t ha h => ?_, fun h => ?_⟩
      · have hax : a = x ∧ t = y.map .byte ++ netEvs r.net := by
          rw [hev] at h
          have h1 : leadBytes (a.map .byte ++ .byte 10 :: t) = a ++ 10 :: leadBytes t := (lead_bytes _ _).1
          have h2 : leadBytes (x.map .byte ++ .byte 10 :: (y.map .byte ++ netEvs r.net)) = x ++ 10 :: leadBytes (y.map .byte ++ netEvs r.net) := (lead_bytes _ _).1
          rw [h, h1] at h2
          have := (cut_unique h2 ha hx).1
          subst this
          refine ⟨rfl, ?_⟩
          have := List.append_cancel_left h
          injection this with _ this
          exact this.symm
        obtain ⟨rfl, rfl⟩ := hax
        refine ⟨_, hrs, ⟨hc.1, ?_⟩, rfl⟩
        have := hc.2; rw [hxy] at this; simp at this ⊢; omega
      · exact absurd (by rw [e1, hxy]; simp) h
    | none =>
      have hno := cut_none.1 hcut
      by_cases hl : bufSize ≤ r.buf.length
      · -- the buffer is full: the piece is put aside
        have hrs : r.readString acc = CRdr.readString (acc ++ r.buf) { r with buf := [] } := by
          rw [CRdr.readString, hcut]
          dsimp only
          split
          · next h => rw [hc.1] at h; cases h
          · rw [dif_pos hl]
        have hpos : 0 < r.buf.length := Nat.lt_of_lt_of_le (by decide) hl
        have hev : r.evs = r.buf.map .byte ++ ({ r with buf := [] } : CRdr).evs := rfl
        obtain ⟨i1, i2⟩ := ih _ (by rw [← hk]; show r.todo * _ + 0 < _; omega) { r with buf := [] } (acc ++ r.buf) rfl ⟨hc.1, by simp⟩
        refine ⟨fun a t ha h => ?_, fun h => ?_⟩
        · obtain ⟨a', rfl⟩ : ∃ a', a = r.buf ++ a' := by
            have h1 := congrArg leadBytes h
            rw [e1, (lead_bytes _ _).1] at h1
            have h1 : r.buf ++ leadBytes (netEvs r.net) = a ++ 10 :: leadBytes t := h1
            rcases List.append_eq_append_iff.1 h1 with ⟨w, hw, _⟩ | ⟨w, hw, hw2⟩
            · exact ⟨w, hw⟩
            · cases w with
              | nil => exact ⟨[], by simpa using hw.symm⟩
              | cons z zs => injection hw2 with hz _; exact absurd (by rw [hw, ← hz]; simp) hno
          rw [hev, List.map_append, List.append_assoc] at h
          obtain ⟨r', h1, h2⟩ := i1 a' t (fun hh => ha (by simp [hh])) (List.append_cancel_left h)
          exact ⟨r', by rw [hrs, h1]; simp, h2⟩
        · rw [e1, List.mem_append, not_or] at h
          have e : afterLead r.evs = afterLead ({ r with buf := [] } : CRdr).evs := e2
          rw [hrs, e]
          exact i2 h.2
      · have hlt : r.buf.length < bufSize := by omega
        have hrs : r.readString acc = r.fill.readString acc := by
          rw [CRdr.readString, hcut]
          dsimp only
          split
          · next h => rw [hc.1] at h; cases h
          · rw [dif_neg hl]
        have hdec := CRdr.fill_todo hc.1 hlt
        rw [hrs]
        rcases fill_cases hc.1 hlt with ⟨bs, t, h1, h2, h3, h4⟩ | ⟨t, h1, h2, h3, h4⟩
        · have hev : r.fill.evs = r.evs := by
            rw [h1]; unfold CRdr.evs; dsimp only; rw [h4]; simp
          have hlen : r.fill.buf.length ≤ bufSize := by rw [h1]; simpa using h3
          have hm : r.fill.todo * (bufSize + 1) + r.fill.buf.length < k := by
            rw [← hk]
            have : (r.fill.todo + 1) * (bufSize + 1) ≤ r.todo * (bufSize + 1) := Nat.mul_le_mul_right _ hdec
            rw [Nat.add_mul] at this
            omega
          have := ih _ hm r.fill acc rfl ⟨by rw [h1], hlen⟩
          rw [hev] at this
          exact this
        · rw [h1]
          have hr2 : CRdr.readString acc ⟨r.buf, some (stopErr (netEvs r.net)), t⟩ = (.error (stopErr (netEvs r.net)), ⟨[], none, t⟩) := by
            rw [CRdr.readString]
            dsimp only
            rw [hcut]
          rw [hr2]
          refine ⟨fun a t' ha h => ?_, fun h => ⟨⟨[], none, t⟩, by rw [e2, h3], ⟨rfl, by simp⟩, ?_⟩⟩
          · have : (10 : UInt8) ∈ leadBytes r.evs := by rw [h, (lead_bytes _ _).1]; simp [leadBytes]
            rw [e1, h2, List.append_nil] at this
            exact absurd this hno
          · show netEvs t = _
            rw [h4, e2, h3]

/-- A `Read`: some of the next bytes, or the next error. -/
theorem read_cases (r : CRdr) (k : Nat) (hc : r.Calm) (hk : 0 < k) :
    (∃ bs r', r.read k = (.ok bs, r') ∧ 0 < bs.length ∧ bs.length ≤ k ∧ r'.Calm ∧ r.evs = bs.map .byte ++ r'.evs) ∨
    (∃ r', r.read k = (.error (stopErr (afterLead r.evs)), r') ∧ leadBytes r.evs = [] ∧ r'.Calm ∧ r'.evs = stopRest (afterLead r.evs)) := by
  obtain ⟨e1, e2⟩ := cevs_lead r
  unfold CRdr.read
  by_cases hb : r.buf = []
  · rw [if_pos hb, hc.1]
    dsimp only
    have hev : r.evs = netEvs r.net := by unfold CRdr.evs; rw [hb]; rfl
    by_cases hbig : bufSize ≤ k
    · rw [if_pos hbig]
      rcases sockRead_cases k hk r.net with ⟨bs, t, h1, h2, h3, h4⟩ | ⟨t, h1, h2, h3, h4⟩
      · rw [h1]
        refine .inl ⟨bs, ⟨r.buf, none, t⟩, rfl, h2, h3, ⟨rfl, hc.2⟩, ?_⟩
        rw [hev, h4]; unfold CRdr.evs; dsimp only; rw [hb]; rfl
      · rw [h1]
        refine .inr ⟨⟨r.buf, none, t⟩, by rw [e2, h3], by rw [e1, hb, h2]; rfl, ⟨rfl, hc.2⟩, ?_⟩
        rw [e2, h3]; unfold CRdr.evs; dsimp only; rw [hb, h4]; rfl
    · rw [if_neg hbig]
      rcases sockRead_cases bufSize (by decide) r.net with ⟨bs, t, h1, h2, h3, h4⟩ | ⟨t, h1, h2, h3, h4⟩
      · rw [h1]
        refine .inl ⟨bs.take k, ⟨bs.drop k, none, t⟩, rfl, by simp; omega, by simp; omega, ⟨rfl, by simp; omega⟩, ?_⟩
        rw [hev, h4]; unfold CRdr.evs; dsimp only
        rw [← List.append_assoc, ← List.map_append, List.take_append_drop]
      · rw [h1]
        refine .inr ⟨⟨r.buf, none, t⟩, by rw [e2, h3], by rw [e1, hb, h2]; rfl, ⟨rfl, hc.2⟩, ?_⟩
        rw [e2, h3]; unfold CRdr.evs; dsimp only; rw [hb, h4]; rfl
  · rw [if_neg hb]
    have : 0 < r.buf.length := List.length_pos_iff.2 hb
    refine .inl ⟨r.buf.take k, _, rfl, by simp; omega, by simp; omega, ⟨hc.1, by have := hc.2; simp; omega⟩, ?_⟩
    unfold CRdr.evs; dsimp only
    rw [← List.append_assoc, ← List.map_append, List.take_append_drop]

theorem readAll_spec : ∀ (n : Nat) (r : CRdr) (acc : Bytes), r.Calm →
    (∀ s t, s.length = n → r.evs = s.map .byte ++ t → ∃ r', r.readAll acc n = (.ok (acc ++ s), r') ∧ r'.Calm ∧ r'.evs = t) ∧
    ((leadBytes r.evs).length < n → ∃ r', r.readAll acc n = (.error (stopErr (afterLead r.evs)), r') ∧ r'.Calm ∧ r'.evs = stopRest (afterLead r.evs)) := by
  intro n
  induction n using Nat.strongRecOn with
  | _ n ih =>
    intro r acc hc
    cases n with
    | zero =>
      refine ⟨fun s t hs h => ?_, fun h => by omega⟩
      have : s = [] := List.length_eq_zero_iff.1 hs
      subst this
      exact ⟨r, by rw [CRdr.readAll]; simp, hc, h⟩
    | succ k =>
      rcases read_cases r (k + 1) hc (by omega) with ⟨bs, r', h1, h2, h3, h4, h5⟩ | ⟨r', h1, h2, h3, h4⟩
      · have hra : r.readAll acc (k + 1) = r'.readAll (acc ++ bs) (k + 1 - bs.length) := by
          rw [CRdr.readAll]
          split
          · next h => rw [h1] at h; injection h with h _; cases h
          · next h => rw [h1] at h; injection h with ha hb; injection ha with ha; subst ha; subst hb; rfl
        obtain ⟨i1, i2⟩ := ih (k + 1 - bs.length) (by omega) r' (acc ++ bs) h4
        rw [hra]
        refine ⟨fun s t hs h => ?_, fun h => ?_⟩
        · obtain ⟨s', rfl⟩ : ∃ s', s = bs ++ s' := by
            have h6 := congrArg (List.take bs.length) (h5.symm.trans h)
            rw [List.take_append_of_le_length (by simp), List.take_append_of_le_length (by simp; omega), ← List.map_take, ← List.map_take, List.take_length] at h6
            have h7 := byteMap_inj h6
            exact ⟨s.drop bs.length, by conv => lhs; rw [← List.take_append_drop bs.length s, ← h7]⟩
          rw [h5, List.map_append, List.append_assoc] at h
          obtain ⟨q, q1, q2⟩ := i1 s' t (by simp at hs; omega) (List.append_cancel_left h)
          exact ⟨q, by rw [q1, List.append_assoc], q2⟩
        · rw [h5, (lead_bytes _ _).1, List.length_append] at h
          rw [h5, (lead_bytes _ _).2]
          exact i2 (by omega)
      · have hra : r.readAll acc (k + 1) = (.error (stopErr (afterLead r.evs)), r') := by
          rw [CRdr.readAll]
          split
          · next h => rw [h1] at h; injection h with ha hb; injection ha with ha; subst ha; subst hb; rfl
          · next h => rw [h1] at h; injection h with h _; cases h
        refine ⟨fun s t hs h => ?_, fun _ => ⟨r', hra, h3, h4⟩⟩
        rw [h, (lead_bytes _ _).1] at h2
        have := (List.append_eq_nil_iff.1 h2).1
        rw [this] at hs; simp at hs

theorem chunk_meets : Meets chunkMethods CRdr.Calm CRdr.evs where
  size r _ := by simp [chunkMethods, CRdr.evs, netEvs_length]
  peek_ok r n hr hn hl := by
    obtain ⟨h1, h2, h3⟩ := (fillTo_spec n hn _ r rfl hr).1 hl
    obtain ⟨t1, t2⟩ := cevs_take h3
    refine ⟨r.fillTo n, ?_, h1, h2, ⟨h1.1, ?_⟩, by rw [← h2]; exact t2⟩
    · show CRdr.peek r n = _
      unfold CRdr.peek
      dsimp only
      rw [if_neg (by omega), if_neg (by omega), t1, h2]
    · have := h1.2
      show ((r.fillTo n).buf.drop n).length ≤ bufSize
      simp; omega
  peek_err r n hr hn hl := by
    obtain ⟨t, h1, h2⟩ := (fillTo_spec n hn _ r rfl hr).2 hl
    refine ⟨⟨leadBytes r.evs, none, t⟩, ?_, ⟨rfl, by dsimp only; omega⟩, ?_⟩
    · show CRdr.peek r n = _
      unfold CRdr.peek
      rw [h1]
      dsimp only
      rw [if_neg (by omega), if_pos hl]
    · unfold CRdr.evs; dsimp only; rw [h2]; rfl
  peek_full r n hr hn := by
    refine ⟨(CRdr.peek r n).2, Prod.ext ?_ rfl⟩
    show (CRdr.peek r n).1 = _
    unfold CRdr.peek
    dsimp only
    rw [if_pos hn]
  byte_ok r b t hr h := (creadByte_spec r hr).1 b t h
  byte_err r hr h := (creadByte_spec r hr).2 h
  line_ok r a t hr ha h := by
    obtain ⟨r', h1, h2⟩ := (readString_spec _ r [] rfl hr).1 a t ha h
    exact ⟨r', h1, h2⟩
  line_err r hr h := (readString_spec _ r [] rfl hr).2 h
  full_ok r s t hr h := (readAll_spec _ r [] hr).1 s t rfl h
  full_err r n hr h := (readAll_spec _ r [] hr).2 h

end Ouro
