import Verif.Props.Message
import Verif.Lemmas.Transport
import Verif.Spec.Receive
/-! # Lemmas about `receive` -/
namespace Ouro
open Spec

/-- Not enough bytes before a timeout. -/
theorem fillLoop_timeout (m : Nat) : ∀ (net : List Ev) (buf s : Bytes) (rest : List Ev), buf.map .byte ++ net = s.map .byte ++ .timeout :: rest →
    s.length < m → fillLoop m buf net = ⟨s, some .timeout, rest⟩ := by
  intro net
  induction net with
  | nil =>
    intro buf s rest h hm
    exfalso
    have : Ev.timeout ∈ buf.map Ev.byte ++ [] := by rw [h]; simp
    simp at this
  | cons e t ih =>
    intro buf s rest h hm
    have hle : buf.length ≤ s.length := by
      rcases Nat.lt_or_ge s.length buf.length with hlt | hge
      · exfalso
        have h1 : (buf.map Ev.byte ++ e :: t)[s.length]? = (s.map Ev.byte ++ Ev.timeout :: rest)[s.length]? := by rw [h]
        rw [List.getElem?_append_left (by simpa using hlt), List.getElem?_append_right (by simp), List.getElem?_map] at h1
        simp only [List.length_map, Nat.sub_self, List.getElem?_cons_zero] at h1
        cases hx : buf[s.length]? with
        | none => rw [hx] at h1; cases h1
        | some x => rw [hx] at h1; injection h1 with h1; cases h1
      · exact hge
    have h1 : (buf.map Ev.byte ++ e :: t)[buf.length]? = (s.map Ev.byte ++ Ev.timeout :: rest)[buf.length]? := by rw [h]
    have h0 : (buf.map Ev.byte ++ e :: t)[buf.length]? = some e := by simp
    rw [h0] at h1
    rcases Nat.lt_or_ge buf.length s.length with hlt | hge
    · rw [List.getElem?_append_left (by simpa using hlt), List.getElem?_map] at h1
      cases hx : s[buf.length]? with
      | none => rw [hx] at h1; cases h1
      | some x =>
        rw [hx] at h1
        injection h1 with h1
        subst h1
        simp only [fillLoop]
        rw [if_pos (by omega)]
        exact ih (buf ++ [x]) s rest (by simpa using h) hm
    · have hl : buf.length = s.length := by omega
      have h2 := List.append_inj h (by simpa using hl)
      have hb : buf = s := byteMap_inj h2.1
      have h3 := h2.2
      injection h3 with h3 h4
      subst h3 h4 hb
      simp only [fillLoop]
      rw [if_pos (by omega)]

theorem peek_timeout {r : Rdr} {s : Bytes} {rest : List Ev} (he : r.err = none) (h : r.evs = s.map .byte ++ .timeout :: rest) {n : Nat}
    (hn : s.length < n) (hb : n ≤ bufSize) : r.peek n = (.error .timeout, ⟨s, none, rest⟩) := by
  unfold Rdr.peek
  rw [if_pos he, fillLoop_timeout (min n bufSize) r.net r.buf s rest h (by omega)]
  dsimp only
  rw [if_neg (by omega), if_pos hn]

theorem readByte_timeout {r : Rdr} {rest : List Ev} (he : r.err = none) (h : r.evs = .timeout :: rest) :
    r.readByte = (.error .timeout, ⟨[], none, rest⟩) := by
  unfold Rdr.readByte
  rw [if_pos he, fillLoop_timeout 1 r.net r.buf [] rest h (by decide)]

theorem fullLoop_timeout : ∀ (s : Bytes) (acc : Bytes) (n : Nat) (rest : List Ev), s.length < n →
    fullLoop acc n (s.map .byte ++ .timeout :: rest) = (.error .timeout, ⟨[], none, rest⟩) := by
  intro s
  induction s with
  | nil =>
    intro acc n rest h
    obtain ⟨m, rfl⟩ : ∃ m, n = m + 1 := ⟨n - 1, by simp at h; omega⟩
    rfl
  | cons b s ih =>
    intro acc n rest h
    obtain ⟨m, rfl⟩ : ∃ m, n = m + 1 := ⟨n - 1, by simp at h; omega⟩
    show fullLoop (acc ++ [b]) m (s.map .byte ++ .timeout :: rest) = _
    exact ih _ _ _ (by simpa using h)

theorem evs_prefix {rest : List Ev} : ∀ (b s : Bytes) (net : List Ev), b.map Ev.byte ++ net = s.map .byte ++ .timeout :: rest →
    ∃ t, s = b ++ t ∧ net = t.map .byte ++ .timeout :: rest := by
  intro b
  induction b with
  | nil => intro s net h; exact ⟨s, rfl, h⟩
  | cons x b ih =>
    intro s net h
    cases s with
    | nil => injection h with h1 _; cases h1
    | cons y s =>
      injection h with h1 h2
      injection h1 with h1
      obtain ⟨t, e1, e2⟩ := ih s net h2
      exact ⟨t, by rw [h1, e1]; rfl, e2⟩

theorem lineLoop_timeout : ∀ (s : Bytes) (acc : Bytes) (rest : List Ev), (10 : UInt8) ∉ s →
    lineLoop acc (s.map .byte ++ .timeout :: rest) = (.error .timeout, ⟨[], none, rest⟩) := by
  intro s
  induction s with
  | nil => intro acc rest h; rfl
  | cons b s ih =>
    intro acc rest h
    show (if b = 10 then _ else lineLoop (acc ++ [b]) (s.map .byte ++ .timeout :: rest)) = _
    rw [if_neg (fun e => h (by simp [e])), ih _ _ (fun hm => h (by simp [hm]))]

theorem readLine_timeout {r : Rdr} {s : Bytes} {rest : List Ev} (he : r.err = none) (h : r.evs = s.map .byte ++ .timeout :: rest)
    (hn : (10 : UInt8) ∉ s) : r.readLine = (.error .timeout, ⟨[], none, rest⟩) := by
  obtain ⟨t, e1, e2⟩ := evs_prefix _ _ _ h
  rw [e1] at hn
  unfold Rdr.readLine
  rw [cut_none.2 (fun hm => hn (by simp [hm])), he, e2]
  exact lineLoop_timeout t _ _ (fun hm => hn (by simp [hm]))

theorem readFull_timeout {r : Rdr} {s : Bytes} {rest : List Ev} (he : r.err = none) (h : r.evs = s.map .byte ++ .timeout :: rest) {n : Nat}
    (hn : s.length < n) : r.readFull n = (.error .timeout, ⟨[], none, rest⟩) := by
  unfold Rdr.evs at h
  obtain ⟨t, e1, e2⟩ := evs_prefix _ _ _ h
  have hlen : s.length = r.buf.length + t.length := by rw [e1]; simp
  unfold Rdr.readFull
  rw [if_neg (by omega), he, e2]
  exact fullLoop_timeout t _ _ _ (by omega)

theorem recv_frame_head {r : Rdr} (ch : UInt8) (n : Nat) (hn : n < 65536) (rest : List Ev) (he : r.err = none)
    (h : r.evs = [36, ch, UInt8.ofNat (n / 256), UInt8.ofNat (n % 256)].map .byte ++ rest) :
    ∃ r' : Rdr, r'.err = none ∧ r'.evs = rest ∧ recv r = match r'.readBytes n with
      | (.error e, r) => (.error (.io e), r)
      | (.ok buf, r) => (.ok (.frame ch buf), r) := by
  obtain ⟨r1, h1, h2, h3, h4⟩ := peek_ok (s := [36]) (rest := [ch, UInt8.ofNat (n / 256), UInt8.ofNat (n % 256)].map .byte ++ rest) he
    (by rw [h]; simp) (Nat.le_refl 1) (by decide)
  have h5 : (r1.discard 1).evs = [ch, UInt8.ofNat (n / 256), UInt8.ofNat (n % 256)].map .byte ++ rest := by
    have := (evs_take h3 (n := 1) (Nat.le_refl 1) h4).2
    simpa [Rdr.discard] using this
  obtain ⟨r2, h6, h7, h8⟩ := readByte_ok (r := r1.discard 1) (b := ch) (rest := [UInt8.ofNat (n / 256), UInt8.ofNat (n % 256)].map .byte ++ rest) h2
    (by rw [h5]; rfl)
  obtain ⟨r3, h9, h10, h11⟩ := readUint16_ok hn h7 h8
  refine ⟨r3, h10, h11, ?_⟩
  unfold recv
  rw [h1]
  dsimp only
  rw [if_pos (by rfl)]
  unfold recvFrame
  rw [h6]
  dsimp only
  rw [h9]
  rfl

theorem recv_frame {r : Rdr} (ch : UInt8) (payload : Bytes) (rest : List Ev) (hl : payload.length ≤ bufSize) (he : r.err = none)
    (h : r.evs = (Msg.frame ch payload).bytes.map .byte ++ rest) :
    ∃ r', recv r = (.ok (.frame ch payload), r') ∧ r'.err = none ∧ r'.evs = rest := by
  have hb : bufSize = 2048 := rfl
  obtain ⟨r1, h1, h2, h3⟩ := recv_frame_head ch payload.length (by omega) (payload.map .byte ++ rest) he
    (by rw [h]; simp [Msg.bytes])
  obtain ⟨r2, h4, h5, h6⟩ := readBytes_ok h1 h2 hl
  refine ⟨r2, ?_, h5, h6⟩
  rw [h3, h4]

theorem text_head (s : Sent) : ∃ t, s.text = 82 :: t := by
  refine ⟨b!"TSP/1.0 " ++ natDigits s.code ++ b!" " ++ s.reason ++ [13, 10] ++ s.headers.flatMap SentHeader.text ++ [13, 10] ++ s.body, ?_⟩
  simp [Sent.text]

theorem recv_response_head {r : Rdr} {s : Sent} {rest : List Ev} (he : r.err = none) (h : r.evs = s.text.map .byte ++ rest) :
    ∃ r1 : Rdr, r1.err = none ∧ r1.evs = s.text.map .byte ++ rest ∧ recv r = match unpackRsp r1 with
      | (.error e, r) => (.error e, r)
      | (.ok rsp, r) => (.ok (.response rsp), r) := by
  obtain ⟨t, ht⟩ := text_head s
  obtain ⟨r1, h1, h2, h3, h4⟩ := peek_ok (n := 1) he h (by rw [ht]; simp) (by decide)
  refine ⟨r1, h2, h3, ?_⟩
  unfold recv
  rw [h1]
  dsimp only
  rw [if_neg (by rw [ht]; simp)]
  generalize unpackRsp r1 = q
  obtain ⟨x, q⟩ := q
  cases x <;> rfl

/-- What comes out for a message. -/
def itemOf : Msg → Item
  | .frame ch payload => .frame ch payload
  | .response s => .response { headOf s with body := if s.body = [] then none else some s.body }

theorem itemOf_delivered {m : Msg} (hm : m.Legal) : Delivered m (itemOf m) := by
  cases m with
  | frame ch payload => exact ⟨rfl, rfl⟩
  | response s =>
    obtain ⟨hw, n, hn, hc⟩ := hm
    refine ⟨rfl, rfl, ?_, fun name hname => get_value hw hname⟩
    show s.value b!"CSeq" = some (itoa (atoi ((s.value b!"CSeq").getD [])).1)
    rw [hc, show (some (natDigits n)).getD [] = natDigits n from rfl, atoi_natDigits n hn, itoa_nat]

theorem recv_msg {r : Rdr} (m : Msg) (rest : List Ev) (hm : m.Legal) (hl : m.size ≤ bufSize) (he : r.err = none)
    (h : r.evs = m.bytes.map .byte ++ rest) : ∃ r', recv r = (.ok (itemOf m), r') ∧ r'.err = none ∧ r'.evs = rest := by
  cases m with
  | frame ch payload => exact recv_frame ch payload rest hl he h
  | response s =>
    obtain ⟨r1, h1, h2, h3⟩ := recv_response_head he h
    obtain ⟨r2, h4, h5, h6⟩ := unpack_exact s hm.1 hl r1 rest h1 h2
    rw [h4] at h3
    exact ⟨r2, h3, h5, h6⟩

theorem recv_timeout {r : Rdr} {rest : List Ev} (he : r.err = none) (h : r.evs = .timeout :: rest) :
    recv r = (.error (.io .timeout), ⟨[], none, rest⟩) := by
  unfold recv
  rw [peek_timeout (s := []) he h (by decide) (by decide)]

end Ouro
