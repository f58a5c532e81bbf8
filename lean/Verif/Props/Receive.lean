import Verif.Lemmas.Receive
/-! # C52–C54: taking frames and responses from the connection -/
namespace Ouro
open Spec

/-- A handler that never stops the loop and keeps a log. -/
def logItem (log : List Item) (item : Item) : List Item × Bool := (log ++ [item], false)

/-! ## C52 -/

theorem procN_arrives (ms : List Msg) (hm : ∀ m ∈ ms, m.Legal ∧ m.size ≤ 2048) (steps : Nat) (evs rest : List Ev)
    (h : Arrives ms steps evs rest) (r : Rdr) (he : r.err = none) (hr : r.evs = evs) (log : List Item) :
    ∃ r', procN logItem steps ⟨r, log, true⟩ = ⟨r', log ++ ms.map itemOf, true⟩ ∧ r'.err = none ∧ r'.evs = rest := by
  induction h generalizing r log with
  | nil rest => exact ⟨r, by simp [procN], he, hr⟩
  | @timeout ms n evs rest h ih =>
    obtain ⟨r', h1, h3, h4⟩ := ih hm ⟨[], none, evs⟩ rfl rfl log
    refine ⟨r', ?_, h3, h4⟩
    rw [procN, procStep, if_pos rfl, recv_timeout he hr]
    exact h1
  | @msg m ms n evs rest h ih =>
    obtain ⟨r1, h1, h3, h4⟩ := recv_msg m evs (hm m (by simp)).1 (hm m (by simp)).2 he hr
    obtain ⟨r', h5, h7, h8⟩ := ih (fun x hx => hm x (by simp [hx])) r1 h3 h4 (log ++ [itemOf m])
    refine ⟨r', ?_, h7, h8⟩
    rw [procN, procStep, if_pos rfl, h1]
    dsimp only [logItem]
    rw [show (!false) = true from rfl, h5]
    simp

theorem all2_items {ms : List Msg} (hm : ∀ m ∈ ms, m.Legal) : All2 Delivered ms (ms.map itemOf) := by
  induction ms with
  | nil => exact .nil
  | cons m ms ih => exact .cons (itemOf_delivered (hm m (by simp))) (ih fun x hx => hm x (by simp [hx]))

/-- C52: from any sequence of frames and responses with at most 2048 bytes of data each, in
pieces of any size, with read deadlines expiring any number of times between messages, the session takes exactly these
messages, in order, and goes on with whatever follows. -/
theorem C52_demultiplexed_partial (ms : List Msg) (hm : ∀ m ∈ ms, m.Legal ∧ m.size ≤ 2048) (steps : Nat) (evs rest : List Ev)
    (h : Arrives ms steps evs rest) (r : Rdr) (he : r.err = none) (hr : r.evs = evs) (log : List Item) :
    ∃ items r', procN logItem steps ⟨r, log, true⟩ = ⟨r', log ++ items, true⟩ ∧ All2 Delivered ms items ∧
      r'.err = none ∧ r'.evs = rest := by
  obtain ⟨r', h1, h2, h3⟩ := procN_arrives ms hm steps evs rest h r he hr log
  exact ⟨_, r', h1, all2_items (fun m hx => (hm m hx).1), h2, h3⟩

/-- The hypotheses are met by two frames around a response, with a timeout in between. -/
example : ∃ ms n evs, (∀ m ∈ ms, m.Legal ∧ m.size ≤ 2048) ∧ Arrives ms n evs [] ∧ ms.length = 3 ∧ n = 4 := by
  refine ⟨[.frame 0 b!"abc", .response ⟨200, b!"OK", [⟨b!"CSeq", [32], b!"1"⟩], []⟩, .frame 1 []], 4, _, ?_,
    .msg (.timeout (.msg (.msg (.nil [])))), rfl, rfl⟩
  intro m hm
  simp only [List.mem_cons, List.not_mem_nil, or_false] at hm
  rcases hm with rfl | rfl | rfl
  · exact ⟨show 3 ≤ 65535 by decide, by decide⟩
  · refine ⟨⟨⟨by decide, ⟨by decide, by decide, by decide⟩, ?_, .inr ⟨rfl, by decide⟩⟩, 1, by decide, by decide⟩, by decide⟩
    intro h hh
    rw [List.mem_singleton] at hh
    subst hh
    exact ⟨⟨by decide, by decide⟩, by decide, by decide, by decide, by decide⟩
  · exact ⟨show 0 ≤ 65535 by decide, by decide⟩

/-! ## C53 -/

/-- C53: a legal frame is delivered exactly if its payload has at most 2048 bytes; a longer one ends the session. -/
theorem C53_delivered_iff (ch : UInt8) (payload : Bytes) (hl : payload.length ≤ 65535) (r : Rdr) (rest : List Ev) (he : r.err = none)
    (hr : r.evs = (Msg.frame ch payload).bytes.map .byte ++ rest) :
    ((recv r).1 = .ok (.frame ch payload) ↔ payload.length ≤ 2048) ∧
    (payload.length > 2048 → (recv r).1 = .error (.io .bufferFull) ∧
      ∀ (σ : Type) (handle : σ → Item → σ × Bool) (s : σ) (n : Nat), 0 < n →
        (procN handle n ⟨r, s, true⟩).state = s ∧ (procN handle n ⟨r, s, true⟩).running = false) := by
  have hlong : payload.length > 2048 → (recv r).1 = .error (.io .bufferFull) := by
    intro hg
    obtain ⟨r1, h1, h2, h3⟩ := recv_frame_head ch payload.length (by omega) (payload.map .byte ++ rest) he
      (by rw [hr]; simp [Msg.bytes])
    rw [h3]
    have : ∃ r2, r1.readBytes payload.length = (.error .bufferFull, r2) := by
      unfold Rdr.readBytes Rdr.peek
      dsimp only
      rw [if_pos (show payload.length > bufSize from hg)]
      exact ⟨_, rfl⟩
    obtain ⟨r2, h4⟩ := this
    rw [h4]
  refine ⟨⟨fun h => ?_, fun h => ?_⟩, fun hg => ⟨hlong hg, ?_⟩⟩
  · rcases Nat.lt_or_ge 2048 payload.length with hg | hg
    · rw [hlong hg] at h; cases h
    · exact hg
  · obtain ⟨r', h1, _, _⟩ := recv_frame ch payload rest h he hr
    rw [h1]
  · intro σ handle s n hn
    have hstop : ∀ (n : Nat) (q : Rdr), procN handle n ⟨q, s, false⟩ = ⟨q, s, false⟩ := by
      intro n
      induction n with
      | zero => intro q; rfl
      | succ n ih => intro q; rw [procN, procStep, if_neg (by simp), ih]
    obtain ⟨m, rfl⟩ : ∃ m, n = m + 1 := ⟨n - 1, by omega⟩
    have hx := hlong hg
    cases hrv : recv r with
    | mk x q =>
      rw [hrv] at hx
      dsimp only at hx
      subst hx
      have : procN handle (m + 1) ⟨r, s, true⟩ = ⟨q, s, false⟩ := by
        rw [procN, procStep, if_pos rfl, hrv]
        exact hstop m q
      rw [this]
      exact ⟨rfl, rfl⟩

/-- C53 fails as stated: there is a legal frame that is not delivered. -/
theorem C53_refuted : ∃ (ch : UInt8) (payload : Bytes) (r : Rdr), payload.length ≤ 65535 ∧ r.err = none ∧
    r.evs = (Msg.frame ch payload).bytes.map .byte ∧ (recv r).1 = .error (.io .bufferFull) := by
  have hl : (List.replicate 2049 (0 : UInt8)).length = 2049 := List.length_replicate
  refine ⟨0, List.replicate 2049 0, ⟨[], none, (Msg.frame 0 (List.replicate 2049 0)).bytes.map .byte⟩, by rw [hl]; decide, rfl, rfl, ?_⟩
  exact ((C53_delivered_iff 0 (List.replicate 2049 0) (by rw [hl]; decide) _ [] rfl (List.append_nil _).symm).2 (by rw [hl]; decide)).1

/-! ## C54 -/

theorem arrives_plain (ms : List Msg) : Arrives ms ms.length (ms.flatMap fun m => m.bytes.map .byte) [] := by
  induction ms with
  | nil => exact .nil []
  | cons m ms ih => exact .msg ih

/-- C54, what holds: deadlines expiring between messages lose and repeat nothing: the same messages are taken as
without them. -/
theorem C54_between_partial (ms : List Msg) (hm : ∀ m ∈ ms, m.Legal ∧ m.size ≤ 2048) (steps : Nat) (evs : List Ev) (h : Arrives ms steps evs []) :
    ∃ items, All2 Delivered ms items ∧ (procN logItem steps ⟨⟨[], none, evs⟩, [], true⟩).state = items ∧
      (procN logItem ms.length ⟨⟨[], none, ms.flatMap (fun m => m.bytes.map .byte)⟩, [], true⟩).state = items := by
  obtain ⟨q1, h1, _, _⟩ := procN_arrives ms hm steps evs [] h ⟨[], none, evs⟩ rfl rfl []
  obtain ⟨q2, h2, _, _⟩ := procN_arrives ms hm ms.length _ [] (arrives_plain ms) ⟨[], none, ms.flatMap (fun m => m.bytes.map .byte)⟩ rfl rfl []
  refine ⟨ms.map itemOf, all2_items (fun m hx => (hm m hx).1), ?_, ?_⟩
  · rw [h1]; simp
  · rw [h2]; simp

example : ∃ ms n evs, (∀ m ∈ ms, m.Legal ∧ m.size ≤ 2048) ∧ Arrives ms n evs [] ∧ ms.length = 2 ∧ n = 3 :=
  ⟨[.frame 0 b!"abc", .frame 1 []], 3, _, by
    intro m hm
    simp only [List.mem_cons, List.not_mem_nil, or_false] at hm
    rcases hm with rfl | rfl
    · exact ⟨show 3 ≤ 65535 by decide, by decide⟩
    · exact ⟨show 0 ≤ 65535 by decide, by decide⟩,
    .msg (.timeout (.msg (.nil []))), rfl, rfl⟩

/-- C54 fails whenever a deadline expires inside a frame, wherever that is: the frame is not delivered, the bytes of its header
that were already read are lost, and the rest of the frame is next in line as if it were a new message. -/
theorem C54_inside_refuted (ch : UInt8) (payload : Bytes) (hl : payload.length ≤ 2048) (k : Nat) (hk : 0 < k) (hk' : k < 4 + payload.length)
    (r : Rdr) (rest : List Ev) (he : r.err = none)
    (hr : r.evs = ((Msg.frame ch payload).bytes.take k).map .byte ++ .timeout :: (((Msg.frame ch payload).bytes.drop k).map .byte ++ rest)) :
    ∃ r', recv r = (.error (.io .timeout), r') ∧ r'.err = none ∧
      r'.evs = ((Msg.frame ch payload).bytes.drop (min k 4)).map .byte ++ rest := by
  have hb : bufSize = 2048 := rfl
  obtain ⟨hi, hhi⟩ : ∃ hi, hi = UInt8.ofNat (payload.length / 256) := ⟨_, rfl⟩
  obtain ⟨lo, hlo⟩ : ∃ lo, lo = UInt8.ofNat (payload.length % 256) := ⟨_, rfl⟩
  have hbytes : (Msg.frame ch payload).bytes = 36 :: ch :: hi :: lo :: payload := by rw [hhi, hlo]; rfl
  rw [hbytes] at hr ⊢
  -- the dollar sign
  have hdollar : ∀ tail, r.evs = .byte 36 :: tail → ∃ r1 : Rdr, r1.err = none ∧ r1.evs = tail ∧ recv r =
      match r1.readByte with
      | (.error e, r) => (.error (.io e), r)
      | (.ok ch, r) =>
        match r.readUint16 with
        | (.error e, r) => (.error (.io e), r)
        | (.ok length, r) =>
          match r.readBytes length with
          | (.error e, r) => (.error (.io e), r)
          | (.ok buf, r) => (.ok (.frame ch buf), r) := by
    intro tail ht
    obtain ⟨r1, h1, h2, h3, h4⟩ := peek_ok (s := [36]) (rest := tail) he ht (Nat.le_refl 1) (by decide)
    refine ⟨r1.discard 1, h2, ?_, ?_⟩
    · have := (evs_take h3 (n := 1) (Nat.le_refl 1) h4).2
      simpa [Rdr.discard] using this
    · unfold recv
      rw [h1]
      dsimp only
      rw [if_pos (by rfl)]
      rfl
  rcases Nat.lt_or_ge k 4 with hk4 | hk4
  · have : k = 1 ∨ k = 2 ∨ k = 3 := by omega
    rcases this with rfl | rfl | rfl
    · obtain ⟨r1, h1, h2, h3⟩ := hdollar _ hr
      rw [readByte_timeout h1 h2] at h3
      exact ⟨_, h3, rfl, rfl⟩
    · obtain ⟨r1, h1, h2, h3⟩ := hdollar _ hr
      obtain ⟨r2, h4, h5, h6⟩ := readByte_ok h1 h2
      rw [h4] at h3
      dsimp only at h3
      have : r2.readUint16 = (.error .timeout, ⟨[], none, (hi :: lo :: payload).map .byte ++ rest⟩) := by
        unfold Rdr.readUint16
        rw [readFull_timeout (s := []) h5 h6 (by decide)]
        rfl
      rw [this] at h3
      exact ⟨_, h3, rfl, rfl⟩
    · obtain ⟨r1, h1, h2, h3⟩ := hdollar _ hr
      obtain ⟨r2, h4, h5, h6⟩ := readByte_ok h1 h2
      rw [h4] at h3
      dsimp only at h3
      have : r2.readUint16 = (.error .timeout, ⟨[], none, (lo :: payload).map .byte ++ rest⟩) := by
        unfold Rdr.readUint16
        rw [readFull_timeout (s := [hi]) h5 h6 (by simp)]
        rfl
      rw [this] at h3
      exact ⟨_, h3, rfl, rfl⟩
  · obtain ⟨j, rfl⟩ : ∃ j, k = j + 4 := ⟨k - 4, by omega⟩
    obtain ⟨r1, h1, h2, h3⟩ := recv_frame_head ch payload.length (by omega)
      ((payload.take j).map .byte ++ .timeout :: ((payload.drop j).map .byte ++ rest)) he (by rw [hr, hhi, hlo]; rfl)
    have : r1.readBytes payload.length = (.error .timeout, ⟨payload.take j, none, (payload.drop j).map .byte ++ rest⟩) := by
      unfold Rdr.readBytes
      rw [peek_timeout h1 h2 (by simp; omega) hl]
    rw [this] at h3
    refine ⟨_, h3, rfl, ?_⟩
    rw [show min (j + 4) 4 = 4 by omega]
    show (payload.take j).map Ev.byte ++ ((payload.drop j).map .byte ++ rest) = payload.map .byte ++ rest
    rw [← List.append_assoc, ← List.map_append, List.take_append_drop]

/-- C54 fails as stated: every byte of a legal frame arrives, but a frame comes out that was never sent. -/
theorem C54_refuted : ∃ (m : Msg) (before after : Bytes), m.Legal ∧ m.size ≤ 2048 ∧ before ++ after = m.bytes ∧ m = .frame 0 [36, 1, 0, 1, 9] ∧
    (procN logItem 2 ⟨⟨[], none, before.map .byte ++ .timeout :: after.map .byte⟩, [], true⟩).state = [.frame 1 [9]] :=
  ⟨.frame 0 [36, 1, 0, 1, 9], [36, 0, 0, 5], [36, 1, 0, 1, 9], show 5 ≤ 65535 by decide, by decide, by decide, rfl, by decide⟩

/-! The same happens to a response. -/

theorem no_newline_take {l : Bytes} {k : Nat} (hl : (10 : UInt8) ∉ l) (hk : k < (l ++ [10]).length) : (10 : UInt8) ∉ (l ++ [10]).take k := by
  rw [List.length_append, List.length_singleton] at hk
  rw [List.take_append_of_le_length (by omega)]
  exact fun hm => hl (List.mem_of_mem_take hm)

/-- A deadline that expires before the end of the header. -/
theorem headerLoop_timeout (hs : List SentHeader) (hw : ∀ e ∈ hs, e.WF) : ∀ (n k : Nat) (r : Rdr) (h : Header) (rest : List Ev), r.err = none →
    k < (hs.flatMap SentHeader.text ++ [13, 10]).length → r.evs = ((hs.flatMap SentHeader.text ++ [13, 10]).take k).map .byte ++ .timeout :: rest → hs.length < n →
    headerLoop n r h = (.error (.io .timeout), ⟨[], none, rest⟩) := by
  induction hs with
  | nil =>
    intro n k r h rest he hk hr hn
    cases n with
    | zero => omega
    | succ n =>
      have := readLine_timeout he hr (no_newline_take (l := [13]) (by decide) hk)
      rw [headerLoop, this]
  | cons e hs ih =>
    intro n k r h rest he hk hr hn
    cases n with
    | zero => omega
    | succ n =>
      obtain ⟨line, hl1, hl2, hl3, key, v, hl4, hl5, hl6⟩ := header_line (hw e (by simp))
      rw [List.flatMap_cons, hl1, List.append_assoc] at hk hr
      by_cases hkl : k < (line ++ [10]).length
      · rw [List.take_append_of_le_length (by omega)] at hr
        have := readLine_timeout he hr (no_newline_take hl2 hkl)
        rw [headerLoop, this]
      · obtain ⟨j, rfl⟩ : ∃ j, k = (line ++ [10]).length + j := ⟨k - (line ++ [10]).length, by omega⟩
        rw [List.take_length_add_append, List.map_append, List.append_assoc] at hr
        obtain ⟨r', h1, h2, h3⟩ := readLine_ok he hr hl2
        simp only [headerLoop]
        rw [h1]
        dsimp only
        rw [if_neg hl3, hl4]
        dsimp only
        rw [List.length_append (as := line ++ [10])] at hk
        exact ih (fun x hx => hw x (by simp [hx])) n j r' _ rest h2 (by omega) h3 (by simp at hn; omega)

/-- C54 fails whenever a deadline expires inside a response, wherever that is: the response is not delivered, everything of its header that had arrived is
lost, and the rest of it (with all of the body, if its header was complete) is next in line as if it were a new message. -/
theorem C54_response_refuted (s : Sent) (hw : s.WF) (hlen : s.body.length ≤ 2048) (k : Nat) (hk : 0 < k) (hk' : k < s.text.length) (r : Rdr) (rest : List Ev) (he : r.err = none)
    (hr : r.evs = (s.text.take k).map .byte ++ .timeout :: ((s.text.drop k).map .byte ++ rest)) :
    ∃ r', recv r = (.error (.io .timeout), r') ∧ r'.err = none ∧ r'.evs = (s.text.drop (min k (s.text.length - s.body.length))).map .byte ++ rest := by
  obtain ⟨l, hl⟩ : ∃ l, l = b!"RTSP/1.0" ++ b!" " ++ natDigits s.code ++ b!" " ++ s.reason ++ [13] := ⟨_, rfl⟩
  obtain ⟨x, hx⟩ : ∃ x, x = s.headers.flatMap SentHeader.text ++ [13, 10] := ⟨_, rfl⟩
  have ht : s.text = (l ++ [10]) ++ (x ++ s.body) := by rw [hl, hx]; simp [Sent.text]
  have hnl : (10 : UInt8) ∉ l := by
    rw [hl]
    intro hm
    simp only [List.mem_append] at hm
    rcases hm with ((((hm | hm) | hm) | hm) | hm) | hm
    · exact absurd hm (by decide)
    · exact absurd hm (by decide)
    · exact digits_not_mem _ 10 (by decide) hm
    · exact absurd hm (by decide)
    · exact hw.reason.1 hm
    · exact absurd hm (by decide)
  have hsub : s.text.length - s.body.length = (l ++ [10]).length + x.length := by rw [ht]; simp only [List.length_append]; omega
  -- the first byte is not a dollar sign
  obtain ⟨r1, he1, hr1, hrecv⟩ : ∃ r1 : Rdr, r1.err = none ∧ r1.evs = r.evs ∧ recv r = match unpackRsp r1 with
      | (.error e, r) => (.error e, r)
      | (.ok rsp, r) => (.ok (.response rsp), r) := by
    obtain ⟨t, htt⟩ := text_head s
    obtain ⟨j, rfl⟩ : ∃ j, k = j + 1 := ⟨k - 1, by omega⟩
    obtain ⟨r1, h1, h2, h3, _⟩ := peek_ok (n := 1) he hr (by rw [htt]; simp) (by decide)
    refine ⟨r1, h2, h3.trans hr.symm, ?_⟩
    unfold recv
    rw [h1]
    dsimp only
    rw [if_neg (by rw [htt]; simp)]
    generalize unpackRsp r1 = y
    obtain ⟨y, q⟩ := y
    cases y <;> rfl
  rw [hr] at hr1
  rw [hsub]
  by_cases hk1 : k < (l ++ [10]).length
  · -- in the first line
    rw [Nat.min_eq_left (by omega)]
    rw [show s.text.take k = (l ++ [10]).take k by rw [ht, List.take_append_of_le_length (by omega)]] at hr1
    have := readLine_timeout he1 hr1 (no_newline_take hnl hk1)
    refine ⟨⟨[], none, (s.text.drop k).map .byte ++ rest⟩, ?_, rfl, rfl⟩
    rw [hrecv]
    unfold unpackRsp
    rw [this]
  · obtain ⟨j, rfl⟩ : ∃ j, k = (l ++ [10]).length + j := ⟨k - (l ++ [10]).length, by omega⟩
    have htake : s.text.take ((l ++ [10]).length + j) = (l ++ [10]) ++ (x ++ s.body).take j := by rw [ht, List.take_length_add_append]
    rw [htake, List.map_append, List.append_assoc] at hr1
    by_cases hj : j < x.length
    · -- in the header
      rw [Nat.min_eq_left (by omega)]
      rw [List.take_append_of_le_length (by omega)] at hr1
      obtain ⟨r2, h1, h2, h3⟩ := readLine_ok he1 hr1 hnl
      refine ⟨⟨[], none, (s.text.drop ((l ++ [10]).length + j)).map .byte ++ rest⟩, ?_, rfl, rfl⟩
      have hloop : headerLoop (r2.size + (s.headers.length + 1)) r2 [] = (.error (.io .timeout), ⟨[], none, (s.text.drop ((l ++ [10]).length + j)).map .byte ++ rest⟩) :=
        headerLoop_timeout s.headers hw.headers _ j r2 [] _ h2 (by rw [← hx]; exact hj) (by rw [← hx]; exact h3) (by omega)
      rw [headerLoop_fuel (r2.size + 1) _ r2 [] (by omega) (by omega)] at hloop
      rw [hrecv]
      unfold unpackRsp
      rw [h1]
      dsimp only
      rw [hl, statusLine_ok b!"RTSP/1.0" (by decide) s.code s.reason hw.code hw.reason]
      dsimp only
      have hloop : headerLoop (r2.buf.length + r2.net.length + 1) r2 [] = _ := hloop
      rw [hloop, ← hl]
    · -- in the body
      obtain ⟨i, rfl⟩ : ∃ i, j = x.length + i := ⟨j - x.length, by omega⟩
      rw [List.take_length_add_append, List.map_append, List.append_assoc] at hr1
      have hi : i < s.body.length := by rw [ht] at hk'; simp only [List.length_append] at hk'; omega
      obtain ⟨r2, h1, h2, rsp, e0, e1, e2, e3, e4, e5, e6, e7, h3⟩ := unpack_head0 s hw r1 ((s.body.take i).map .byte ++ .timeout :: ((s.text.drop ((l ++ [10]).length + (x.length + i))).map .byte ++ rest)) he1
        (by rw [hr1, ← hl, ← hx]; simp)
      have hcl : rsp.contentLength = s.body.length := by
        rcases hw.body with h | ⟨h, h'⟩
        · rw [h, show (some (natDigits s.body.length)).getD [] = natDigits s.body.length from rfl, contentLen_digits (by omega)] at e6
          exact e6
        · rw [h] at hi; cases hi
      rw [if_pos (by rw [hcl]; omega), hcl, Int.toNat_natCast] at h3
      have hdrop : s.text.drop ((l ++ [10]).length + (x.length + i)) = s.body.drop i := by rw [ht, List.drop_length_add_append, List.drop_length_add_append]
      have hread : r2.readBytes s.body.length = (.error .timeout, ⟨s.body.take i, none, (s.body.drop i).map .byte ++ rest⟩) := by
        unfold Rdr.readBytes
        rw [hdrop] at h2
        rw [peek_timeout h1 h2 (by simp; omega) hlen]
      rw [hread] at h3
      refine ⟨_, by rw [hrecv, h3], rfl, ?_⟩
      have hd2 : s.text.drop ((l ++ [10]).length + x.length) = s.body := by rw [ht, List.drop_length_add_append, List.drop_left]
      rw [Nat.min_eq_right (by omega), hd2]
      show (s.body.take i).map Ev.byte ++ ((s.body.drop i).map .byte ++ rest) = s.body.map .byte ++ rest
      rw [← List.append_assoc, ← List.map_append, List.take_append_drop]

/-- For example inside the body of the answer to DESCRIBE: the description comes next, as if it were a response. -/
example : ∃ s : Sent, s.WF ∧ s.body.length ≤ 2048 ∧ s.text = b!"RTSP/1.0 200 OK\r\nCSeq: 2\r\nContent-Length: 5\r\n\r\nv=0\r\n" ∧ 49 < s.text.length ∧
    s.text.drop (min 49 (s.text.length - s.body.length)) = b!"v=0\r\n" := by
  refine ⟨⟨200, b!"OK", [⟨b!"CSeq", [32], b!"2"⟩, ⟨b!"Content-Length", [32], b!"5"⟩], b!"v=0\r\n"⟩, ?_, by decide, by decide, by decide, by decide⟩
  refine ⟨by decide, ⟨by decide, by decide, by decide⟩, ?_, .inl (by decide)⟩
  intro h hh
  simp only [List.mem_cons, List.not_mem_nil, or_false] at hh
  rcases hh with rfl | rfl <;> exact ⟨⟨by decide, by decide⟩, by decide, by decide, by decide, by decide⟩

end Ouro
