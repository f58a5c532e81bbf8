import Verif.Spec.Http
import Verif.Model.Http
import Verif.Props.Message
/-! # C63, C70: RTSP over HTTP -/
namespace Ouro
open Spec

/-! ## Base64 -/

theorem sextet_char : ∀ v, v < 64 → sextet (b64char v) = some v ∧ b64char v ≠ 61 := by decide

theorem quad1 (a : UInt8) : decodeStream (b64Encode [a]) = some [a] := by
  have h := a.toNat_lt
  have h1 := sextet_char (a.toNat / 4) (by omega)
  have h2 := sextet_char (a.toNat % 4 * 16) (by omega)
  simp only [b64Encode, decodeStream, decodeQuad, h1.1, h2.1, if_true]
  rw [show (a.toNat / 4 * 64 + a.toNat % 4 * 16) / 16 = a.toNat by omega, UInt8.ofNat_toNat]
  rfl

theorem quad2 (a b : UInt8) : decodeStream (b64Encode [a, b]) = some [a, b] := by
  have ha := a.toNat_lt
  have hb := b.toNat_lt
  have h1 := sextet_char (a.toNat / 4) (by omega)
  have h2 := sextet_char (a.toNat % 4 * 16 + b.toNat / 16) (by omega)
  have h3 := sextet_char (b.toNat % 16 * 4) (by omega)
  simp only [b64Encode, decodeStream, decodeQuad, h1.1, h2.1, h3.1, h3.2, if_true, if_false]
  have e1 : UInt8.ofNat ((a.toNat / 4 * 64 + (a.toNat % 4 * 16 + b.toNat / 16)) / 16) = a := by
    rw [show (a.toNat / 4 * 64 + (a.toNat % 4 * 16 + b.toNat / 16)) / 16 = a.toNat by omega, UInt8.ofNat_toNat]
  have e2 : UInt8.ofNat (((a.toNat / 4 * 64 + (a.toNat % 4 * 16 + b.toNat / 16)) * 64 + b.toNat % 16 * 4) / 4) = b := by
    apply UInt8.toNat_inj.1
    rw [UInt8.toNat_ofNat']
    omega
  rw [e1, e2]
  rfl

theorem quad3 (a b c : UInt8) (t : Bytes) : decodeStream (b64Encode (a :: b :: c :: t)) = (decodeStream (b64Encode t)).map ([a, b, c] ++ ·) := by
  have ha := a.toNat_lt
  have hb := b.toNat_lt
  have hc := c.toNat_lt
  rw [b64Encode]
  have h1 := sextet_char (a.toNat / 4) (by omega)
  have h2 := sextet_char (a.toNat % 4 * 16 + b.toNat / 16) (by omega)
  have h3 := sextet_char (b.toNat % 16 * 4 + c.toNat / 64) (by omega)
  have h4 := sextet_char (c.toNat % 64) (by omega)
  simp only [decodeStream, decodeQuad, h1.1, h2.1, h3.1, h3.2, h4.1, h4.2, if_false]
  have e1 : UInt8.ofNat ((a.toNat / 4 * 64 + (a.toNat % 4 * 16 + b.toNat / 16)) / 16) = a := by
    rw [show (a.toNat / 4 * 64 + (a.toNat % 4 * 16 + b.toNat / 16)) / 16 = a.toNat by omega, UInt8.ofNat_toNat]
  have e2 : UInt8.ofNat (((a.toNat / 4 * 64 + (a.toNat % 4 * 16 + b.toNat / 16)) * 64 + (b.toNat % 16 * 4 + c.toNat / 64)) / 4) = b := by
    apply UInt8.toNat_inj.1
    rw [UInt8.toNat_ofNat']
    omega
  have e3 : UInt8.ofNat (((a.toNat / 4 * 64 + (a.toNat % 4 * 16 + b.toNat / 16)) * 64 + (b.toNat % 16 * 4 + c.toNat / 64)) * 64 + c.toNat % 64) = c := by
    apply UInt8.toNat_inj.1
    rw [UInt8.toNat_ofNat']
    omega
  rw [e1, e2, e3]
  cases decodeStream (b64Encode t) <;> rfl

theorem decode_b64 (p : Bytes) : decodeStream (b64Encode p) = some p := by
  fun_induction b64Encode p with
  | case1 => rfl
  | case2 a => exact quad1 a
  | case3 a b => exact quad2 a b
  | case4 a b c t ih =>
    have := quad3 a b c t
    rw [ih] at this
    exact this

theorem decode_append (s t : Bytes) (x : Bytes) (h : decodeStream s = some x) : decodeStream (s ++ t) = (decodeStream t).map (x ++ ·) := by
  fun_induction decodeStream s generalizing x with
  | case1 => injection h with h; subst h; rw [List.nil_append]; cases decodeStream t <;> rfl
  | case2 a b c d s u v h1 h2 ih =>
    injection h with h
    subst h
    show decodeStream (a :: b :: c :: d :: (s ++ t)) = _
    rw [decodeStream, h2, ih v h1]
    cases decodeStream t <;> simp
  | case3 a b c d s hn ih => cases h
  | case4 s h1 h2 => cases h

theorem decode_all (ps : List Bytes) : decodeStream (ps.flatMap b64Encode) = some ps.flatten := by
  induction ps with
  | nil => rfl
  | cons p ps ih =>
    rw [List.flatMap_cons, decode_append _ _ p (decode_b64 p), ih]
    rfl

theorem b64_append (p q : Bytes) (h : p.length % 3 = 0) : b64Encode (p ++ q) = b64Encode p ++ b64Encode q := by
  fun_induction b64Encode p with
  | case1 => rfl
  | case2 a => simp at h
  | case3 a b => simp at h
  | case4 a b c t ih =>
    have ih := ih (by simp only [List.length_cons] at h; omega)
    show b64Encode (a :: b :: c :: (t ++ q)) = _
    rw [b64Encode, ih]
    simp

/-! ## Writing -/

theorem encLoop_ok (w : List Bytes → Bytes → Bool) (hw : ∀ o b, w o b = true) : ∀ (n : Nat) (out : List Bytes) (p : Bytes), p.length ≤ n →
    ∃ out' rest, encLoop w n out p = (out', rest, true) ∧ out'.flatten ++ b64Encode rest = out.flatten ++ b64Encode p
  | 0, out, p, h => ⟨out, p, rfl, rfl⟩
  | n + 1, out, p, h => by
    unfold encLoop
    split
    · exact ⟨out, p, rfl, rfl⟩
    · dsimp only
      rw [if_pos (hw _ _)]
      generalize hnn : (if 768 > p.length then p.length - p.length % 3 else 768) = nn
      have h1 : 1 ≤ nn ∧ nn ≤ p.length ∧ nn % 3 = 0 := by split at hnn <;> omega
      obtain ⟨out', rest, h2, h3⟩ := encLoop_ok w hw n (out ++ [b64Encode (p.take nn)]) (p.drop nn) (by rw [List.length_drop]; omega)
      refine ⟨out', rest, h2, ?_⟩
      rw [h3, List.flatten_append, List.append_assoc]
      congr 1
      have := b64_append (p.take nn) (p.drop nn) (by rw [List.length_take, Nat.min_eq_left h1.2.1]; exact h1.2.2)
      rw [List.take_append_drop] at this
      rw [this]
      simp

theorem encWrite_ok (w : List Bytes → Bytes → Bool) (hw : ∀ o b, w o b = true) (out : List Bytes) (p : Bytes) :
    ∃ out', encWrite w out p = (out', true) ∧ out'.flatten = out.flatten ++ b64Encode p := by
  obtain ⟨out', rest, h1, h2⟩ := encLoop_ok w hw p.length out p (Nat.le_refl _)
  unfold encWrite
  rw [h1]
  cases rest with
  | nil => exact ⟨out', rfl, by rw [← h2]; simp [b64Encode]⟩
  | cons a t =>
    dsimp only
    rw [if_pos (hw _ _)]
    exact ⟨_, rfl, by rw [← h2]; simp⟩

theorem httpWrites_ok (w : List Bytes → Bytes → Bool) (hw : ∀ o b, w o b = true) : ∀ (ps : List Bytes) (c : HConn) (out : List Bytes),
    c.post = some out → c.connected = true → ∃ c' out', httpWrites w c ps = .ok (c', ps.map fun _ => true) ∧ c'.post = some out' ∧
      out'.flatten = out.flatten ++ ps.flatMap b64Encode
  | [], c, out, h1, _ => ⟨c, out, rfl, h1, by simp⟩
  | p :: ps, c, out, h1, h2 => by
    obtain ⟨o1, e1, e2⟩ := encWrite_ok w hw out p
    obtain ⟨c', out', e3, e4, e5⟩ := httpWrites_ok w hw ps { c with post := some o1 } o1 rfl h2
    refine ⟨c', out', ?_, e4, ?_⟩
    · unfold httpWrites httpWrite
      rw [h1]
      dsimp only
      rw [if_pos h2, e1]
      dsimp only
      rw [e3]
      rfl
    · rw [e5, e2]
      simp

/-- The header lines of `ConnectHTTP`. -/
def connectLines (verb guid : Bytes) : List (Bytes × Bytes) :=
  [(b!"X-SessionCookie", guid), (b!"Accept", b!"application/x-rtsp-tunnelled"), (b!"Pragma", b!"no-cache"), (b!"Cache-Control", b!"no-store")] ++
    (if verb = b!"POST" then [(b!"Content-Length", b!"32767")] else []) ++ [(b!"User-Agent", b!"Ouro/1.0")]

/-- What a server reads from the text of `ConnectHTTP`. -/
theorem connect_read (verb uri guid : Bytes) (hv : IsWord verb) (hu : IsWord uri) (hg : (13 : UInt8) ∉ guid) :
    serverRead (connectHTTP verb uri guid) = some { verb, uri, version := b!"HTTP/1.0", body := [], headers := connectLines verb guid } := by
  have hp : connectHTTP verb uri guid = verb ++ b!" " ++ uri ++ b!" HTTP/1.0" ++ 13 :: 10 :: ((connectLines verb guid).flatMap (fun e => headerLine e.1 e.2) ++ [13, 10]) := by
    unfold connectHTTP connectLines
    by_cases h : verb = b!"POST"
    · simp [h, crnl]
    · simp [h, crnl]
  have hl : ∀ e ∈ connectLines verb guid, (58 : UInt8) ∉ e.1 ∧ (13 : UInt8) ∉ e.1 ∧ (13 : UInt8) ∉ e.2 := by
    intro e he
    unfold connectLines at he
    simp only [List.mem_append] at he
    rcases he with (he | he) | he
    · simp only [List.mem_cons, List.not_mem_nil, or_false] at he
      rcases he with rfl | rfl | rfl | rfl
      · exact ⟨show (58 : UInt8) ∉ b!"X-SessionCookie" by decide, show (13 : UInt8) ∉ b!"X-SessionCookie" by decide, hg⟩
      · decide
      · decide
      · decide
    · split at he
      · rw [List.mem_singleton] at he; subst he; decide
      · cases he
    · rw [List.mem_singleton] at he; subst he; decide
  unfold serverRead
  rw [hp, split2_line, split2_headers _ (fun e he => (hl e he).2)]
  · dsimp only
    rw [readHeaders_ok _ (fun e he => (hl e he).1)]
    have h1 : verb ++ b!" " ++ uri ++ b!" HTTP/1.0" = verb ++ 32 :: (uri ++ 32 :: b!"HTTP/1.0") := by simp
    rw [h1, split_append _ hv.1, split_append _ hu.1, split_none (by decide)]
  · intro hm
    simp only [List.mem_append] at hm
    rcases hm with ((hm | hm) | hm) | hm
    · exact hv.2 hm
    · exact absurd hm (by decide)
    · exact hu.2 hm
    · exact absurd hm (by decide)

/-! ## C63 -/

/-- C63 refuted: after a successful `Dial` every `Write` panics, because nothing ever sets the connection for POST. -/
theorem C63_refuted (wd : Bytes → Bool) (w : List Bytes → Bytes → Bool) (uri guid : Bytes) (r : Rdr) (c : HConn) (h : dialHTTP wd uri guid r = .ok c) (p : Bytes) :
    Panics (httpWrite w c p) := by
  unfold dialHTTP at h
  split at h
  · split at h
    · cases h
    · injection h with h; subst h; exact ⟨_, rfl⟩
  · cases h

/-- C63, what holds: if there were a connection for POST and writing to it worked, any sequence of writes would send one POST request with the session cookie
and then characters that decode to the commands, and report success. Missing for the full claim: that there is one. -/
theorem C63_given_post_partial (w : List Bytes → Bytes → Bool) (hw : ∀ o b, w o b = true) (c : HConn) (hc : c.connected = false) (hp : c.post = some [])
    (hu : IsWord c.uri) (hg : (13 : UInt8) ∉ c.guid) (p : Bytes) (ps : List Bytes) :
    ∃ c' out head text, httpWrites w c (p :: ps) = .ok (c', (p :: ps).map fun _ => true) ∧ c'.post = some out ∧ out.flatten = head ++ text ∧
      serverRead head = some ⟨b!"POST", c.uri, b!"HTTP/1.0",
        [(b!"X-SessionCookie", c.guid), (b!"Accept", b!"application/x-rtsp-tunnelled"), (b!"Pragma", b!"no-cache"), (b!"Cache-Control", b!"no-store"),
          (b!"Content-Length", b!"32767"), (b!"User-Agent", b!"Ouro/1.0")], []⟩ ∧
      decodeStream text = some (p :: ps).flatten := by
  obtain ⟨o1, e1, e2⟩ := encWrite_ok w hw ([] ++ [connectHTTP b!"POST" c.uri c.guid]) p
  obtain ⟨c', out, e3, e4, e5⟩ := httpWrites_ok w hw ps { c with post := some o1, connected := true } o1 rfl rfl
  refine ⟨c', out, connectHTTP b!"POST" c.uri c.guid, (p :: ps).flatMap b64Encode, ?_, e4, ?_, ?_, decode_all _⟩
  · unfold httpWrites httpWrite
    rw [hp]
    dsimp only
    rw [if_neg (by rw [hc]; decide), if_pos (hw _ _), e1]
    dsimp only
    rw [e3]
    rfl
  · rw [e5, e2]
    simp
  · rw [connect_read _ _ _ ⟨by decide, by decide⟩ hu hg]
    rfl

theorem encLoop_reported (w : List Bytes → Bytes → Bool) : ∀ (n : Nat) (out out' : List Bytes) (p rest : Bytes), p.length ≤ n → encLoop w n out p = (out', rest, true) →
    ∃ sent, p = sent ++ rest ∧ rest.length < 3 ∧ sent.length % 3 = 0 ∧ out'.flatten = out.flatten ++ b64Encode sent
  | 0, out, out', p, rest, h, he => by
    injection he with h1 h2
    injection h2 with h2 _
    subst h1 h2
    exact ⟨[], rfl, by omega, rfl, by simp [b64Encode]⟩
  | n + 1, out, out', p, rest, h, he => by
    unfold encLoop at he
    split at he
    · injection he with h1 h2
      injection h2 with h2 _
      subst h1 h2
      exact ⟨[], rfl, by omega, rfl, by simp [b64Encode]⟩
    · dsimp only at he
      generalize hnn : (if 768 > p.length then p.length - p.length % 3 else 768) = nn at he
      have h1 : 1 ≤ nn ∧ nn ≤ p.length ∧ nn % 3 = 0 := by split at hnn <;> omega
      split at he
      · obtain ⟨sent, h2, h3, h4, h5⟩ := encLoop_reported w n _ out' (p.drop nn) rest (by rw [List.length_drop]; omega) he
        have hl : (p.take nn).length % 3 = 0 := by rw [List.length_take, Nat.min_eq_left h1.2.1]; exact h1.2.2
        refine ⟨p.take nn ++ sent, ?_, h3, by rw [List.length_append]; omega, ?_⟩
        · rw [List.append_assoc, ← h2, List.take_append_drop]
        · rw [h5, b64_append _ _ hl]
          simp
      · injection he with _ h2
        injection h2 with _ h2
        cases h2

/-- C63, what a success means, whatever fails: the request that opens the channel has been sent, once, and then the Base64 text of all the data but for at
most two bytes at its end (which are sent, unless writing them fails: `C63_silent_loss_refuted`). -/
theorem C63_reported_partial (w : List Bytes → Bytes → Bool) (c c' : HConn) (out : List Bytes) (hp : c.post = some out) (p : Bytes) (h : httpWrite w c p = .ok (c', true)) :
    ∃ out' sent rest head text, c'.post = some out' ∧ c'.connected = true ∧ p = sent ++ rest ∧ rest.length < 3 ∧ out'.flatten = out.flatten ++ head ++ text ∧
      head = (if c.connected then [] else connectHTTP b!"POST" c.uri c.guid) ∧ (decodeStream text = some sent ∨ decodeStream text = some p) := by
  have key : ∀ (o : List Bytes) (o' : List Bytes), encWrite w o p = (o', true) → ∃ sent rest text, p = sent ++ rest ∧ rest.length < 3 ∧ o'.flatten = o.flatten ++ text ∧
      (decodeStream text = some sent ∨ decodeStream text = some p) := by
    intro o o' he
    unfold encWrite at he
    split at he
    · injection he with _ he; cases he
    · next o1 hl =>
      injection he with he _
      subst he
      obtain ⟨sent, h1, h2, _, h3⟩ := encLoop_reported w _ _ _ _ _ (Nat.le_refl _) hl
      exact ⟨sent, [], _, h1, h2, h3, .inl (decode_b64 sent)⟩
    · next o1 rest _ hl =>
      injection he with he _
      obtain ⟨sent, h1, h2, h4, h3⟩ := encLoop_reported w _ _ _ _ _ (Nat.le_refl _) hl
      split at he
      · subst he
        refine ⟨sent, rest, b64Encode p, h1, h2, ?_, .inr (decode_b64 p)⟩
        rw [List.flatten_append, h3, h1, b64_append _ _ h4]
        simp
      · subst he
        exact ⟨sent, rest, _, h1, h2, h3, .inl (decode_b64 sent)⟩
  unfold httpWrite at h
  rw [hp] at h
  dsimp only at h
  split at h
  · next hc =>
    injection h with h
    injection h with h1 h2
    obtain ⟨sent, rest, text, k1, k2, k3, k4⟩ := key out _ (Prod.ext rfl h2)
    subst h1
    exact ⟨_, sent, rest, [], text, rfl, hc, k1, k2, by rw [List.append_nil]; exact k3, by rw [if_pos hc], k4⟩
  · next hc =>
    split at h
    · injection h with h
      injection h with h1 h2
      obtain ⟨sent, rest, text, k1, k2, k3, k4⟩ := key _ _ (Prod.ext rfl h2)
      subst h1
      exact ⟨_, sent, rest, connectHTTP b!"POST" c.uri c.guid, text, rfl, rfl, k1, k2, by rw [k3, List.flatten_append]; simp, by rw [if_neg hc], k4⟩
    · injection h with h
      injection h with _ h
      cases h

-- Five bytes on an open channel, where the last group cannot be written: three have been sent.
example : ∃ c', httpWrite (fun o _ => o.length < 1) { uri := b!"/x", guid := [], rdr := ⟨[], none, []⟩, conn := [], post := some [], connected := true } b!"abcde" = .ok (c', true) ∧
    c'.post = some [b!"YWJj"] := ⟨_, rfl, by decide⟩

/-- C63 refuted, even with a connection for POST: when writing the last group of characters fails, the error is dropped and `Write` reports success. -/
theorem C63_silent_loss_refuted (w : List Bytes → Bytes → Bool) (c : HConn) (out : List Bytes) (hp : c.post = some out) (hc : c.connected = true) (a : UInt8)
    (hw : w out (b64Encode [a]) = false) : httpWrite w c [a] = .ok (c, true) := by
  unfold httpWrite
  rw [hp]
  dsimp only
  rw [if_pos hc]
  have : encWrite w out [a] = (out, true) := by
    unfold encWrite
    rw [show encLoop w [a].length out [a] = (out, [a], true) from rfl]
    dsimp only
    rw [hw]
    rfl
  rw [this]
  cases c
  dsimp only at hp hc ⊢
  subst hp hc
  rfl

/-- A connection with which the hypotheses hold, and what is sent: the bytes left over from groups of three are written apart. -/
def demoHttp : HConn := { uri := b!"/x", guid := b!"00ff", rdr := ⟨[], none, []⟩, post := some [] }

example : demoHttp.connected = false ∧ IsWord demoHttp.uri ∧ (13 : UInt8) ∉ demoHttp.guid := ⟨rfl, ⟨by decide, by decide⟩, by decide⟩

example : (match httpWrites (fun _ _ => true) demoHttp [b!"OPTIONS", b!"ab"] with
    | .ok (c, _) => c.post
    | .error _ => none) = some [connectHTTP b!"POST" b!"/x" b!"00ff", b!"T1BUSU9O", b!"Uw==", b!"YWI="] := rfl

/-! ## C70 -/

theorem httpHeaderLoop_eq : ∀ (n : Nat) (r : Rdr) (h h' : Header) (r' : Rdr), headerLoop n r h = (.ok h', r') → httpHeaderLoop n r = (none, r')
  | 0, r, h, h', r', e => by cases e
  | n + 1, r, h, h', r', e => by
    unfold headerLoop at e
    unfold httpHeaderLoop
    cases hl : r.readLine with
    | mk x q =>
      rw [hl] at e
      cases x with
      | error x => cases e
      | ok line =>
        dsimp only at e ⊢
        by_cases ht : trimSpace line = []
        · rw [if_pos ht] at e ⊢
          injection e with e1 e2
          rw [e2]
        · rw [if_neg ht] at e ⊢
          split at e
          · rename_i k v hk
            rw [if_neg (by rw [hk]; simp)]
            exact httpHeaderLoop_eq n q _ h' r' e
          · cases e

theorem receive_ok (s : HttpAnswer) (hw : s.WF) (hv : s.version = b!"HTTP/1.0") (r : Rdr) (rest : List Ev) (he : r.err = none)
    (hr : r.evs = s.text.map .byte ++ rest) : ∃ r', receiveHTTP r = (none, r') ∧ r'.err = none ∧ r'.evs = rest := by
  have hl : (10 : UInt8) ∉ b!"HTTP/1.0" ++ b!" " ++ natDigits s.code ++ b!" " ++ s.reason ++ [13] := by
    intro hm
    simp only [List.mem_append] at hm
    rcases hm with ((((hm | hm) | hm) | hm) | hm) | hm
    · exact absurd hm (by decide)
    · exact absurd hm (by decide)
    · exact digits_not_mem _ 10 (by decide) hm
    · exact absurd hm (by decide)
    · exact hw.reason.1 hm
    · exact absurd hm (by decide)
  obtain ⟨r1, h1, h2, h3⟩ := readLine_ok (rest := (s.headers.flatMap SentHeader.text ++ [13, 10]).map .byte ++ rest) he
    (by rw [hr]; simp [HttpAnswer.text, hv]) hl
  have hsz : s.headers.length < r1.buf.length + r1.net.length + 1 := by
    have h4 := congrArg List.length h3
    unfold Rdr.evs at h4
    simp only [List.length_append, List.length_map, List.length_flatMap] at h4
    have : ∀ hs : List SentHeader, hs.length ≤ (hs.map fun h => h.text.length).sum := by
      intro hs
      induction hs with
      | nil => simp
      | cons h hs ih =>
        have : 1 ≤ h.text.length := by simp [SentHeader.text]; omega
        simp only [List.map_cons, List.sum_cons, List.length_cons]
        omega
    have := this s.headers
    omega
  obtain ⟨r2, h4, h5, h6⟩ := headerLoop_ok s.headers hw.headers (r1.buf.length + r1.net.length + 1) r1 [] _ h2 h3 hsz
  refine ⟨r2, ?_, h5, h6⟩
  unfold receiveHTTP
  rw [h1]
  dsimp only
  rw [statusLine_ok b!"HTTP/1.0" (by decide) s.code s.reason hw.code hw.reason]
  dsimp only
  exact httpHeaderLoop_eq _ _ _ _ _ h4

/-- C70, what holds: an answer with version 1.0 is accepted, the GET request has the session cookie, and reading goes on right behind the header, whatever
the pieces in which it arrived. -/
theorem C70_handshake_partial (w : Bytes → Bool) (hw : ∀ b, w b = true) (uri guid : Bytes) (hu : IsWord uri) (hg : (13 : UInt8) ∉ guid) (s : HttpAnswer) (hs : s.WF)
    (hv : s.version = b!"HTTP/1.0") (r : Rdr) (rest : List Ev) (he : r.err = none) (hr : r.evs = s.text.map .byte ++ rest) :
    ∃ c get, dialHTTP w uri guid r = .ok c ∧ c.conn = [get] ∧
      serverRead get = some ⟨b!"GET", uri, b!"HTTP/1.0",
        [(b!"X-SessionCookie", guid), (b!"Accept", b!"application/x-rtsp-tunnelled"), (b!"Pragma", b!"no-cache"), (b!"Cache-Control", b!"no-store"),
          (b!"User-Agent", b!"Ouro/1.0")], []⟩ ∧
      c.guid = guid ∧ c.rdr.err = none ∧ c.rdr.evs = rest := by
  obtain ⟨r', h1, h2, h3⟩ := receive_ok s hs hv r rest he hr
  refine ⟨{ uri, guid, rdr := r', conn := [connectHTTP b!"GET" uri guid] }, connectHTTP b!"GET" uri guid, ?_, rfl, ?_, rfl, h2, h3⟩
  · unfold dialHTTP
    rw [if_pos (hw _), h1]
  · rw [connect_read _ _ _ ⟨by decide, by decide⟩ hu hg]
    rfl

/-- C70 refuted: the status does not matter, so `Dial` succeeds when the server answers that there is no such stream. -/
theorem C70_status_refuted : ∃ (s : HttpAnswer) (c : HConn), s.WF ∧ s.code = 404 ∧
    dialHTTP (fun _ => true) b!"/x" b!"00ff" ⟨[], none, s.text.map .byte⟩ = .ok c := by
  have hs : HttpAnswer.WF ⟨b!"HTTP/1.0", 404, b!"Not Found", []⟩ :=
    ⟨⟨by decide, by decide⟩, by decide, ⟨by decide, by intro a h; injection h with h; subst h; decide, by intro a h; injection h with h; subst h; decide⟩, by simp⟩
  obtain ⟨c, _, h, _⟩ := C70_handshake_partial (fun _ => true) (fun _ => rfl) b!"/x" b!"00ff" ⟨by decide, by decide⟩ (by decide) _ hs rfl
    ⟨[], none, (HttpAnswer.text ⟨b!"HTTP/1.0", 404, b!"Not Found", []⟩).map .byte⟩ [] rfl (by simp only [Rdr.evs, List.map_nil, List.nil_append, List.append_nil])
  exact ⟨_, c, hs, rfl, h⟩

/-- C70 refuted: an answer with another version, as 1.1, is refused. -/
theorem C70_version_refuted (w : Bytes → Bool) (hw : ∀ b, w b = true) (uri guid : Bytes) (s : HttpAnswer) (hs : s.WF) (hv : s.version ≠ b!"HTTP/1.0") (r : Rdr) (rest : List Ev)
    (he : r.err = none) (hr : r.evs = s.text.map .byte ++ rest) : dialHTTP w uri guid r = .error .notSupported := by
  have hl : (10 : UInt8) ∉ s.version ++ b!" " ++ natDigits s.code ++ b!" " ++ s.reason ++ [13] := by
    intro hm
    simp only [List.mem_append] at hm
    rcases hm with ((((hm | hm) | hm) | hm) | hm) | hm
    · exact hs.version.2 hm
    · exact absurd hm (by decide)
    · exact digits_not_mem _ 10 (by decide) hm
    · exact absurd hm (by decide)
    · exact hs.reason.1 hm
    · exact absurd hm (by decide)
  obtain ⟨r1, h1, h2, h3⟩ := readLine_ok (rest := (s.headers.flatMap SentHeader.text ++ [13, 10]).map .byte ++ rest) he
    (by rw [hr]; simp [HttpAnswer.text]) hl
  have hc : statusLine b!"HTTP/1.0" (s.version ++ b!" " ++ natDigits s.code ++ b!" " ++ s.reason ++ [13] ++ [10]) = .error .notSupported := by
    unfold statusLine
    rw [show s.version ++ b!" " ++ natDigits s.code ++ b!" " ++ s.reason ++ [13] ++ [10] = s.version ++ 32 :: (natDigits s.code ++ b!" " ++ s.reason ++ [13] ++ [10]) by simp,
      cut_append _ hs.version.1]
    dsimp only
    rw [if_pos hv]
  unfold dialHTTP receiveHTTP
  rw [if_pos (hw _), h1]
  dsimp only
  rw [hc]

example : HttpAnswer.WF ⟨b!"HTTP/1.1", 200, b!"OK", [⟨b!"Content-Type", b!" ", b!"application/x-rtsp-tunnelled"⟩]⟩ :=
  ⟨⟨by decide, by decide⟩, by decide, ⟨by decide, by intro a h; injection h with h; subst h; decide, by intro a h; injection h with h; subst h; decide⟩, by
    intro h hh
    rw [List.mem_singleton] at hh
    subst hh
    exact ⟨⟨by decide, by decide⟩, by decide, by decide, by intro a h; injection h with h; subst h; decide, by intro a h; injection h with h; subst h; decide⟩⟩

end Ouro
