import Verif.Spec.HeaderOrder
import Verif.Spec.Gist
import Verif.Props.LineEnds
/-! # C151: the order of the header lines of a response -/
namespace Ouro
open Spec

theorem find_reverse_filter {α : Type} (p : α → Bool) (l : List α) : l.reverse.find? p = (l.filter p).getLast? := by
  rw [← List.head?_reverse, ← List.filter_reverse, List.head?_filter]

/-- A name that is not made of token characters is in no map of well-formed lines. -/
theorem setAll_at_odd (hs : List SentHeader) (hw : ∀ e ∈ hs, e.WF) {name : Bytes} (hn : ¬ ∀ c ∈ name, isToken c = true) : ∀ h : Header,
    (setAll h hs).at (canonKey name) = h.at (canonKey name) := by
  induction hs with
  | nil => intro h; rfl
  | cons e hs ih =>
    intro h
    show (setAll (h.set e.name e.value) hs).at _ = _
    rw [ih (fun x hx => hw x (by simp [hx])), at_set, if_neg]
    intro hc
    have := (canonKey_other (b := e.name) hn).1 hc.symm
    exact hn (this ▸ (hw e (by simp)).1.2)

theorem setAll_get_same {hs hs' : List SentHeader} (hw : ∀ e ∈ hs, e.WF) (hw' : ∀ e ∈ hs', e.WF) (h : SameFields hs hs') (name : Bytes) :
    (setAll [] hs').get name = (setAll [] hs).get name := by
  unfold Header.get
  by_cases hn : ∀ c ∈ name, isToken c = true
  · rw [setAll_at hs hw hn, setAll_at hs' hw' hn, find_reverse_filter, find_reverse_filter, h name]
  · rw [setAll_at_odd hs hw hn, setAll_at_odd hs' hw' hn]

theorem headers_size (hs : List SentHeader) (tail : List Ev) (r : Rdr) (h : r.evs = (hs.flatMap SentHeader.text ++ [13, 10]).map .byte ++ tail) :
    hs.length < r.buf.length + r.net.length + 1 := by
  have h4 := congrArg List.length h
  unfold Rdr.evs at h4
  simp only [List.length_append, List.length_map, List.length_flatMap] at h4
  have : ∀ hs : List SentHeader, hs.length ≤ (hs.map fun h => h.text.length).sum := by
    intro hs
    induction hs with
    | nil => simp
    | cons h hs ih =>
      have : 1 ≤ h.text.length := by simp [SentHeader.text]; omega
      simp only [List.map_cons, List.sum_cons, List.length_cons]
      omega
  have := this hs
  omega

/-- Two responses with the same first line and headers with the same values are understood alike. -/
theorem unpack_get_same (l : Bytes) (hl : (10 : UInt8) ∉ l) (hs hs' : List SentHeader) (hw : ∀ h ∈ hs, h.WF) (hw' : ∀ h ∈ hs', h.WF) (hg : ∀ name, (setAll [] hs').get name = (setAll [] hs).get name) (rest : List Ev)
    (r r' : Rdr) (he : r.err = none) (he' : r'.err = none) (hr : r.evs = (l ++ [10] ++ hs.flatMap SentHeader.text ++ [13, 10]).map .byte ++ rest)
    (hr' : r'.evs = (l ++ [10] ++ hs'.flatMap SentHeader.text ++ [13, 10]).map .byte ++ rest) :
    (∀ e, (unpackRsp r).1 = .error e → (unpackRsp r').1 = .error e) ∧
      ∀ rsp, (unpackRsp r).1 = .ok rsp → ∃ rsp', (unpackRsp r').1 = .ok rsp' ∧ rsp' = { rsp with header := rsp'.header } ∧ rsp.header = setAll [] hs ∧ rsp'.header = setAll [] hs' ∧
        (∀ name, rsp'.header.get name = rsp.header.get name) ∧ gist rsp' = gist rsp ∧
        (unpackRsp r).2.err = none ∧ (unpackRsp r').2.err = none ∧ (unpackRsp r).2.evs = (unpackRsp r').2.evs := by
  obtain ⟨q, h1, h2, h3⟩ := readLine_ok (r := r) (l := l) (rest := (hs.flatMap SentHeader.text ++ [13, 10]).map .byte ++ rest) he (by rw [hr]; simp) hl
  obtain ⟨q', h1', h2', h3'⟩ := readLine_ok (r := r') (l := l) (rest := (hs'.flatMap SentHeader.text ++ [13, 10]).map .byte ++ rest) he' (by rw [hr']; simp) hl
  obtain ⟨p, g1, k1, k3⟩ := headerLoop_ok hs hw (q.buf.length + q.net.length + 1) q [] rest h2 h3 (headers_size hs rest q h3)
  obtain ⟨p', g1', k2, k4⟩ := headerLoop_ok hs' hw' (q'.buf.length + q'.net.length + 1) q' [] rest h2' h3' (headers_size hs' rest q' h3')
  unfold unpackRsp
  rw [h1, h1']
  dsimp only
  cases statusLine b!"RTSP/1.0" (l ++ [10]) with
  | error err => exact ⟨fun e h => h, fun rsp h => by cases h⟩
  | ok sc =>
    obtain ⟨status, code⟩ := sc
    dsimp only
    rw [g1, g1']
    dsimp only
    rw [hg b!"Content-Length", hg b!"CSeq"]
    by_cases hc : contentLen ((setAll [] hs).get b!"Content-Length") > 0
    · rw [if_pos hc, if_pos hc]
      obtain ⟨t1, t2⟩ := agree_readBytes byte_meets byte_meets (contentLen ((setAll [] hs).get b!"Content-Length")).toNat (r := p) (s := p') ⟨k1, k2, by rw [k3, k4]⟩
      rw [readBytesM_byte] at t1 t2
      revert t1 t2
      rcases p.readBytes (contentLen ((setAll [] hs).get b!"Content-Length")).toNat with ⟨_ | body, p1⟩ <;>
        rcases p'.readBytes (contentLen ((setAll [] hs).get b!"Content-Length")).toNat with ⟨_ | body', p1'⟩ <;> dsimp only <;> intro t1 t2
      · injection t1 with t1; subst t1
        exact ⟨fun e h => h, fun rsp h => by cases h⟩
      · cases t1
      · cases t1
      · injection t1 with t1; subst t1
        rcases t2 with t2 | ⟨t2, t3, t4⟩
        · cases t2
        · refine ⟨fun e h => by (cases h), fun rsp h => ?_⟩
          injection h with h
          subst h
          exact ⟨_, rfl, rfl, rfl, rfl, hg, by unfold gist; dsimp only; rw [hg, hg, hg, hg], t2, t3, t4⟩
    · rw [if_neg hc, if_neg hc]
      refine ⟨fun e h => by (cases h), fun rsp h => ?_⟩
      injection h with h
      subst h
      exact ⟨_, rfl, rfl, rfl, rfl, hg, by unfold gist; dsimp only; rw [hg, hg, hg, hg], k1, k2, by rw [k3, k4]⟩

/-- **C151.** Two responses with the same first line (whatever it says), the same header lines but for the order of lines with different names, and the same data behind
them: the client gets the same error from both, or responses that differ in nothing but the order of the entries of their header maps, with the same value for every name;
what it uses of them is the same; and it goes on reading at the same place. -/
theorem C151_order (l : Bytes) (hl : (10 : UInt8) ∉ l) (hs hs' : List SentHeader) (hw : ∀ h ∈ hs, h.WF) (hw' : ∀ h ∈ hs', h.WF) (hf : SameFields hs hs') (rest : List Ev)
    (r r' : Rdr) (he : r.err = none) (he' : r'.err = none) (hr : r.evs = (l ++ [10] ++ hs.flatMap SentHeader.text ++ [13, 10]).map .byte ++ rest)
    (hr' : r'.evs = (l ++ [10] ++ hs'.flatMap SentHeader.text ++ [13, 10]).map .byte ++ rest) :
    (∀ e, (unpackRsp r).1 = .error e → (unpackRsp r').1 = .error e) ∧
      ∀ rsp, (unpackRsp r).1 = .ok rsp → ∃ rsp', (unpackRsp r').1 = .ok rsp' ∧ rsp' = { rsp with header := rsp'.header } ∧
        (∀ name, rsp'.header.get name = rsp.header.get name) ∧ gist rsp' = gist rsp ∧
        (unpackRsp r).2.err = none ∧ (unpackRsp r').2.err = none ∧ (unpackRsp r).2.evs = (unpackRsp r').2.evs := by
  obtain ⟨h1, h2⟩ := unpack_get_same l hl hs hs' hw hw' (setAll_get_same hw hw' hf) rest r r' he he' hr hr'
  refine ⟨h1, fun rsp h => ?_⟩
  obtain ⟨rsp', a, b, _, _, c⟩ := h2 rsp h
  exact ⟨rsp', a, b, c⟩

/-- **C151**, stronger: of lines with the same name only the last counts. If it has the same value in two responses for every name, whatever the order of the lines, the blanks
before the values, the case of the names and the lines repeated before, the two are understood alike. -/
theorem C151_last (l : Bytes) (hl : (10 : UInt8) ∉ l) (hs hs' : List SentHeader) (hw : ∀ h ∈ hs, h.WF) (hw' : ∀ h ∈ hs', h.WF) (hf : SameLast hs hs') (rest : List Ev)
    (r r' : Rdr) (he : r.err = none) (he' : r'.err = none) (hr : r.evs = (l ++ [10] ++ hs.flatMap SentHeader.text ++ [13, 10]).map .byte ++ rest)
    (hr' : r'.evs = (l ++ [10] ++ hs'.flatMap SentHeader.text ++ [13, 10]).map .byte ++ rest) :
    (∀ e, (unpackRsp r).1 = .error e → (unpackRsp r').1 = .error e) ∧
      ∀ rsp, (unpackRsp r).1 = .ok rsp → ∃ rsp', (unpackRsp r').1 = .ok rsp' ∧ rsp' = { rsp with header := rsp'.header } ∧
        (∀ name, rsp'.header.get name = rsp.header.get name) ∧ gist rsp' = gist rsp ∧
        (unpackRsp r).2.err = none ∧ (unpackRsp r').2.err = none ∧ (unpackRsp r).2.evs = (unpackRsp r').2.evs := by
  have hg : ∀ name, (setAll [] hs').get name = (setAll [] hs).get name := by
    intro name
    unfold Header.get
    by_cases hn : ∀ c ∈ name, isToken c = true
    · rw [setAll_at hs hw hn, setAll_at hs' hw' hn, hf name]
    · rw [setAll_at_odd hs hw hn, setAll_at_odd hs' hw' hn]
  obtain ⟨h1, h2⟩ := unpack_get_same l hl hs hs' hw hw' hg rest r r' he he' hr hr'
  refine ⟨h1, fun rsp h => ?_⟩
  obtain ⟨rsp', a, b, _, _, c⟩ := h2 rsp h
  exact ⟨rsp', a, b, c⟩

/-- A line that was said before, with another value and in another case. -/
example : SameLast [⟨b!"cseq", b!"", b!"1"⟩, ⟨b!"Session", b!" ", b!"12"⟩, ⟨b!"CSeq", b!" ", b!"2"⟩] [⟨b!"CSEQ", b!"", b!"2"⟩, ⟨b!"Session", b!" ", b!"12"⟩] := by
  intro name
  have e1 : sameName b!"cseq" name ↔ sameName b!"CSeq" name := ⟨fun h => (show lowerAscii b!"CSeq" = lowerAscii b!"cseq" by decide).trans h, fun h => (show lowerAscii b!"cseq" = lowerAscii b!"CSeq" by decide).trans h⟩
  have e2 : sameName b!"CSEQ" name ↔ sameName b!"CSeq" name := ⟨fun h => (show lowerAscii b!"CSeq" = lowerAscii b!"CSEQ" by decide).trans h, fun h => (show lowerAscii b!"CSEQ" = lowerAscii b!"CSeq" by decide).trans h⟩
  have h : sameName b!"Session" name → ¬ sameName b!"CSeq" name := fun h1 h2 => absurd (h1.trans h2.symm) (by decide)
  by_cases h1 : sameName b!"Session" name
  · simp [h1, h h1]
  · by_cases h2 : sameName b!"CSeq" name
    · simp [h1, h2, e2]
    · simp [h1, h2, e1, e2]

/-- Lines with different names are the same fields in any order. -/
theorem C151_any_order (hs hs' : List SentHeader) (hp : hs.Perm hs') (hd : DifferentNames hs) : SameFields hs hs' := by
  intro name
  have h1 := hp.filter (fun h => decide (sameName h.name name))
  have h2 : (hs.filter (fun h => decide (sameName h.name name))).length ≤ 1 := by
    have h3 : (hs.filter (fun h => decide (sameName h.name name))).Pairwise fun a b => ¬ sameName a.name b.name := List.Pairwise.sublist List.filter_sublist hd
    match hm : hs.filter (fun h => decide (sameName h.name name)) with
    | [] => rw [hm]; simp
    | [_] => rw [hm]; simp
    | a :: b :: t =>
      rw [hm] at h3
      have ha : a ∈ hs.filter (fun h => decide (sameName h.name name)) := by rw [hm]; simp
      have hb : b ∈ hs.filter (fun h => decide (sameName h.name name)) := by rw [hm]; simp
      have ha := of_decide_eq_true (List.mem_filter.1 ha).2
      have hb := of_decide_eq_true (List.mem_filter.1 hb).2
      exact absurd (show sameName a.name b.name from ha.trans hb.symm) ((List.pairwise_cons.1 h3).1 b (by simp))
  generalize hs.filter (fun h => decide (sameName h.name name)) = x at h1 h2
  match x, h1, h2 with
  | [], h1, _ => exact (List.nil_perm.1 h1).symm
  | [a], h1, _ => exact (List.perm_singleton.1 h1.symm).symm

/-- Three lines, two of them with the same name, in two orders. -/
example : SameFields [⟨b!"CSeq", b!" ", b!"1"⟩, ⟨b!"Session", b!" ", b!"12"⟩, ⟨b!"cseq", b!"", b!"2"⟩] [⟨b!"Session", b!" ", b!"12"⟩, ⟨b!"CSeq", b!" ", b!"1"⟩, ⟨b!"cseq", b!"", b!"2"⟩] := by
  intro name
  have h : sameName b!"Session" name → ¬ sameName b!"CSeq" name := fun h1 h2 => absurd (h1.trans h2.symm) (by decide)
  by_cases h1 : sameName b!"Session" name
  · simp [List.filter_cons, h1, h h1]
  · simp [List.filter_cons, h1]

/-- Readers that meet a response in two orders. -/
example : ∃ (hs hs' : List SentHeader) (r r' : Rdr), hs.length = 3 ∧ hs ≠ hs' ∧ (∀ h ∈ hs, h.WF) ∧ (∀ h ∈ hs', h.WF) ∧ DifferentNames hs ∧ hs.Perm hs' ∧ r.err = none ∧ r'.err = none ∧
    r.evs = (b!"RTSP/1.0 200 OK\r" ++ [10] ++ hs.flatMap SentHeader.text ++ [13, 10]).map .byte ++ [.byte 97, .byte 98] ∧
    r'.evs = (b!"RTSP/1.0 200 OK\r" ++ [10] ++ hs'.flatMap SentHeader.text ++ [13, 10]).map .byte ++ [.byte 97, .byte 98] := by
  refine ⟨[⟨b!"CSeq", b!" ", b!"1"⟩, ⟨b!"Session", b!" ", b!"12"⟩, ⟨b!"Content-Length", b!"", b!"2"⟩], [⟨b!"Content-Length", b!"", b!"2"⟩, ⟨b!"CSeq", b!" ", b!"1"⟩, ⟨b!"Session", b!" ", b!"12"⟩],
    { buf := [], net := _, err := none }, { buf := [], net := _, err := none }, rfl, ?_, ?_, ?_, ?_, ?_, rfl, rfl, rfl, rfl⟩
  · intro h
    injection h with h
    injection h with h
    exact absurd h (by decide)
  · simp only [SentHeader.WF, IsName, IsText]; decide
  · simp only [SentHeader.WF, IsName, IsText]; decide
  · unfold DifferentNames; decide
  · exact List.Perm.trans (.cons _ (.swap ..)) (.swap ..)

end Ouro
