import Verif.Spec.LineEnds
import Verif.Lemmas.Chunks2
import Verif.Lemmas.Receive
import Verif.Props.Message
import Verif.Lemmas.Sdp
import Verif.Lemmas.Clean
/-! # C149: how a server ends its lines -/
namespace Ouro
open Spec

theorem spaceLen_blank (s : Bytes) (c : UInt8) (hc : asciiSpace c = true) (hs : s ≠ []) : spaceLen (s ++ [c]) = spaceLen s ∧ spaceLen s ≤ s.length := by
  have hx : ∀ c : UInt8, asciiSpace c = true → c ≠ 0x85 ∧ c ≠ 0xA0 ∧ c ≠ 0x80 ∧ ¬ (0x80 ≤ c ∧ c ≤ 0x8A) ∧ c ≠ 0xA8 ∧ c ≠ 0xA9 ∧ c ≠ 0xAF ∧ c ≠ 0x9F :=
    forall_u8 (by decide +kernel)
  obtain ⟨h1, h2, h3, h4, h5, h6, h7, h8⟩ := hx c hc
  match s, hs with
  | [a], _ =>
    refine ⟨by simp [spaceLen, h1, h2], ?_⟩
    simp only [spaceLen, List.length_cons, List.length_nil]
    split <;> omega
  | [a, b], _ =>
    refine ⟨?_, ?_⟩
    · simp only [List.cons_append, List.nil_append, spaceLen, h3, h4, h5, h6, h7, h8]
      simp only [and_false, or_false, if_false]
    · simp only [spaceLen, List.length_cons, List.length_nil]
      split
      · omega
      · split <;> omega
  | a :: b :: d :: t, _ =>
    refine ⟨rfl, ?_⟩
    simp only [spaceLen, List.length_cons]
    split
    · omega
    · split
      · omega
      · split <;> omega

theorem dropSpace_nil (n : Nat) : dropSpace spaceLen n [] = [] := by
  cases n with
  | zero => rfl
  | succ n => rfl

theorem dropSpace_space (c : UInt8) (hc : asciiSpace c = true) (n : Nat) : ∀ s : Bytes, s.length ≤ n →
    dropSpace spaceLen (n + 1) (s ++ [c]) = if dropSpace spaceLen n s = [] then [] else dropSpace spaceLen n s ++ [c] := by
  have one : ∀ n, dropSpace spaceLen (n + 1) [c] = [] := by
    intro n
    have h1 : spaceLen [c] = 1 := by simp [spaceLen, hc]
    rw [dropSpace, h1, if_neg (by decide)]
    exact dropSpace_nil n
  induction n with
  | zero =>
    intro s hs
    have : s = [] := List.length_eq_zero_iff.1 (by omega)
    subst this
    rw [List.nil_append, one, dropSpace, if_pos rfl]
  | succ n ih =>
    intro s hs
    by_cases h0 : s = []
    · subst h0
      rw [List.nil_append, one, dropSpace_nil, if_pos rfl]
    · obtain ⟨h1, h2⟩ := spaceLen_blank s c hc h0
      rw [dropSpace, h1]
      by_cases hz : spaceLen s = 0
      · rw [if_pos hz, show dropSpace spaceLen (n + 1) s = s from by rw [dropSpace, if_pos hz], if_neg h0]
      · rw [if_neg hz, show dropSpace spaceLen (n + 1) s = dropSpace spaceLen n (s.drop (spaceLen s)) from by rw [dropSpace, if_neg hz],
          List.drop_append_of_le_length h2]
        exact ih _ (by rw [List.length_drop]; omega)

/-- A blank at the end makes no difference. -/
theorem trimSpace_snoc (s : Bytes) (c : UInt8) (hc : asciiSpace c = true) : trimSpace (s ++ [c]) = trimSpace s := by
  unfold trimSpace
  rw [List.length_append, List.length_singleton, dropSpace_space c hc _ s (Nat.le_refl _)]
  by_cases h0 : dropSpace spaceLen s.length s = []
  · rw [if_pos h0, h0]
  · rw [if_neg h0]
    dsimp only
    rw [List.length_append, List.length_singleton, List.reverse_append, List.reverse_singleton, List.singleton_append]
    have h1 : spaceLenRev (c :: (dropSpace spaceLen s.length s).reverse) = 1 := by
      match (dropSpace spaceLen s.length s).reverse with
      | [] => simp [spaceLenRev, hc]
      | [a] => simp [spaceLenRev, hc]
      | a :: b :: t => simp [spaceLenRev, hc]
    rw [dropSpace, h1, if_neg (by decide)]
    rfl

theorem spaceLen_visible (s : Bytes) (c : UInt8) (hc : visible c = true) (hm : c ∈ s) : c ∈ s.drop (spaceLen s) := by
  have v : ∀ c : UInt8, visible c = true → asciiSpace c = false ∧ c < 0x7F := forall_u8 (by decide +kernel)
  obtain ⟨v1, v2⟩ := v c hc
  have big : ∀ {x : UInt8}, c = x → x < 0x7F := fun h => h ▸ v2
  match s, hm with
  | [a], hm =>
    simp only [spaceLen]
    split
    · next h => rw [List.mem_singleton.1 hm, h] at v1; cases v1
    · exact hm
  | [a, b], hm =>
    simp only [spaceLen]
    split
    · next h =>
      rcases List.mem_cons.1 hm with e | hm
      · rw [e, h] at v1; cases v1
      · exact hm
    · split
      · next h =>
        exfalso
        simp only [List.mem_cons, List.not_mem_nil, or_false] at hm
        rcases hm with e | e
        · have := big e; rw [h.1] at this; exact absurd this (by decide)
        · have := big e
          rcases h.2 with h | h <;> (rw [h] at this; exact absurd this (by decide))
      · exact hm
  | a :: b :: d :: t, hm =>
    simp only [spaceLen]
    split
    · next h =>
      rcases List.mem_cons.1 hm with e | hm
      · rw [e, h] at v1; cases v1
      · exact hm
    · split
      · next h =>
        rcases List.mem_cons.1 hm with e | hm
        · have := big e; rw [h.1] at this; exact absurd this (by decide)
        · rcases List.mem_cons.1 hm with e | hm
          · have := big e
            rcases h.2 with h | h <;> (rw [h] at this; exact absurd this (by decide))
          · exact hm
      · split
        · next h =>
          have hb : (0x7F : UInt8) ≤ a ∧ (0x7F : UInt8) ≤ b ∧ (0x7F : UInt8) ≤ d := by
            rcases h with ⟨rfl, rfl, rfl⟩ | ⟨rfl, rfl, h⟩ | ⟨rfl, rfl, rfl⟩ | ⟨rfl, rfl, rfl⟩
            · decide
            · refine ⟨by decide, by decide, ?_⟩
              rcases h with ⟨h, _⟩ | rfl | rfl | rfl
              · exact UInt8.le_trans (by decide) h
              · decide
              · decide
              · decide
            · decide
            · decide
          rcases List.mem_cons.1 hm with e | hm
          · exact absurd (big e) (UInt8.not_lt.2 hb.1)
          · rcases List.mem_cons.1 hm with e | hm
            · exact absurd (big e) (UInt8.not_lt.2 hb.2.1)
            · rcases List.mem_cons.1 hm with e | hm
              · exact absurd (big e) (UInt8.not_lt.2 hb.2.2)
              · exact hm
        · exact hm

theorem spaceLenRev_visible (s : Bytes) (c : UInt8) (hc : visible c = true) (hm : c ∈ s) : c ∈ s.drop (spaceLenRev s) := by
  have v : ∀ c : UInt8, visible c = true → asciiSpace c = false ∧ c < 0x7F := forall_u8 (by decide +kernel)
  obtain ⟨v1, v2⟩ := v c hc
  have big : ∀ {x : UInt8}, c = x → x < 0x7F := fun h => h ▸ v2
  match s, hm with
  | [a], hm =>
    simp only [spaceLenRev]
    split
    · next h => rw [List.mem_singleton.1 hm, h] at v1; cases v1
    · exact hm
  | [a, b], hm =>
    simp only [spaceLenRev]
    split
    · next h =>
      rcases List.mem_cons.1 hm with e | hm
      · rw [e, h] at v1; cases v1
      · exact hm
    · split
      · next h =>
        exfalso
        simp only [List.mem_cons, List.not_mem_nil, or_false] at hm
        rcases hm with e | e
        · have := big e
          rcases h.2 with h | h <;> (rw [h] at this; exact absurd this (by decide))
        · have := big e; rw [h.1] at this; exact absurd this (by decide)
      · exact hm
  | a :: b :: d :: t, hm =>
    simp only [spaceLenRev]
    split
    · next h =>
      rcases List.mem_cons.1 hm with e | hm
      · rw [e, h] at v1; cases v1
      · exact hm
    · split
      · next h =>
        rcases List.mem_cons.1 hm with e | hm
        · have := big e
          rcases h.2 with h | h <;> (rw [h] at this; exact absurd this (by decide))
        · rcases List.mem_cons.1 hm with e | hm
          · have := big e; rw [h.1] at this; exact absurd this (by decide)
          · exact hm
      · split
        · next h =>
          have hb : (0x7F : UInt8) ≤ a ∧ (0x7F : UInt8) ≤ b ∧ (0x7F : UInt8) ≤ d := by
            rcases h with ⟨rfl, rfl, rfl⟩ | ⟨rfl, rfl, h⟩ | ⟨rfl, rfl, rfl⟩ | ⟨rfl, rfl, rfl⟩
            · decide
            · refine ⟨?_, by decide, by decide⟩
              rcases h with ⟨h, _⟩ | rfl | rfl | rfl
              · exact UInt8.le_trans (by decide) h
              · decide
              · decide
              · decide
            · decide
            · decide
          rcases List.mem_cons.1 hm with e | hm
          · exact absurd (big e) (UInt8.not_lt.2 hb.1)
          · rcases List.mem_cons.1 hm with e | hm
            · exact absurd (big e) (UInt8.not_lt.2 hb.2.1)
            · rcases List.mem_cons.1 hm with e | hm
              · exact absurd (big e) (UInt8.not_lt.2 hb.2.2)
              · exact hm
        · exact hm

theorem dropSpace_visible {len : Bytes → Nat} (hl : ∀ (s : Bytes) (c : UInt8), visible c = true → c ∈ s → c ∈ s.drop (len s)) (c : UInt8) (hc : visible c = true) (n : Nat) : ∀ s : Bytes, c ∈ s → c ∈ dropSpace len n s := by
  induction n with
  | zero => intro s h; exact h
  | succ n ih =>
    intro s h
    rw [dropSpace]
    split
    · exact h
    · exact ih _ (hl s c hc h)

/-- A line with a visible character in it is not blank. -/
theorem trimSpace_visible {s : Bytes} (h : ∃ c ∈ s, visible c = true) : trimSpace s ≠ [] := by
  obtain ⟨c, hm, hc⟩ := h
  have h1 := dropSpace_visible spaceLen_visible c hc s.length s hm
  have h2 := dropSpace_visible spaceLenRev_visible c hc (dropSpace spaceLen s.length s).length _ (List.mem_reverse.2 h1)
  intro h0
  unfold trimSpace at h0
  rw [List.reverse_eq_nil_iff.1 h0] at h2
  cases h2

/-! ## Responses -/

theorem trimSpace_end (l : Bytes) (e : LineEnd) : trimSpace (l ++ e.bytes) = trimSpace l := by
  cases e with
  | crlf => rw [show l ++ LineEnd.bytes .crlf = (l ++ [13]) ++ [10] from by simp [LineEnd.bytes], trimSpace_snoc _ _ (by decide), trimSpace_snoc _ _ (by decide)]
  | lf => exact trimSpace_snoc _ _ (by decide)
  | cr => exact trimSpace_snoc _ _ (by decide)

/-- The end of a line that a reader of lines finds. -/
def HasFeed (e : LineEnd) : Prop := e = .crlf ∨ e = .lf

theorem readLine_end {r : Rdr} {l : Bytes} {e : LineEnd} {rest : List Ev} (he : r.err = none) (hf : HasFeed e) (h : r.evs = (l ++ e.bytes).map .byte ++ rest)
    (hl : (10 : UInt8) ∉ l) : ∃ r', r.readLine = (.ok (l ++ e.bytes), r') ∧ r'.err = none ∧ r'.evs = rest := by
  rcases hf with rfl | rfl
  · have : l ++ LineEnd.bytes .crlf = (l ++ [13]) ++ [10] := by simp [LineEnd.bytes]
    rw [this] at h ⊢
    exact readLine_ok he h (by simp [hl])
  · exact readLine_ok he h hl

theorem cut_end (l : Bytes) (e : LineEnd) : cut 32 (l ++ e.bytes) = (cut 32 l).map fun p => (p.1, p.2 ++ e.bytes) := by
  have hn : (32 : UInt8) ∉ e.bytes := by cases e <;> decide
  induction l with
  | nil =>
    rw [List.nil_append, cut_none.2 hn]; rfl
  | cons a l ih =>
    rw [List.cons_append, cut, cut, ih]
    split
    · rfl
    · cases cut 32 l <;> rfl

theorem statusLine_end (proto l : Bytes) (e e' : LineEnd) : statusLine proto (l ++ e.bytes) = statusLine proto (l ++ e'.bytes) := by
  have : ∀ e : LineEnd, statusLine proto (l ++ e.bytes) = statusLine proto l := by
    intro e
    unfold statusLine
    rw [cut_end]
    cases cut 32 l with
    | none => rfl
    | some p => dsimp only [Option.map]; rw [trimSpace_end]
  rw [this, this]

theorem headerLoop_end (hs : List Bytes) : ∀ (hd : Header) (k k' : Nat) (a b : List LineEnd) (r r' : Rdr) (rest : List Ev),
    hs.length < k → hs.length < k' → a.length = hs.length + 1 → b.length = hs.length + 1 → (∀ e ∈ a, HasFeed e) → (∀ e ∈ b, HasFeed e) →
    (∀ h ∈ hs, (10 : UInt8) ∉ h ∧ ∃ c ∈ h, visible c = true) → r.err = none → r'.err = none →
    r.evs = (written (hs ++ [[]]) a).map .byte ++ rest → r'.evs = (written (hs ++ [[]]) b).map .byte ++ rest →
    ∃ x q q', headerLoop k r hd = (x, q) ∧ headerLoop k' r' hd = (x, q') ∧ (∀ h, x = .ok h → q.err = none ∧ q'.err = none ∧ q.evs = rest ∧ q'.evs = rest) := by
  induction hs with
  | nil =>
    intro hd k k' a b r r' rest hk hk' ha hb fa fb _ he he' hr hr'
    match k, k', a, b, hk, hk', ha, hb with
    | k + 1, k' + 1, [e], [e'], _, _, _, _ =>
      obtain ⟨q, h1, h2, h3⟩ := readLine_end (l := []) (rest := rest) he (fa e (by simp)) (by simpa [written] using hr) (by simp)
      obtain ⟨q', h1', h2', h3'⟩ := readLine_end (l := []) (rest := rest) he' (fb e' (by simp)) (by simpa [written] using hr') (by simp)
      refine ⟨.ok hd, q, q', ?_, ?_, fun _ _ => ⟨h2, h2', h3, h3'⟩⟩
      · rw [headerLoop, h1]; dsimp only; rw [trimSpace_end]; rfl
      · rw [headerLoop, h1']; dsimp only; rw [trimSpace_end]; rfl
  | cons l hs ih =>
    intro hd k k' a b r r' rest hk hk' ha hb fa fb hh he he' hr hr'
    match k, k', a, b, hk, hk', ha, hb with
    | k + 1, k' + 1, e :: a, e' :: b, hk, hk', ha, hb =>
      obtain ⟨hl, hv⟩ := hh l (by simp)
      obtain ⟨q, h1, h2, h3⟩ := readLine_end (l := l) (rest := (written (hs ++ [[]]) a).map .byte ++ rest) he (fa e (by simp)) (by simpa [written] using hr) hl
      obtain ⟨q', h1', h2', h3'⟩ := readLine_end (l := l) (rest := (written (hs ++ [[]]) b).map .byte ++ rest) he' (fb e' (by simp)) (by simpa [written] using hr') hl
      rw [headerLoop, headerLoop, h1, h1']
      dsimp only
      rw [trimSpace_end, trimSpace_end, if_neg (trimSpace_visible hv), if_neg (trimSpace_visible hv)]
      simp only [List.length_cons] at hk hk' ha hb
      split
      · exact ih _ k k' a b q q' rest (by omega) (by omega) (by omega) (by omega) (fun x hx => fa x (by simp [hx])) (fun x hx => fb x (by simp [hx]))
          (fun x hx => hh x (by simp [hx])) h2 h2' h3 h3'
      · exact ⟨_, q, q', rfl, rfl, fun h hx => by cases hx⟩

theorem written_length (ls : List Bytes) : ∀ a : List LineEnd, a.length = ls.length → ls.length ≤ (written ls a).length := by
  induction ls with
  | nil => intro a _; exact Nat.zero_le _
  | cons l ls ih =>
    intro a ha
    cases a with
    | nil => cases ha
    | cons e a =>
      have := ih a (by simpa using ha)
      have h1 : 1 ≤ e.bytes.length := by cases e <;> decide
      simp only [written, List.length_append, List.length_cons]
      omega

/-- **C149** for responses: the same lines, whatever they say, each ended by a line feed alone or by a carriage return and a line feed, then the same data: the same
response or error is returned, and after a response the same is left to be read. -/
theorem C149_response_partial (l : Bytes) (hs : List Bytes) (hl : (10 : UInt8) ∉ l) (hh : ∀ h ∈ hs, (10 : UInt8) ∉ h ∧ ∃ c ∈ h, visible c = true)
    (a b : List LineEnd) (ha : a.length = hs.length + 2) (hb : b.length = hs.length + 2) (fa : LineEnd.cr ∉ a) (fb : LineEnd.cr ∉ b) (rest : List Ev) (r r' : Rdr)
    (he : r.err = none) (he' : r'.err = none) (hr : r.evs = (written (l :: hs ++ [[]]) a).map .byte ++ rest)
    (hr' : r'.evs = (written (l :: hs ++ [[]]) b).map .byte ++ rest) :
    (unpackRsp r).1 = (unpackRsp r').1 ∧
      ∀ rsp, (unpackRsp r).1 = .ok rsp → (unpackRsp r).2.err = none ∧ (unpackRsp r').2.err = none ∧ (unpackRsp r).2.evs = (unpackRsp r').2.evs := by
  have feed : ∀ {a : List LineEnd}, LineEnd.cr ∉ a → ∀ e ∈ a, HasFeed e := by
    intro a h e hm
    cases e with
    | crlf => exact .inl rfl
    | lf => exact .inr rfl
    | cr => exact absurd hm h
  have fa := feed fa
  have fb := feed fb
  match a, b, ha, hb with
  | e :: a, e' :: b, ha, hb =>
    simp only [List.length_cons] at ha hb
    obtain ⟨q, h1, h2, h3⟩ := readLine_end (l := l) (rest := (written (hs ++ [[]]) a).map .byte ++ rest) he (fa e (by simp)) (by simpa [written] using hr) hl
    obtain ⟨q', h1', h2', h3'⟩ := readLine_end (l := l) (rest := (written (hs ++ [[]]) b).map .byte ++ rest) he' (fb e' (by simp)) (by simpa [written] using hr') hl
    have size : ∀ {q : Rdr} {a : List LineEnd}, a.length = hs.length + 1 → q.evs = (written (hs ++ [[]]) a).map .byte ++ rest → hs.length < q.buf.length + q.net.length + 1 := by
      intro q a ha hq
      have h4 := congrArg List.length hq
      have h5 := written_length (hs ++ [[]]) a (by simp [ha])
      unfold Rdr.evs at h4
      simp only [List.length_append, List.length_map, List.length_singleton] at h4 h5
      omega
    obtain ⟨x, p, p', g1, g2, g3⟩ := headerLoop_end hs [] (q.buf.length + q.net.length + 1) (q'.buf.length + q'.net.length + 1) a b q q' rest
      (size (by omega) h3) (size (by omega) h3') (by omega) (by omega) (fun x hx => fa x (by simp [hx])) (fun x hx => fb x (by simp [hx])) hh h2 h2' h3 h3'
    unfold unpackRsp
    rw [h1, h1']
    dsimp only
    rw [statusLine_end _ l e e']
    cases statusLine b!"RTSP/1.0" (l ++ e'.bytes) with
    | error err => exact ⟨rfl, fun rsp h => by cases h⟩
    | ok sc =>
      obtain ⟨status, code⟩ := sc
      dsimp only
      rw [g1, g2]
      cases x with
      | error err => exact ⟨rfl, fun rsp h => by cases h⟩
      | ok hd =>
        obtain ⟨k1, k2, k3, k4⟩ := g3 hd rfl
        dsimp only
        by_cases hc : contentLen (hd.get b!"Content-Length") > 0
        · rw [if_pos hc, if_pos hc]
          obtain ⟨t1, t2⟩ := agree_readBytes byte_meets byte_meets (contentLen (hd.get b!"Content-Length")).toNat (r := p) (s := p') ⟨k1, k2, by rw [k3, k4]⟩
          rw [readBytesM_byte] at t1 t2
          revert t1 t2
          rcases p.readBytes (contentLen (hd.get b!"Content-Length")).toNat with ⟨_ | body, p1⟩ <;>
            rcases p'.readBytes (contentLen (hd.get b!"Content-Length")).toNat with ⟨_ | body', p1'⟩ <;> dsimp only <;> intro t1 t2
          · injection t1 with t1; subst t1
            exact ⟨rfl, fun rsp h => by cases h⟩
          · cases t1
          · cases t1
          · injection t1 with t1; subst t1
            rcases t2 with t2 | ⟨t2, t3, t4⟩
            · cases t2
            · exact ⟨rfl, fun _ _ => ⟨t2, t3, t4⟩⟩
        · rw [if_neg hc, if_neg hc]
          exact ⟨rfl, fun _ _ => ⟨k1, k2, by rw [k3, k4]⟩⟩

/-- A response that says the same, its lines ended in two ways. -/
example : ∃ a b : List LineEnd, LineEnd.cr ∉ a ∧ LineEnd.cr ∉ b ∧ a.length = 4 ∧ b.length = 4 ∧
    written [b!"RTSP/1.0 200 OK", b!"CSeq: 1", b!"Content-Length: 2", []] a = b!"RTSP/1.0 200 OK\r\nCSeq: 1\nContent-Length: 2\r\n\n" ∧
    written [b!"RTSP/1.0 200 OK", b!"CSeq: 1", b!"Content-Length: 2", []] b = b!"RTSP/1.0 200 OK\nCSeq: 1\r\nContent-Length: 2\r\n\r\n" ∧
    (∀ h ∈ [b!"CSeq: 1", b!"Content-Length: 2"], (10 : UInt8) ∉ h ∧ ∃ c ∈ h, visible c = true) :=
  ⟨[.crlf, .lf, .crlf, .lf], [.lf, .crlf, .crlf, .crlf], by decide, by decide, rfl, rfl, by decide, by decide, by decide +kernel⟩

/-! ## The answer to the GET of the tunnel -/

theorem httpHeaderLoop_end (hs : List Bytes) : ∀ (k k' : Nat) (a b : List LineEnd) (r r' : Rdr) (rest : List Ev),
    hs.length < k → hs.length < k' → a.length = hs.length + 1 → b.length = hs.length + 1 → (∀ e ∈ a, HasFeed e) → (∀ e ∈ b, HasFeed e) →
    (∀ h ∈ hs, (10 : UInt8) ∉ h ∧ ∃ c ∈ h, visible c = true) → r.err = none → r'.err = none →
    r.evs = (written (hs ++ [[]]) a).map .byte ++ rest → r'.evs = (written (hs ++ [[]]) b).map .byte ++ rest →
    ∃ x q q', httpHeaderLoop k r = (x, q) ∧ httpHeaderLoop k' r' = (x, q') ∧ (x = none → q.err = none ∧ q'.err = none ∧ q.evs = rest ∧ q'.evs = rest) := by
  induction hs with
  | nil =>
    intro k k' a b r r' rest hk hk' ha hb fa fb _ he he' hr hr'
    match k, k', a, b, hk, hk', ha, hb with
    | k + 1, k' + 1, [e], [e'], _, _, _, _ =>
      obtain ⟨q, h1, h2, h3⟩ := readLine_end (l := []) (rest := rest) he (fa e (by simp)) (by simpa [written] using hr) (by simp)
      obtain ⟨q', h1', h2', h3'⟩ := readLine_end (l := []) (rest := rest) he' (fb e' (by simp)) (by simpa [written] using hr') (by simp)
      refine ⟨none, q, q', ?_, ?_, fun _ => ⟨h2, h2', h3, h3'⟩⟩
      · rw [httpHeaderLoop, h1]; dsimp only; rw [trimSpace_end]; rfl
      · rw [httpHeaderLoop, h1']; dsimp only; rw [trimSpace_end]; rfl
  | cons l hs ih =>
    intro k k' a b r r' rest hk hk' ha hb fa fb hh he he' hr hr'
    match k, k', a, b, hk, hk', ha, hb with
    | k + 1, k' + 1, e :: a, e' :: b, hk, hk', ha, hb =>
      obtain ⟨hl, hv⟩ := hh l (by simp)
      obtain ⟨q, h1, h2, h3⟩ := readLine_end (l := l) (rest := (written (hs ++ [[]]) a).map .byte ++ rest) he (fa e (by simp)) (by simpa [written] using hr) hl
      obtain ⟨q', h1', h2', h3'⟩ := readLine_end (l := l) (rest := (written (hs ++ [[]]) b).map .byte ++ rest) he' (fb e' (by simp)) (by simpa [written] using hr') hl
      rw [httpHeaderLoop, httpHeaderLoop, h1, h1']
      dsimp only
      rw [trimSpace_end, trimSpace_end, if_neg (trimSpace_visible hv), if_neg (trimSpace_visible hv)]
      simp only [List.length_cons] at hk hk' ha hb
      split
      · exact ⟨_, q, q', rfl, rfl, fun hx => by cases hx⟩
      · exact ih k k' a b q q' rest (by omega) (by omega) (by omega) (by omega) (fun x hx => fa x (by simp [hx])) (fun x hx => fb x (by simp [hx]))
          (fun x hx => hh x (by simp [hx])) h2 h2' h3 h3'

/-- **C149** for the answer to the GET request of RTSP over HTTP. -/
theorem C149_tunnel_partial (l : Bytes) (hs : List Bytes) (hl : (10 : UInt8) ∉ l) (hh : ∀ h ∈ hs, (10 : UInt8) ∉ h ∧ ∃ c ∈ h, visible c = true)
    (a b : List LineEnd) (ha : a.length = hs.length + 2) (hb : b.length = hs.length + 2) (fa : LineEnd.cr ∉ a) (fb : LineEnd.cr ∉ b) (rest : List Ev) (r r' : Rdr)
    (he : r.err = none) (he' : r'.err = none) (hr : r.evs = (written (l :: hs ++ [[]]) a).map .byte ++ rest)
    (hr' : r'.evs = (written (l :: hs ++ [[]]) b).map .byte ++ rest) :
    (receiveHTTP r).1 = (receiveHTTP r').1 ∧
      ((receiveHTTP r).1 = none → (receiveHTTP r).2.err = none ∧ (receiveHTTP r').2.err = none ∧ (receiveHTTP r).2.evs = (receiveHTTP r').2.evs) := by
  have feed : ∀ {a : List LineEnd}, LineEnd.cr ∉ a → ∀ e ∈ a, HasFeed e := by
    intro a h e hm
    cases e with
    | crlf => exact .inl rfl
    | lf => exact .inr rfl
    | cr => exact absurd hm h
  have fa := feed fa
  have fb := feed fb
  match a, b, ha, hb with
  | e :: a, e' :: b, ha, hb =>
    simp only [List.length_cons] at ha hb
    obtain ⟨q, h1, h2, h3⟩ := readLine_end (l := l) (rest := (written (hs ++ [[]]) a).map .byte ++ rest) he (fa e (by simp)) (by simpa [written] using hr) hl
    obtain ⟨q', h1', h2', h3'⟩ := readLine_end (l := l) (rest := (written (hs ++ [[]]) b).map .byte ++ rest) he' (fb e' (by simp)) (by simpa [written] using hr') hl
    have size : ∀ {q : Rdr} {a : List LineEnd}, a.length = hs.length + 1 → q.evs = (written (hs ++ [[]]) a).map .byte ++ rest → hs.length < q.buf.length + q.net.length + 1 := by
      intro q a ha hq
      have h4 := congrArg List.length hq
      have h5 := written_length (hs ++ [[]]) a (by simp [ha])
      unfold Rdr.evs at h4
      simp only [List.length_append, List.length_map, List.length_singleton] at h4 h5
      omega
    obtain ⟨x, p, p', g1, g2, g3⟩ := httpHeaderLoop_end hs (q.buf.length + q.net.length + 1) (q'.buf.length + q'.net.length + 1) a b q q' rest
      (size (by omega) h3) (size (by omega) h3') (by omega) (by omega) (fun x hx => fa x (by simp [hx])) (fun x hx => fb x (by simp [hx])) hh h2 h2' h3 h3'
    unfold receiveHTTP
    rw [h1, h1']
    dsimp only
    rw [statusLine_end _ l e e']
    cases statusLine b!"HTTP/1.0" (l ++ e'.bytes) with
    | error err => exact ⟨rfl, fun h => by cases h⟩
    | ok sc =>
      dsimp only
      rw [g1, g2]
      refine ⟨rfl, fun h => ?_⟩
      obtain ⟨k1, k2, k3, k4⟩ := g3 h
      exact ⟨k1, k2, by rw [k3, k4]⟩

example : ∀ h ∈ [b!"Content-Type: application/x-rtsp-tunnelled", b!"Cache-Control: no-cache"], (10 : UInt8) ∉ h ∧ ∃ c ∈ h, visible c = true := by decide +kernel

/-! ## Descriptions -/

theorem split_written (ls : List Bytes) : ∀ a : List LineEnd, a.length = ls.length → (∀ l ∈ ls, (10 : UInt8) ∉ l) → (∀ e ∈ a, HasFeed e) →
    ∃ cs : List Bytes, split 10 (written ls a) = cs ++ [[]] ∧ cs.map trimSpace = ls.map trimSpace := by
  induction ls with
  | nil =>
    intro a _ _ _
    exact ⟨[], by simp [written, split], rfl⟩
  | cons l ls ih =>
    intro a ha hl hf
    match a, ha with
    | e :: a, ha =>
      obtain ⟨cs, h1, h2⟩ := ih a (by simpa using ha) (fun x hx => hl x (by simp [hx])) (fun x hx => hf x (by simp [hx]))
      have hn := hl l (by simp)
      rcases hf e (by simp) with rfl | rfl
      · refine ⟨(l ++ [13]) :: cs, ?_, ?_⟩
        · rw [written, show l ++ LineEnd.bytes .crlf ++ written ls a = (l ++ [13]) ++ 10 :: written ls a from by simp [LineEnd.bytes],
            split_append _ (by simp [hn]), h1]
          rfl
        · rw [List.map_cons, List.map_cons, h2, trimSpace_snoc _ _ (by decide)]
      · refine ⟨l :: cs, ?_, ?_⟩
        · rw [written, show l ++ LineEnd.bytes .lf ++ written ls a = l ++ 10 :: written ls a from by simp [LineEnd.bytes], split_append _ hn, h1]
          rfl
        · rw [List.map_cons, List.map_cons, h2]

theorem sdpLines_trim (cs : List Bytes) : ∀ (ds : List Bytes) (st : SdpState), cs.map trimSpace = ds.map trimSpace → sdpLines st cs = sdpLines st ds := by
  induction cs with
  | nil =>
    intro ds st h
    cases ds with
    | nil => rfl
    | cons d ds => cases h
  | cons c cs ih =>
    intro ds st h
    cases ds with
    | nil => cases h
    | cons d ds =>
      rw [List.map_cons, List.map_cons] at h
      injection h with h1 h2
      have h3 : sdpLine st c = sdpLine st d := by unfold sdpLine; rw [h1]
      rw [sdpLines, sdpLines, h3]
      cases sdpLine st d with
      | error e => rfl
      | ok st' => exact ih ds st' h2

/-- **C149** for descriptions: whatever the lines say, ending each of them by a line feed alone or by a carriage return and a line feed makes no difference to the feeds found
(or to a crash). -/
theorem C149_description_partial (ls : List Bytes) (hl : ∀ l ∈ ls, (10 : UInt8) ∉ l) (a b : List LineEnd) (ha : a.length = ls.length) (hb : b.length = ls.length)
    (fa : LineEnd.cr ∉ a) (fb : LineEnd.cr ∉ b) : sdpParse (written ls a) = sdpParse (written ls b) := by
  have feed : ∀ {a : List LineEnd}, LineEnd.cr ∉ a → ∀ e ∈ a, HasFeed e := by
    intro a h e hm
    cases e with
    | crlf => exact .inl rfl
    | lf => exact .inr rfl
    | cr => exact absurd hm h
  obtain ⟨cs, h1, h2⟩ := split_written ls a ha hl (feed fa)
  obtain ⟨ds, h3, h4⟩ := split_written ls b hb hl (feed fb)
  unfold sdpParse
  rw [h1, h3, sdpLines_trim (cs ++ [[]]) (ds ++ [[]]) ⟨[], false⟩ (by simp [h2, h4])]

example : (sdpParse (written [b!"v=0", b!"m=video 0 RTP/AVP 96"] [.lf, .crlf]) = .ok [{ payloadType := 96 }]) := by decide +kernel

/-! ## Carriage returns alone -/

theorem written_cr (ls : List Bytes) (hl : ∀ l ∈ ls, (10 : UInt8) ∉ l) : ∀ a : List LineEnd, (∀ e ∈ a, e = .cr) → (10 : UInt8) ∉ written ls a := by
  induction ls with
  | nil => intro a _; simp [written]
  | cons l ls ih =>
    intro a ha
    cases a with
    | nil => simp [written]
    | cons e a =>
      rw [ha e (by simp)]
      simp only [written, LineEnd.bytes, List.mem_append, List.mem_singleton, not_or]
      exact ⟨⟨hl l (by simp), by decide⟩, ih (fun x hx => hl x (by simp [hx])) a (fun x hx => ha x (by simp [hx]))⟩

/-- Against C149: a response of any lines, all of them ended by a carriage return alone, is not seen to be one. If nothing else comes for the time of a read, there is a timeout and
the response is gone. -/
theorem C149_response_refuted (ls : List Bytes) (hl : ∀ l ∈ ls, (10 : UInt8) ∉ l) (a : List LineEnd) (ha : ∀ e ∈ a, e = .cr) (rest : List Ev) (r : Rdr) (he : r.err = none)
    (hr : r.evs = (written ls a).map .byte ++ .timeout :: rest) : unpackRsp r = (.error (.io .timeout), ⟨[], none, rest⟩) := by
  unfold unpackRsp
  rw [readLine_timeout he hr (written_cr ls hl a ha)]

example : ∀ l ∈ [b!"RTSP/1.0 200 OK", b!"CSeq: 1", []], (10 : UInt8) ∉ l := by decide

theorem sdpLine_passed {x : UInt8} (hx : visible x = true) (h1 : x ≠ 109) (h2 : x ≠ 97) (h3 : x ≠ 61) (t : Bytes) (st : SdpState) : sdpLine st (x :: t) = pure st := by
  have h0 : spaceLen (x :: t) = 0 := by
    have hb : ∀ c : UInt8, visible c = true → asciiSpace c = false ∧ c ≠ 0xC2 ∧ c ≠ 0xE1 ∧ c ≠ 0xE2 ∧ c ≠ 0xE3 := forall_u8 (by decide +kernel)
    obtain ⟨g1, g2, g3, g4, g5⟩ := hb x hx
    match t with
    | [] => simp [spaceLen, g1]
    | [b] => simp [spaceLen, g1, g2]
    | b :: c :: _ => simp [spaceLen, g1, g2, g3, g4, g5]
  have hp : ∃ u, trimSpace (x :: t) ++ u = x :: t := by
    unfold trimSpace
    rw [dropSpace_stop h0]
    obtain ⟨u, hu⟩ := dropSpace_suffix (len := spaceLenRev) (x :: t).length (x :: t).reverse
    refine ⟨u.reverse, ?_⟩
    dsimp only
    rw [← List.reverse_append, hu, List.reverse_reverse]
  obtain ⟨u, hu⟩ := hp
  unfold sdpLine splitN2
  cases hc : cut 61 (trimSpace (x :: t)) with
  | none => rfl
  | some p =>
    obtain ⟨k, v⟩ := p
    have hk := (cut_some hc).1
    rw [hk] at hu
    dsimp only
    cases k with
    | nil =>
      injection hu with hu _
      exact absurd hu.symm h3
    | cons y k =>
      injection hu with hu _
      subst hu
      rw [if_neg (by intro h; injection h with h _; exact h1 h), if_neg (by intro h; injection h with h _; exact h2 h)]

/-- Against C149: in a description of any lines that begins as they must, with a line for `v`, there are no feeds at all if the lines are ended by carriage returns alone. -/
theorem C149_description_refuted (t : Bytes) (ls : List Bytes) (ht : (10 : UInt8) ∉ t) (hl : ∀ l ∈ ls, (10 : UInt8) ∉ l) (a : List LineEnd) (ha : ∀ e ∈ a, e = .cr) :
    sdpParse (written ((118 :: t) :: ls) a) = .ok [] := by
  have hn : (10 : UInt8) ∉ written ((118 :: t) :: ls) a := by
    refine written_cr _ ?_ a ha
    intro l hm
    rcases List.mem_cons.1 hm with rfl | hm
    · simp [ht]
    · exact hl l hm
  unfold sdpParse
  rw [split_none hn]
  cases a with
  | nil => rfl
  | cons e a =>
    rw [written, List.cons_append, List.cons_append, sdpLines, sdpLine_passed (by decide) (by decide) (by decide) (by decide)]
    rfl

/-- With line feeds there is a feed. -/
example : sdpParse (written [b!"v=0", b!"m=video 0 RTP/AVP 96"] [.cr, .cr]) = .ok [] ∧ sdpParse (written [b!"v=0", b!"m=video 0 RTP/AVP 96"] [.lf, .lf]) ≠ .ok [] := by decide +kernel

end Ouro
