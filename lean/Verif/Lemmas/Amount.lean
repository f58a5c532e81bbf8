import Verif.Spec.Amount
import Verif.Lemmas.MainInv
import Verif.Lemmas.Clean
/-! # How much is read, and how much is sent for it -/
namespace Ouro
open Spec

/-! ## Reading -/

def bytesIn (net : List Ev) : Nat := (net.filter fun e => match e with | .byte _ => true | _ => false).length

theorem undelivered_mk (b : Bytes) (e : Option IOErr) (net : List Ev) : undelivered ⟨b, e, net⟩ = b.length + bytesIn net := rfl

theorem bytesIn_byte (b : UInt8) (t : List Ev) : bytesIn (.byte b :: t) = bytesIn t + 1 := rfl
theorem bytesIn_timeout (t : List Ev) : bytesIn (.timeout :: t) = bytesIn t := rfl
theorem bytesIn_reset (t : List Ev) : bytesIn (.reset :: t) = bytesIn t := rfl

theorem fillLoop_left (m : Nat) (net : List Ev) : ∀ buf, undelivered (fillLoop m buf net) = buf.length + bytesIn net := by
  induction net with
  | nil => intro buf; unfold fillLoop; split <;> rfl
  | cons e t ih =>
    intro buf
    cases e with
    | byte b =>
      unfold fillLoop
      split
      · rw [ih, bytesIn_byte, List.length_append, List.length_singleton]; omega
      · rfl
    | timeout => unfold fillLoop; split <;> rfl
    | reset => unfold fillLoop; split <;> rfl

theorem filled_left (r : Rdr) (m : Nat) : undelivered (if r.err = none then fillLoop m r.buf r.net else r) = undelivered r := by
  split
  · rw [fillLoop_left]; rfl
  · rfl

theorem peek_left (r : Rdr) (n : Nat) : undelivered (r.peek n).2 = undelivered r := by
  have := filled_left r (min n bufSize)
  unfold Rdr.peek
  dsimp only
  generalize (if r.err = none then fillLoop (min n bufSize) r.buf r.net else r) = q at this ⊢
  by_cases h1 : n > bufSize
  · rw [if_pos h1]; exact this
  · rw [if_neg h1]
    by_cases h2 : q.buf.length < n
    · rw [if_pos h2]
      cases q.err <;> exact this
    · rw [if_neg h2]; exact this

theorem readBytes_left (r : Rdr) (n : Nat) : undelivered (r.readBytes n).2 ≤ undelivered r := by
  have := peek_left r n
  unfold Rdr.readBytes
  cases h : r.peek n with
  | mk x r' =>
    rw [h] at this
    cases x with
    | ok b => show undelivered (r'.discard n) ≤ _; rw [← this]; unfold undelivered Rdr.discard; dsimp only; rw [List.length_drop]; omega
    | error e => exact Nat.le_of_eq this

theorem peek_ok_len {r r' : Rdr} {n : Nat} {b : Bytes} (h : r.peek n = (.ok b, r')) : n ≤ r'.buf.length ∧ b.length = n := by
  unfold Rdr.peek at h
  dsimp only at h
  generalize (if r.err = none then fillLoop (min n bufSize) r.buf r.net else r) = q at h
  by_cases h1 : n > bufSize
  · rw [if_pos h1] at h; injection h with h; cases h
  · rw [if_neg h1] at h
    by_cases hn : q.buf.length < n
    · rw [if_pos hn] at h
      cases hq : q.err <;> (rw [hq] at h; injection h with h; cases h)
    · rw [if_neg hn] at h
      injection h with h1 h2
      injection h1 with h1
      subst h1
      subst h2
      rw [List.length_take]
      exact ⟨by omega, by omega⟩

theorem readBytes_taken {r r' : Rdr} {n : Nat} {b : Bytes} (h : r.readBytes n = (.ok b, r')) : undelivered r' + n = undelivered r ∧ b.length = n := by
  have hp := peek_left r n
  unfold Rdr.readBytes at h
  cases hq : r.peek n with
  | mk x r1 =>
    rw [hq] at h hp
    cases x with
    | error e => injection h with h; cases h
    | ok b1 =>
      obtain ⟨h1, h2⟩ := peek_ok_len hq
      injection h with ha hb
      injection ha with ha
      subst ha
      subst hb
      refine ⟨?_, h2⟩
      rw [← hp]
      unfold undelivered Rdr.discard
      dsimp only
      rw [List.length_drop]
      omega

theorem lineLoop_left (net : List Ev) : ∀ acc, undelivered (lineLoop acc net).2 ≤ bytesIn net := by
  induction net with
  | nil => intro acc; exact Nat.le_refl _
  | cons e t ih =>
    intro acc
    cases e with
    | byte b =>
      unfold lineLoop
      split
      · rw [bytesIn_byte]; show 0 + bytesIn t ≤ _; omega
      · have := ih (acc ++ [b]); rw [bytesIn_byte]; omega
    | timeout => show 0 + bytesIn t ≤ bytesIn t; omega
    | reset => show 0 + bytesIn t ≤ bytesIn t; omega

theorem lineLoop_taken (net : List Ev) : ∀ acc l r', lineLoop acc net = (.ok l, r') → undelivered r' + l.length = acc.length + bytesIn net := by
  induction net with
  | nil => intro acc l r' h; injection h with h; cases h
  | cons e t ih =>
    intro acc l r' h
    cases e with
    | byte b =>
      unfold lineLoop at h
      split at h
      · injection h with h1 h2
        injection h1 with h1
        subst h1
        subst h2
        rw [bytesIn_byte, undelivered_mk, List.length_append]
        simp only [List.length_nil, List.length_singleton]
        omega
      · have := ih _ _ _ h
        rw [List.length_append, List.length_singleton] at this
        rw [bytesIn_byte]
        omega
    | timeout => injection h with h; cases h
    | reset => injection h with h; cases h

theorem readLine_left (r : Rdr) : undelivered r.readLine.2 ≤ undelivered r := by
  unfold Rdr.readLine
  cases hc : cut 10 r.buf with
  | some ab =>
    obtain ⟨a, b⟩ := ab
    have := congrArg List.length (cut_some hc).1
    rw [List.length_append, List.length_cons] at this
    show b.length + bytesIn r.net ≤ r.buf.length + bytesIn r.net
    omega
  | none =>
    dsimp only
    cases he : r.err with
    | some e => show 0 + bytesIn r.net ≤ r.buf.length + bytesIn r.net; omega
    | none => have := lineLoop_left r.net r.buf; exact Nat.le_trans this (Nat.le_add_left _ _)

theorem readLine_taken {r r' : Rdr} {l : Bytes} (h : r.readLine = (.ok l, r')) : undelivered r' + l.length = undelivered r := by
  unfold Rdr.readLine at h
  cases hc : cut 10 r.buf with
  | some ab =>
    obtain ⟨a, b⟩ := ab
    have := congrArg List.length (cut_some hc).1
    rw [List.length_append, List.length_cons] at this
    rw [hc] at h
    injection h with h1 h2
    injection h1 with h1
    subst h1
    subst h2
    show b.length + bytesIn r.net + (a ++ [10]).length = r.buf.length + bytesIn r.net
    rw [List.length_append, List.length_singleton]
    omega
  | none =>
    rw [hc] at h
    dsimp only at h
    cases he : r.err with
    | some e => rw [he] at h; injection h with h; cases h
    | none => rw [he] at h; exact lineLoop_taken _ _ _ _ h

theorem readLine_ne {r r' : Rdr} {l : Bytes} (h : r.readLine = (.ok l, r')) : 1 ≤ l.length := by
  have hl : ∀ (net : List Ev) acc, lineLoop acc net = (.ok l, r') → 1 ≤ l.length := by
    intro net
    induction net with
    | nil => intro acc h; injection h with h; cases h
    | cons e t ih =>
      intro acc h
      cases e with
      | byte b =>
        unfold lineLoop at h
        split at h
        · injection h with h1 h2
          injection h1 with h1
          subst h1
          rw [List.length_append, List.length_singleton]; omega
        · exact ih _ h
      | timeout => injection h with h; cases h
      | reset => injection h with h; cases h
  unfold Rdr.readLine at h
  cases hc : cut 10 r.buf with
  | some ab =>
    obtain ⟨a, b⟩ := ab
    rw [hc] at h
    injection h with h1 h2
    injection h1 with h1
    subst h1
    rw [List.length_append, List.length_singleton]; omega
  | none =>
    rw [hc] at h
    dsimp only at h
    cases he : r.err with
    | some e => rw [he] at h; injection h with h; cases h
    | none => rw [he] at h; exact hl _ _ h

theorem headerLoop_left (n : Nat) : ∀ (r : Rdr) (h : Header), undelivered (headerLoop n r h).2 ≤ undelivered r := by
  induction n with
  | zero => intro r h; exact Nat.le_refl _
  | succ n ih =>
    intro r h
    have hr := readLine_left r
    unfold headerLoop
    cases hl : r.readLine with
    | mk x r' =>
      rw [hl] at hr
      cases x with
      | error e => exact hr
      | ok line =>
        dsimp only
        split
        · exact hr
        · split
          · exact Nat.le_trans (ih _ _) hr
          · exact hr

theorem headerLoop_taken (n : Nat) : ∀ (r r' : Rdr) (h h' : Header), headerLoop n r h = (.ok h', r') → undelivered r' + 1 ≤ undelivered r := by
  induction n with
  | zero => intro r r' h h' e; injection e with e; cases e
  | succ n ih =>
    intro r r' h h' e
    unfold headerLoop at e
    cases hl : r.readLine with
    | mk x r1 =>
      rw [hl] at e
      cases x with
      | error e' => injection e with e; cases e
      | ok line =>
        have h1 := readLine_taken hl
        have h2 := readLine_ne hl
        dsimp only at e
        split at e
        · injection e with _ e; subst e; omega
        · split at e
          · have := ih _ _ _ _ e; omega
          · injection e with e; cases e

theorem statusLine_len {proto line status : Bytes} {code : Int} (h : statusLine proto line = .ok (status, code)) : proto.length + 1 + 3 ≤ line.length := by
  unfold statusLine at h
  cases hc : cut 32 line with
  | none => rw [hc] at h; cases h
  | some pr =>
    obtain ⟨p, rest⟩ := pr
    rw [hc] at h
    dsimp only at h
    split at h
    · cases h
    · rename_i hp
      have hp : p = proto := Classical.byContradiction hp
      have hl := congrArg List.length (cut_some hc).1
      rw [List.length_append, List.length_cons, hp] at hl
      have ht := (trimSpace_infix rest).length_le
      cases hc2 : cut 32 (trimSpace rest) with
      | none =>
        rw [hc2] at h
        dsimp only at h
        by_cases hlen : (trimSpace rest).length ≠ 3
        · rw [if_pos hlen] at h; cases h
        · omega
      | some cr =>
        obtain ⟨c, r2⟩ := cr
        rw [hc2] at h
        dsimp only at h
        have := congrArg List.length (cut_some hc2).1
        rw [List.length_append, List.length_cons] at this
        by_cases hlen : c.length ≠ 3
        · rw [if_pos hlen] at h; cases h
        · omega

theorem unpackRsp_left (r : Rdr) : undelivered (unpackRsp r).2 ≤ undelivered r := by
  have hr := readLine_left r
  unfold unpackRsp
  cases hl : r.readLine with
  | mk x r1 =>
    rw [hl] at hr
    cases x with
    | error e => exact hr
    | ok line =>
      dsimp only
      cases hs : statusLine b!"RTSP/1.0" line with
      | error e => exact hr
      | ok sc =>
        obtain ⟨status, code⟩ := sc
        dsimp only
        have hh := headerLoop_left (r1.buf.length + r1.net.length + 1) r1 []
        cases hq : headerLoop (r1.buf.length + r1.net.length + 1) r1 [] with
        | mk y r2 =>
          rw [hq] at hh
          cases y with
          | error e => exact Nat.le_trans hh hr
          | ok hd =>
            dsimp only
            split
            · have hb := readBytes_left r2 (contentLen (hd.get b!"Content-Length")).toNat
              split <;> (rename_i hz; rw [hz] at hb; exact Nat.le_trans hb (Nat.le_trans hh hr))
            · exact Nat.le_trans hh hr

/-- A response takes at least 13 bytes and its body. -/
theorem unpackRsp_taken {r r' : Rdr} {rsp : Response} (h : unpackRsp r = (.ok rsp, r')) : undelivered r' + 13 + (rsp.body.getD []).length ≤ undelivered r := by
  unfold unpackRsp at h
  cases hl : r.readLine with
  | mk x r1 =>
    rw [hl] at h
    cases x with
    | error e => injection h with h; cases h
    | ok line =>
      have h1 := readLine_taken hl
      dsimp only at h
      cases hs : statusLine b!"RTSP/1.0" line with
      | error e => rw [hs] at h; injection h with h; cases h
      | ok sc =>
        obtain ⟨status, code⟩ := sc
        rw [hs] at h
        dsimp only at h
        have h2 : 12 ≤ line.length := by
          have := statusLine_len hs
          have e : (b!"RTSP/1.0").length = 8 := by decide
          omega
        cases hq : headerLoop (r1.buf.length + r1.net.length + 1) r1 [] with
        | mk y r2 =>
          rw [hq] at h
          cases y with
          | error e => injection h with h; cases h
          | ok hd =>
            have h3 := headerLoop_taken _ _ _ _ _ hq
            dsimp only at h
            split at h
            · split at h
              · injection h with h; cases h
              · rename_i hz
                obtain ⟨h4, h5⟩ := readBytes_taken hz
                injection h with ha hb
                injection ha with ha
                subst ha
                subst hb
                dsimp only [Option.getD_some]
                omega
            · injection h with ha hb
              injection ha with ha
              subst ha
              subst hb
              dsimp only [Option.getD_none, List.length_nil]
              omega

theorem readByte_left (r : Rdr) : undelivered r.readByte.2 ≤ undelivered r := by
  have := filled_left r 1
  unfold Rdr.readByte
  dsimp only
  generalize (if r.err = none then fillLoop 1 r.buf r.net else r) = q at this ⊢
  obtain ⟨b, e, net⟩ := q
  rw [← this]
  cases b with
  | cons x t => show t.length + bytesIn net ≤ t.length + 1 + bytesIn net; omega
  | nil => cases e <;> exact Nat.le_refl _

theorem fullLoop_left (n : Nat) : ∀ (net : List Ev) (acc : Bytes), undelivered (fullLoop acc n net).2 ≤ bytesIn net := by
  induction n with
  | zero => intro net acc; show 0 + bytesIn net ≤ bytesIn net; omega
  | succ n ih =>
    intro net acc
    cases net with
    | nil => exact Nat.le_refl _
    | cons e t =>
      cases e with
      | byte b => have := ih t (acc ++ [b]); rw [bytesIn_byte]; show undelivered (fullLoop (acc ++ [b]) n t).2 ≤ _; omega
      | timeout => show 0 + bytesIn t ≤ bytesIn t; omega
      | reset => show 0 + bytesIn t ≤ bytesIn t; omega

theorem readUint16_left (r : Rdr) : undelivered r.readUint16.2 ≤ undelivered r := by
  have hf : undelivered (r.readFull 2).2 ≤ undelivered r := by
    unfold Rdr.readFull
    by_cases h : 2 ≤ r.buf.length
    · rw [if_pos h]; show (r.buf.drop 2).length + bytesIn r.net ≤ r.buf.length + bytesIn r.net; rw [List.length_drop]; omega
    · rw [if_neg h]
      cases he : r.err with
      | some e => show 0 + bytesIn r.net ≤ r.buf.length + bytesIn r.net; omega
      | none => have := fullLoop_left (2 - r.buf.length) r.net r.buf; exact Nat.le_trans this (Nat.le_add_left _ _)
  unfold Rdr.readUint16
  cases h : r.readFull 2 with
  | mk x r' => rw [h] at hf; cases x <;> exact hf

theorem recvFrame_left (r : Rdr) : undelivered (recvFrame r).2 ≤ undelivered r := by
  have h0 : undelivered (r.discard 1) ≤ undelivered r := by
    show (r.buf.drop 1).length + bytesIn r.net ≤ r.buf.length + bytesIn r.net; rw [List.length_drop]; omega
  have h1 := readByte_left (r.discard 1)
  unfold recvFrame
  cases hb : (r.discard 1).readByte with
  | mk x r1 =>
    rw [hb] at h1
    cases x with
    | error e => exact Nat.le_trans h1 h0
    | ok ch =>
      dsimp only
      have h2 := readUint16_left r1
      cases hu : r1.readUint16 with
      | mk y r2 =>
        rw [hu] at h2
        cases y with
        | error e => exact Nat.le_trans h2 (Nat.le_trans h1 h0)
        | ok n =>
          dsimp only
          have h3 := readBytes_left r2 n
          cases hz : r2.readBytes n with
          | mk z r3 => rw [hz] at h3; cases z <;> exact Nat.le_trans h3 (Nat.le_trans h2 (Nat.le_trans h1 h0))

theorem recvFrame_frame {r r' : Rdr} {i : Item} (h : recvFrame r = (.ok i, r')) : ∃ ch p, i = .frame ch p := by
  unfold recvFrame at h
  split at h
  · injection h with h; cases h
  · split at h
    · injection h with h; cases h
    · split at h
      · injection h with h; cases h
      · injection h with h; injection h with h; exact ⟨_, _, h.symm⟩

theorem recv_left (r : Rdr) : undelivered (recv r).2 ≤ undelivered r := by
  have h1 := peek_left r 1
  unfold recv
  cases hp : r.peek 1 with
  | mk x r1 =>
    rw [hp] at h1
    cases x with
    | error e => exact Nat.le_of_eq h1
    | ok b =>
      dsimp only
      by_cases hb : b = [36]
      · rw [if_pos hb]; exact h1 ▸ recvFrame_left r1
      · rw [if_neg hb]
        have h2 := unpackRsp_left r1
        cases hu : unpackRsp r1 with
        | mk y r2 => rw [hu] at h2; rw [← h1]; cases y <;> exact h2

theorem recv_taken {r r' : Rdr} {rsp : Response} (h : recv r = (.ok (.response rsp), r')) : undelivered r' + 13 + (rsp.body.getD []).length ≤ undelivered r := by
  have h1 := peek_left r 1
  unfold recv at h
  cases hp : r.peek 1 with
  | mk x r1 =>
    rw [hp] at h1 h
    cases x with
    | error e => injection h with h; cases h
    | ok b =>
      dsimp only at h
      by_cases hb : b = [36]
      · rw [if_pos hb] at h; obtain ⟨_, _, e⟩ := recvFrame_frame h; cases e
      · rw [if_neg hb] at h
        cases hu : unpackRsp r1 with
        | mk y r2 =>
          rw [hu] at h
          cases y with
          | error e => injection h with h; cases h
          | ok rsp' =>
            injection h with ha hb
            injection ha with ha
            injection ha with ha
            subst ha
            subst hb
            rw [← h1]
            exact unpackRsp_taken hu

/-! ## Video sections -/

theorem split_weight (c : UInt8) (s : Bytes) : ((split c s).map fun l => l.length + 1).sum = s.length + 1 := by
  induction s with
  | nil => rfl
  | cons x xs ih =>
    rw [split]
    by_cases h : x = c
    · rw [if_pos h, List.map_cons, List.sum_cons, ih, List.length_cons, List.length_nil]; omega
    · rw [if_neg h]
      cases hs : split c xs with
      | nil => rw [hs] at ih; simp at ih
      | cons y ys =>
        rw [hs] at ih
        dsimp only
        rw [List.map_cons, List.sum_cons] at ih ⊢
        rw [List.length_cons, List.length_cons]
        omega

theorem dropSpace_first {len : Bytes → Nat} (hl : ∀ s, len s ≠ 0 → s ≠ []) (n : Nat) : ∀ s : Bytes, s.length ≤ n → len (dropSpace len n s) = 0 := by
  induction n with
  | zero =>
    intro s hs
    cases s with
    | nil => exact Classical.byContradiction fun h => hl _ h rfl
    | cons => simp at hs
  | succ n ih =>
    intro s hs
    rw [dropSpace]
    by_cases h : len s = 0
    · rw [if_pos h]; exact h
    · rw [if_neg h]
      refine ih _ ?_
      have := hl s h
      rw [List.length_drop]
      omega

/-- A trimmed string does not end with a space. -/
theorem trimSpace_last (s t : Bytes) : trimSpace s ≠ t ++ [32] := by
  intro h
  have h0 := dropSpace_first (len := spaceLenRev) (fun s h e => by subst e; exact h rfl) (dropSpace spaceLen s.length s).length (dropSpace spaceLen s.length s).reverse (by simp)
  have h1 : dropSpace spaceLenRev (dropSpace spaceLen s.length s).length (dropSpace spaceLen s.length s).reverse = 32 :: t.reverse := by
    have := congrArg List.reverse h
    unfold trimSpace at this
    rw [List.reverse_reverse, List.reverse_append] at this
    exact this
  rw [h1] at h0
  have h2 : ∀ u : Bytes, spaceLenRev (32 :: u) = 1 := by
    intro u
    rcases u with _ | ⟨a, _ | ⟨b, u⟩⟩ <;> rfl
  rw [h2] at h0
  cases h0

theorem splitN2_two {c : UInt8} {s a b : Bytes} (h : splitN2 c s = [a, b]) : s = a ++ c :: b := by
  unfold splitN2 at h
  cases hc : cut c s with
  | none => rw [hc] at h; cases h
  | some p => obtain ⟨x, y⟩ := p; rw [hc] at h; injection h with h1 h2; injection h2 with h2; subst h1; subst h2; exact (cut_some hc).1

theorem modifyLast_length (f : Media → Media) : ∀ l, (modifyLast f l).length = l.length
  | [] => rfl
  | [_] => rfl
  | _ :: n :: t => by rw [modifyLast, List.length_cons, List.length_cons, modifyLast_length f (n :: t)]

/-- A line adds a feed only if it has nine bytes. -/
theorem sdpLine_weight {st st' : SdpState} {line : Bytes} (h : sdpLine st line = .ok st') : 10 * st'.feeds.length ≤ 10 * st.feeds.length + (line.length + 1) := by
  unfold sdpLine at h
  split at h
  · rename_i key val hkv
    dsimp only at h
    have h1 := splitN2_two hkv
    by_cases hk : key = b!"m"
    · rw [if_pos hk] at h
      unfold sdpMedia at h
      cases hf : splitN2 32 val with
      | nil => rw [hf] at h; cases h
      | cons f0 fs =>
        rw [hf] at h
        simp only [idx, List.getElem?_cons_zero, bind, Except.bind] at h
        by_cases hv : f0 = b!"video"
        · rw [if_pos hv] at h
          cases fs with
          | nil => cases h
          | cons f1 fs =>
            have hfs : fs = [] := by
              unfold splitN2 at hf
              split at hf
              · injection hf with _ hf; cases hf
              · injection hf with _ hf; injection hf with _ hf; exact hf.symm
            subst hfs
            have h2 := splitN2_two hf
            have hne : f1 ≠ [] := by
              intro e
              rw [hk, h2, hv, e] at h1
              exact trimSpace_last line (b!"m=video") h1
            have hlen : 9 ≤ line.length := by
              have ht := (trimSpace_infix line).length_le
              have := congrArg List.length h1
              rw [hk, h2, hv] at this
              have hp : 0 < f1.length := by cases f1 with | nil => exact absurd rfl hne | cons => simp
              have e1 : (b!"m").length = 1 := by decide
              have e2 : (b!"video").length = 5 := by decide
              simp only [List.length_append, List.length_cons, e1, e2] at this
              omega
            have hl : st'.feeds.length = st.feeds.length + 1 := by
              split at h
              · cases h
              · split at h
                · cases h
                · injection h with h; subst h; simp
            omega
        · rw [if_neg hv] at h
          injection h with h; subst h
          show 10 * st.feeds.length ≤ _; omega
    · rw [if_neg hk] at h
      split at h
      · split at h
        · injection h with h; subst h
          show 10 * (modifyLast _ st.feeds).length ≤ _
          rw [modifyLast_length]; omega
        · injection h with h; subst h; omega
      · injection h with h; subst h; omega
  · injection h with h; subst h; omega

theorem sdpLines_weight : ∀ (ls : List Bytes) {st st' : SdpState}, sdpLines st ls = .ok st' →
    10 * st'.feeds.length ≤ 10 * st.feeds.length + (ls.map fun l => l.length + 1).sum := by
  intro ls
  induction ls with
  | nil => intro st st' h; injection h with h; subst h; exact Nat.le_add_right _ _
  | cons l ls ih =>
    intro st st' h
    rw [sdpLines] at h
    cases hl : sdpLine st l with
    | error p => rw [hl] at h; cases h
    | ok st1 =>
      rw [hl] at h
      have h1 := sdpLine_weight hl
      have h2 := ih h
      rw [List.map_cons, List.sum_cons]
      omega

theorem parseFeeds_weight {proto : Proto} {buf : Bytes} {fs : List Feed} (h : parseFeeds proto buf = .ok fs) : 10 * fs.length ≤ buf.length + 1 := by
  unfold parseFeeds sdpParse at h
  cases hl : sdpLines ⟨[], false⟩ (split 10 buf) with
  | error p => rw [hl] at h; cases h
  | ok st =>
    rw [hl] at h
    injection h with h
    have h1 := sdpLines_weight _ hl
    rw [split_weight] at h1
    have hf : ∀ (ms : List Media) (i : Nat), (feedsFrom proto i ms).length = ms.length := by
      intro ms
      induction ms with
      | nil => intro i; rfl
      | cons m ms ih => intro i; rw [feedsFrom, List.length_cons, List.length_cons, ih]
    rw [← h, hf]
    exact Nat.le_trans h1 (by simp)

end Ouro
