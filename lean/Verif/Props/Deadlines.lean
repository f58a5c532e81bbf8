import Verif.Spec.Deadlines
import Verif.Props.Receive
import Verif.Lemmas.Amount
import Verif.Lemmas.Chunks
/-! # C54, exactly: where a read deadline may expire -/
namespace Ouro
open Spec

/-! ## What a frame costs -/

theorem readByte_taken {r r' : Rdr} {b : UInt8} (h : r.readByte = (.ok b, r')) : undelivered r' + 1 = undelivered r := by
  have := filled_left r 1
  unfold Rdr.readByte at h
  dsimp only at h
  generalize (if r.err = none then fillLoop 1 r.buf r.net else r) = q at this h
  obtain ⟨c, e, net⟩ := q
  rw [← this]
  cases c with
  | cons x t =>
    injection h with _ h
    subst h
    show t.length + bytesIn net + 1 = t.length + 1 + bytesIn net
    omega
  | nil => cases e <;> (injection h with h; cases h)

theorem fullLoop_taken (n : Nat) : ∀ (net : List Ev) (acc b : Bytes) (r' : Rdr), fullLoop acc n net = (.ok b, r') → undelivered r' + n = bytesIn net := by
  induction n with
  | zero =>
    intro net acc b r' h
    injection h with _ h
    subst h
    show 0 + bytesIn net + 0 = _
    omega
  | succ n ih =>
    intro net acc b r' h
    cases net with
    | nil => injection h with h; cases h
    | cons e t =>
      cases e with
      | byte x => have := ih t _ _ _ h; rw [bytesIn_byte]; omega
      | timeout => injection h with h; cases h
      | reset => injection h with h; cases h

theorem readUint16_taken {r r' : Rdr} {n : Nat} (h : r.readUint16 = (.ok n, r')) : undelivered r' + 2 = undelivered r := by
  unfold Rdr.readUint16 at h
  cases hf : r.readFull 2 with
  | mk x q =>
    rw [hf] at h
    cases x with
    | error e => injection h with h; cases h
    | ok b =>
      injection h with _ h
      subst h
      unfold Rdr.readFull at hf
      by_cases hb : 2 ≤ r.buf.length
      · rw [if_pos hb] at hf
        injection hf with _ hf
        subst hf
        show (r.buf.drop 2).length + bytesIn r.net + 2 = r.buf.length + bytesIn r.net
        rw [List.length_drop]; omega
      · rw [if_neg hb] at hf
        cases he : r.err with
        | some e => rw [he] at hf; injection hf with hf; cases hf
        | none =>
          rw [he] at hf
          have := fullLoop_taken _ _ _ _ _ hf
          show _ = r.buf.length + bytesIn r.net
          omega

/-- The bytes of an item that is a frame. -/
def costOf : Item → Nat
  | .frame _ p => 4 + p.length
  | .response _ => 0

theorem recvFrame_spent (r : Rdr) (h : 1 ≤ r.buf.length) : undelivered (recvFrame r).2 + 1 ≤ undelivered r ∧
    ∀ i r', recvFrame r = (.ok i, r') → undelivered r' + costOf i = undelivered r := by
  have h0 : undelivered (r.discard 1) + 1 = undelivered r := by
    show (r.buf.drop 1).length + bytesIn r.net + 1 = r.buf.length + bytesIn r.net; rw [List.length_drop]; omega
  have h1 := readByte_left (r.discard 1)
  unfold recvFrame
  cases hb : (r.discard 1).readByte with
  | mk x r1 =>
    rw [hb] at h1
    dsimp only at h1
    cases x with
    | error e => exact ⟨by dsimp only; omega, fun i r' hh => by injection hh with hh; cases hh⟩
    | ok ch =>
      dsimp only
      have h1' := readByte_taken hb
      have h2 := readUint16_left r1
      cases hu : r1.readUint16 with
      | mk y r2 =>
        rw [hu] at h2
        dsimp only at h2
        cases y with
        | error e => exact ⟨by dsimp only; omega, fun i r' hh => by injection hh with hh; cases hh⟩
        | ok n =>
          dsimp only
          have h2' := readUint16_taken hu
          have h3 := readBytes_left r2 n
          cases hz : r2.readBytes n with
          | mk z r3 =>
            rw [hz] at h3
            dsimp only at h3
            cases z with
            | error e => exact ⟨by dsimp only; omega, fun i r' hh => by injection hh with hh; cases hh⟩
            | ok p =>
              obtain ⟨h4, h5⟩ := readBytes_taken hz
              refine ⟨by dsimp only; omega, fun i r' hh => ?_⟩
              injection hh with ha hb
              injection ha with ha
              subst ha
              subst hb
              show undelivered r3 + (4 + p.length) = _
              omega

theorem recv_cost {r r' : Rdr} {i : Item} (h : recv r = (.ok i, r')) : undelivered r' + costOf i ≤ undelivered r := by
  cases i with
  | response rsp => have := recv_left r; rw [h] at this; exact this
  | frame ch p =>
    have h1 := peek_left r 1
    unfold recv at h
    cases hp : r.peek 1 with
    | mk x r1 =>
      rw [hp] at h1 h
      cases x with
      | error e => injection h with h; cases h
      | ok b =>
        dsimp only at h h1
        by_cases hb : b = [36]
        · rw [if_pos hb] at h
          have := (recvFrame_spent r1 (peek_ok_len hp).1).2 _ _ h
          omega
        · rw [if_neg hb] at h
          cases hu : unpackRsp r1 with
          | mk y r2 =>
            rw [hu] at h
            cases y <;> (injection h with h; cases h)

theorem procN_cost : ∀ (n : Nat) (p : Proc (List Item)), ∃ new, (procN logItem n p).state = p.state ++ new ∧ (new.map costOf).sum ≤ undelivered p.rdr := by
  intro n
  induction n with
  | zero => exact fun p => ⟨[], (List.append_nil _).symm, Nat.zero_le _⟩
  | succ n ih =>
    intro p
    obtain ⟨new, h1, h2⟩ := ih (procStep logItem p)
    rw [procN, h1]
    cases hr : p.running with
    | false =>
      have : procStep logItem p = p := by unfold procStep; rw [hr]; rfl
      rw [this] at h2 ⊢
      exact ⟨new, rfl, h2⟩
    | true =>
      have hl := recv_left p.rdr
      cases hv : recv p.rdr with
      | mk x q =>
        rw [hv] at hl
        dsimp only at hl
        cases x with
        | ok i =>
          have : procStep logItem p = ⟨q, p.state ++ [i], true⟩ := by unfold procStep; rw [hr, if_pos rfl, hv]; rfl
          have hc := recv_cost hv
          rw [this] at h2 ⊢
          refine ⟨i :: new, by simp, ?_⟩
          dsimp only at h2
          simp only [List.map_cons, List.sum_cons]
          omega
        | error e =>
          have : (procStep logItem p).rdr = q ∧ (procStep logItem p).state = p.state := by
            unfold procStep; rw [hr, if_pos rfl, hv]
            split <;> simp_all
          rw [this.1] at h2
          rw [this.2]
          exact ⟨new, rfl, by omega⟩

/-! ## A frame that is taken was there in one run of bytes -/

theorem lead_take {l : List Ev} {n : Nat} (h : n ≤ (leadBytes l).length) : l = ((leadBytes l).take n).map .byte ++ l.drop n := by
  induction n generalizing l with
  | zero => rfl
  | succ n ih =>
    cases l with
    | nil => simp [leadBytes] at h
    | cons e t =>
      cases e with
      | byte b =>
        simp only [leadBytes, List.length_cons] at h
        have := ih (l := t) (by omega)
        simp only [leadBytes, List.take_succ_cons, List.map_cons, List.drop_succ_cons, List.cons_append]
        rw [← this]
      | timeout => simp [leadBytes] at h
      | reset => simp [leadBytes] at h

theorem peek_inv {r r' : Rdr} {n : Nat} {b : Bytes} (he : r.err = none) (h : r.peek n = (.ok b, r')) :
    b.length = n ∧ r.evs = b.map .byte ++ (r'.discard n).evs ∧ (r'.discard n).err = none := by
  rcases Nat.lt_or_ge bufSize n with hb | hb
  · obtain ⟨q, hq⟩ := byte_meets.peek_full r n he hb
    have hq' : r.peek n = _ := hq
    rw [hq'] at h; injection h with h; cases h
  · rcases Nat.lt_or_ge (leadBytes r.evs).length n with hl | hl
    · obtain ⟨q, hq, _⟩ := byte_meets.peek_err r n he hb hl
      have hq' : r.peek n = _ := hq
      rw [hq'] at h; injection h with h; cases h
    · obtain ⟨q, hq, _, _, h4, h5⟩ := byte_meets.peek_ok r n he hb hl
      have hq' : r.peek n = _ := hq
      rw [hq'] at h
      injection h with h1 h2
      injection h1 with h1
      subst h1
      subst h2
      refine ⟨by rw [List.length_take]; omega, ?_, h4⟩
      have h5' : (q.discard n).evs = r.evs.drop n := h5
      rw [h5']
      exact lead_take hl

theorem readByte_inv {r r' : Rdr} {b : UInt8} (he : r.err = none) (h : r.readByte = (.ok b, r')) : r.evs = .byte b :: r'.evs ∧ r'.err = none := by
  cases hl : leadBytes r.evs with
  | nil =>
    obtain ⟨q, hq, _⟩ := byte_meets.byte_err r he hl
    have hq' : r.readByte = _ := hq
    rw [hq'] at h; injection h with h; cases h
  | cons x xs =>
    have hs := lead_split r.evs
    rw [hl] at hs
    obtain ⟨q, hq, h2, h3⟩ := byte_meets.byte_ok r x (xs.map Ev.byte ++ afterLead r.evs) he hs
    have hq' : r.readByte = _ := hq
    rw [hq'] at h
    injection h with ha hb
    injection ha with ha
    subst ha
    subst hb
    exact ⟨by rw [h3]; exact hs, h2⟩

theorem readUint16_inv {r r' : Rdr} {n : Nat} (he : r.err = none) (h : r.readUint16 = (.ok n, r')) :
    r.evs = .byte (UInt8.ofNat (n / 256)) :: .byte (UInt8.ofNat (n % 256)) :: r'.evs ∧ r'.err = none := by
  rcases Nat.lt_or_ge (leadBytes r.evs).length 2 with hl | hl
  · obtain ⟨q, hq, _⟩ := byte_meets.full_err r 2 he hl
    have hq' : r.readFull 2 = _ := hq
    unfold Rdr.readUint16 at h
    rw [hq'] at h; injection h with h; cases h
  · have hs := lead_take hl
    have hlen : ((leadBytes r.evs).take 2).length = 2 := by rw [List.length_take]; omega
    obtain ⟨x, y, hxy⟩ : ∃ x y, (leadBytes r.evs).take 2 = [x, y] := by
      match (leadBytes r.evs).take 2, hlen with
      | [x, y], _ => exact ⟨x, y, rfl⟩
    rw [hxy] at hs
    obtain ⟨q, hq, h2, h3⟩ := byte_meets.full_ok r [x, y] _ he hs
    have hq' : r.readFull 2 = (.ok [x, y], q) := hq
    unfold Rdr.readUint16 at h
    rw [hq'] at h
    injection h with ha hb
    injection ha with ha
    subst hb
    have hn : n = x.toNat * 256 + y.toNat := by rw [← ha]; simp
    have hx := x.toNat_lt
    have hy := y.toNat_lt
    have e1 : n / 256 = x.toNat := by omega
    have e2 : n % 256 = y.toNat := by omega
    rw [e1, e2, h3]
    refine ⟨?_, h2⟩
    simp only [UInt8.ofNat_toNat]
    exact hs

theorem recv_frame_inv {r r' : Rdr} {ch : UInt8} {p : Bytes} (he : r.err = none) (h : recv r = (.ok (.frame ch p), r')) :
    r.evs = (Msg.frame ch p).bytes.map .byte ++ r'.evs ∧ r'.err = none := by
  unfold recv at h
  cases hp : r.peek 1 with
  | mk x r1 =>
    rw [hp] at h
    cases x with
    | error e => injection h with h; cases h
    | ok b =>
      dsimp only at h
      obtain ⟨_, p2, p3⟩ := peek_inv he hp
      by_cases hb : b = [36]
      · rw [if_pos hb] at h
        subst hb
        unfold recvFrame at h
        cases hx : (r1.discard 1).readByte with
        | mk x r2 =>
          rw [hx] at h
          cases x with
          | error e => injection h with h; cases h
          | ok c =>
            dsimp only at h
            obtain ⟨b1, b2⟩ := readByte_inv p3 hx
            cases hu : r2.readUint16 with
            | mk y r3 =>
              rw [hu] at h
              cases y with
              | error e => injection h with h; cases h
              | ok n =>
                dsimp only at h
                obtain ⟨u1, u2⟩ := readUint16_inv b2 hu
                cases hz : r3.readBytes n with
                | mk z r4 =>
                  rw [hz] at h
                  cases z with
                  | error e => injection h with h; cases h
                  | ok q =>
                    injection h with ha hb
                    injection ha with ha
                    injection ha with ha1 ha2
                    subst ha1
                    subst ha2
                    subst hb
                    unfold Rdr.readBytes at hz
                    cases hw : r3.peek n with
                    | mk w r5 =>
                      rw [hw] at hz
                      cases w with
                      | error e => injection hz with hz; cases hz
                      | ok bs =>
                        injection hz with hz1 hz2
                        injection hz1 with hz1
                        subst hz1
                        subst hz2
                        obtain ⟨w1, w2, w3⟩ := peek_inv u2 hw
                        refine ⟨?_, w3⟩
                        rw [p2, b1, u1, w2]
                        simp [Msg.bytes, w1]
      · rw [if_neg hb] at h
        cases hu : unpackRsp r1 with
        | mk y r2 =>
          rw [hu] at h
          cases y <;> (injection h with h; cases h)

theorem bytesOf_append (a b : List Ev) : bytesOf (a ++ b) = bytesOf a ++ bytesOf b := by
  induction a with
  | nil => rfl
  | cons e t ih => cases e <;> simp [bytesOf, ih]

theorem bytesOf_map (b : Bytes) : bytesOf (b.map .byte) = b := by
  induction b with
  | nil => rfl
  | cons x t ih => simp [bytesOf, ih]

theorem bytesIn_eq (l : List Ev) : bytesIn l = (bytesOf l).length := by
  induction l with
  | nil => rfl
  | cons e t ih => cases e <;> simp [bytesOf, ← ih, bytesIn]

theorem undelivered_evs (r : Rdr) : undelivered r = (bytesOf r.evs).length := by
  unfold Rdr.evs
  rw [bytesOf_append, bytesOf_map, List.length_append, ← bytesIn_eq]
  rfl

theorem costs (fs : List (UInt8 × Bytes)) : (((framesOf fs).flatMap Msg.bytes)).length = ((fs.map fun f => Item.frame f.1 f.2).map costOf).sum := by
  induction fs with
  | nil => rfl
  | cons f fs ih =>
    unfold framesOf at *
    simp only [List.map_cons, List.flatMap_cons, List.length_append, List.sum_cons, ih]
    congr 1
    simp [Msg.bytes, costOf]
    omega

theorem arrives_of_log : ∀ (n : Nat) (fs : List (UInt8 × Bytes)) (r : Rdr) (log : List Item), r.err = none → Ev.reset ∉ r.evs →
    bytesOf r.evs = (framesOf fs).flatMap Msg.bytes →
    (procN logItem n ⟨r, log, true⟩).state = log ++ fs.map (fun f => .frame f.1 f.2) → ∃ steps, Arrives (framesOf fs) steps r.evs [] := by
  intro n
  induction n with
  | zero =>
    intro fs r log he hn hb hs
    have hs' : log = log ++ fs.map (fun f => Item.frame f.1 f.2) := hs
    have : fs = [] := by
      have := congrArg List.length hs'
      simp at this
      exact this
    subst this
    generalize r.evs = evs at hn hb
    induction evs with
    | nil => exact ⟨0, .nil []⟩
    | cons e t ih =>
      cases e with
      | byte b => cases hb
      | timeout =>
        obtain ⟨k, hk⟩ := ih (fun h => hn (List.mem_cons_of_mem _ h)) hb
        exact ⟨k + 1, .timeout hk⟩
      | reset => exact absurd List.mem_cons_self hn
  | succ n ih =>
    intro fs r log he hn hb hs
    rw [procN] at hs
    cases hev : r.evs with
    | nil =>
      rw [hev] at hb
      cases fs with
      | nil => exact ⟨0, .nil []⟩
      | cons f fs => simp [bytesOf, framesOf, Msg.bytes] at hb
    | cons e t =>
      cases e with
      | reset => rw [hev] at hn; exact absurd List.mem_cons_self hn
      | timeout =>
        rw [hev] at hn hb
        have hstep : procStep logItem ⟨r, log, true⟩ = ⟨⟨[], none, t⟩, log, true⟩ := by
          rw [procStep, if_pos rfl, recv_timeout he hev]
        rw [hstep] at hs
        obtain ⟨k, hk⟩ := ih fs ⟨[], none, t⟩ log rfl (fun h => hn (List.mem_cons_of_mem _ h)) hb hs
        exact ⟨k + 1, .timeout hk⟩
      | byte b =>
        cases fs with
        | nil => rw [hev] at hb; cases hb
        | cons f fs =>
          have hund : undelivered r = (((f :: fs).map fun f => Item.frame f.1 f.2).map costOf).sum := by rw [undelivered_evs, hb, costs]
          cases hv : recv r with
          | mk x q =>
            cases x with
            | ok i =>
              have hstep : procStep logItem ⟨r, log, true⟩ = ⟨q, log ++ [i], true⟩ := by rw [procStep, if_pos rfl, hv]; rfl
              rw [hstep] at hs
              obtain ⟨new, h1, _⟩ := procN_cost n ⟨q, log ++ [i], true⟩
              have hi : i = .frame f.1 f.2 := by
                rw [h1] at hs
                dsimp only at hs
                rw [List.append_assoc] at hs
                have := List.append_cancel_left hs
                simp only [List.map_cons, List.singleton_append, List.cons.injEq] at this
                exact this.1
              subst hi
              obtain ⟨v1, v2⟩ := recv_frame_inv he hv
              have hb' : bytesOf q.evs = (framesOf fs).flatMap Msg.bytes := by
                rw [v1, bytesOf_append, bytesOf_map] at hb
                exact List.append_cancel_left hb
              have hn' : Ev.reset ∉ q.evs := by
                rw [v1] at hn
                exact fun h => hn (List.mem_append_right _ h)
              obtain ⟨k, hk⟩ := ih fs q (log ++ [.frame f.1 f.2]) v2 hn' hb' (by rw [hs]; simp)
              refine ⟨k + 1, ?_⟩
              rw [← hev, v1]
              exact .msg hk
            | error e =>
              exfalso
              have hstep : (procStep logItem ⟨r, log, true⟩).rdr = q ∧ (procStep logItem ⟨r, log, true⟩).state = log := by
                rw [procStep, if_pos rfl, hv]
                split <;> simp_all
              obtain ⟨new, h1, h2⟩ := procN_cost n (procStep logItem ⟨r, log, true⟩)
              rw [hstep.2] at h1
              rw [hstep.1] at h2
              rw [hs] at h1
              have := List.append_cancel_left h1
              subst this
              have hlost : undelivered q + 1 ≤ undelivered r := by
                have hb1 : b = 36 := by
                  rw [hev] at hb
                  simp [bytesOf, framesOf, Msg.bytes] at hb
                  exact hb.1
                subst hb1
                obtain ⟨r1, p1, _, p3, _⟩ := byte_meets.peek_ok r 1 he (by decide) (by rw [hev]; simp [leadBytes])
                have p1' : r.peek 1 = (.ok ((leadBytes r.evs).take 1), r1) := p1
                have hl : (leadBytes r.evs).take 1 = [36] := by rw [hev]; rfl
                rw [hl] at p1'
                have h1 := peek_left r 1
                rw [p1'] at h1
                unfold recv at hv
                rw [p1'] at hv
                dsimp only at hv h1
                rw [if_pos rfl] at hv
                have := (recvFrame_spent r1 (peek_ok_len p1').1).1
                rw [hv] at this
                dsimp only at this
                omega
              omega

/-- **C54.** Frames arrive, all their bytes in order, with read deadlines expiring any number of times anywhere among them. All the frames are delivered,
and nothing else, exactly if the deadlines expire between frames. -/
theorem C54_iff (fs : List (UInt8 × Bytes)) (hf : ∀ f ∈ fs, f.2.length ≤ 2048) (evs : List Ev) (hb : bytesOf evs = (framesOf fs).flatMap Msg.bytes)
    (hn : Ev.reset ∉ evs) :
    (∃ turns, (procN logItem turns ⟨⟨[], none, evs⟩, [], true⟩).state = fs.map fun f => Item.frame f.1 f.2) ↔
      ∃ steps, Arrives (framesOf fs) steps evs [] := by
  constructor
  · rintro ⟨n, h⟩
    exact arrives_of_log n fs ⟨[], none, evs⟩ [] rfl hn hb h
  · rintro ⟨k, h⟩
    obtain ⟨r', h1, _⟩ := procN_arrives (framesOf fs) (by
      intro m hm
      obtain ⟨f, h1, rfl⟩ := List.mem_map.1 hm
      have := hf f h1
      exact ⟨show f.2.length ≤ 65535 by omega, this⟩) k evs [] h ⟨[], none, evs⟩ rfl rfl []
    refine ⟨k, ?_⟩
    rw [h1]
    simp [framesOf, itemOf]

/-- A deadline between two frames and one after them: all is delivered. -/
example : ∃ turns, (procN logItem turns ⟨⟨[], none, [.byte 36, .byte 0, .byte 0, .byte 1, .byte 7, .timeout, .byte 36, .byte 1, .byte 0, .byte 0, .timeout]⟩, [], true⟩).state =
    [(0, [7]), (1, [])].map fun f : UInt8 × Bytes => Item.frame f.1 f.2 :=
  (C54_iff [(0, [7]), (1, [])] (by decide) _ (by decide) (by decide)).2 ⟨4, .msg (ms := [.frame 1 []]) (.timeout (.msg (.timeout (.nil []))))⟩

/-- The same frames with the deadline one byte earlier: not all, however long one waits. -/
example : ¬ ∃ turns, (procN logItem turns ⟨⟨[], none, [.byte 36, .byte 0, .byte 0, .byte 1, .timeout, .byte 7, .byte 36, .byte 1, .byte 0, .byte 0]⟩, [], true⟩).state =
    [(0, [7]), (1, [])].map fun f : UInt8 × Bytes => Item.frame f.1 f.2 := by
  rw [C54_iff [(0, [7]), (1, [])] (by decide) _ (by decide) (by decide)]
  rintro ⟨k, h⟩
  generalize hx : [Ev.byte 36, .byte 0, .byte 0, .byte 1, .timeout, .byte 7, .byte 36, .byte 1, .byte 0, .byte 0] = evs at h
  cases h with
  | timeout _ => cases hx
  | msg _ => simp [Msg.bytes] at hx

end Ouro
