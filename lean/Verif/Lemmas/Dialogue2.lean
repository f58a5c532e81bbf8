import Verif.Lemmas.Dialogue
/-! # Lemmas for C84: the client with a server that grants its requests -/
namespace Ouro
open Spec

/-- A CSeq number that fits in an `int`. -/
def SmallSeq (q : Request) : Prop := ∃ n : Nat, n < 2 ^ 63 ∧ q.cseq = n

theorem coop_legal {w : World} {tm : Terms} {k : Nat} {q : Request} {x : Sent} (hc : Cooperates w tm k q x) (hs : SmallSeq q) : (Msg.response x).Legal := by
  obtain ⟨n, hn, e⟩ := hs
  exact ⟨hc.wf, n, hn, by rw [hc.cseq, e, itoa_nat]⟩

/-- What is on its way to the client: the number of the first request answered, the requests answered, and the number of packets and deadlines before the first response. -/
inductive Fly (w : World) (tm : Terms) : Nat → List Request → Nat → List Ev → Prop
  | nil {j} : Fly w tm j [] 0 []
  | quiet {j qs n evs} : Fly w tm j qs n evs → Fly w tm j qs (n + 1) (.timeout :: evs)
  | frame {j qs n evs ch p} : UsableFrame ch p → Fly w tm j qs n evs → Fly w tm j qs (n + 1) ((Msg.frame ch p).bytes.map .byte ++ evs)
  | resp {j qs n evs q x} : Cooperates w tm j q x → SmallSeq q → Fly w tm (j + 1) qs n evs → Fly w tm j (q :: qs) 0 ((Msg.response x).bytes.map .byte ++ evs)

theorem Fly.addQuiet {w : World} {tm : Terms} {j : Nat} {qs : List Request} {n : Nat} {evs : List Ev} (h : Fly w tm j qs n evs) :
    ∃ n', Fly w tm j qs n' (evs ++ [.timeout]) ∧ (qs ≠ [] → n' = n) := by
  induction h with
  | nil => exact ⟨1, .quiet .nil, fun h => absurd rfl h⟩
  | quiet _ ih => obtain ⟨n', h1, h2⟩ := ih; exact ⟨n' + 1, .quiet h1, fun h => by rw [h2 h]⟩
  | frame hu _ ih => obtain ⟨n', h1, h2⟩ := ih; exact ⟨n' + 1, by rw [List.append_assoc]; exact .frame hu h1, fun h => by rw [h2 h]⟩
  | resp hc hl _ ih => obtain ⟨n', h1, h2⟩ := ih; exact ⟨0, by rw [List.append_assoc]; exact .resp hc hl h1, fun _ => rfl⟩

theorem Fly.addFrame {w : World} {tm : Terms} {j : Nat} {qs : List Request} {n : Nat} {evs : List Ev} {ch : UInt8} {p : Bytes} (hf : UsableFrame ch p) (h : Fly w tm j qs n evs) :
    ∃ n', Fly w tm j qs n' (evs ++ (Msg.frame ch p).bytes.map .byte) ∧ (qs ≠ [] → n' = n) := by
  induction h with
  | nil => exact ⟨1, by (rename_i j; have := Fly.frame (w := w) (tm := tm) (j := j) hf .nil; rw [List.append_nil] at this; exact this), fun h => absurd rfl h⟩
  | quiet _ ih => obtain ⟨n', h1, h2⟩ := ih; exact ⟨n' + 1, .quiet h1, fun h => by rw [h2 h]⟩
  | frame hu _ ih => obtain ⟨n', h1, h2⟩ := ih; exact ⟨n' + 1, by rw [List.append_assoc]; exact .frame hu h1, fun h => by rw [h2 h]⟩
  | resp hc hl _ ih => obtain ⟨n', h1, h2⟩ := ih; exact ⟨0, by rw [List.append_assoc]; exact .resp hc hl h1, fun _ => rfl⟩

theorem Fly.addResp {w : World} {tm : Terms} {j : Nat} {qs : List Request} {n : Nat} {evs : List Ev} {q : Request} {x : Sent} (hc : Cooperates w tm (j + qs.length) q x)
    (hl : SmallSeq q) (h : Fly w tm j qs n evs) : Fly w tm j (qs ++ [q]) n (evs ++ (Msg.response x).bytes.map .byte) := by
  induction h with
  | nil => have := Fly.resp (w := w) (tm := tm) hc hl .nil; rw [List.append_nil] at this; exact this
  | quiet _ ih => exact .quiet (ih hc)
  | frame hu _ ih => rw [List.append_assoc]; exact .frame hu (ih hc)
  | resp hc' hl' _ ih => rw [List.append_assoc]; exact .resp hc' hl' (ih (by rw [List.length_cons] at hc; rw [show ∀ a b : Nat, a + 1 + b = a + (b + 1) by omega]; exact hc))

/-- A response as the session gets it. -/
theorem good_of {w : World} {tm : Terms} {k : Nat} {q : Request} {x : Sent} (hc : Cooperates w tm k q x) (hs : SmallSeq q) :
    ∃ rsp, itemOf (.response x) = .response rsp ∧ Good w tm k q rsp := by
  have hd := itemOf_delivered (coop_legal hc hs)
  refine ⟨_, rfl, ?_⟩
  obtain ⟨h1, h2, h3, h4⟩ := hd
  obtain ⟨n, hn, e⟩ := hs
  refine ⟨?_, ?_⟩
  · show (atoi ((x.value b!"CSeq").getD [])).1 = _
    rw [hc.cseq, e, itoa_nat, show (some (natDigits n)).getD [] = natDigits n from rfl, atoi_natDigits n hn]
  · rcases hc.kind with hk | hk
    · refine .inl ⟨by rw [h1, hk.code]; rfl, fun hv => ?_, fun hv => ?_⟩
      · have hb := hk.describe hv
        refine ⟨x.body, ?_, hb⟩
        rw [h2, if_neg]
        intro e
        obtain ⟨ms, g1, g2, _⟩ := hb
        rw [e] at g1
        have : sdpParse [] = .ok [] := by decide
        rw [this] at g1
        injection g1 with g1
        exact g2 g1.symm
      · obtain ⟨items, g1, g2⟩ := hk.setup hv
        exact ⟨items, g1, by rw [h4 _ ⟨by decide, by decide⟩, g2]; rfl⟩
    · obtain ⟨v, g1, g2⟩ := hk.challenge
      exact .inr ⟨by rw [h1, hk.code]; rfl, hk.alone, hk.bare, hk.known, by rw [h4 _ ⟨by decide, by decide⟩, g1]; exact g2⟩

/-- Where the client's loop is. -/
def PlaceOk (c : Client) : Kind → Prop
  | .idle k => (c.states = [k] ∧ Calm c) ∨ (2 ≤ k ∧ c.states = [] ∧ c.state = k ∧ ((c.armed = true ∧ c.fired = false) ∨ (c.armed = false ∧ c.fired = true)))
  | _ => c.states = [] ∧ Calm c

structure DInv (w : World) (tm : Terms) (d : Dialogue) (kd : Kind) (qa qb : List Request) (n : Nat) : Prop where
  going : d.client.ended = false
  running : d.client.running = true
  err : d.client.rdr.err = none
  fly : Fly w tm (d.answered - qa.length) qa n d.client.rdr.evs
  asked : ∃ old, asked d.client.trace = old ++ (qa ++ qb) ∧ d.answered = old.length + qa.length
  at_ : At w tm d.client.sess kd (qa ++ qb)
  data : ∀ x ∈ d.client.data, UsableFrame x.1 x.2
  cinv : CInv w d.client
  tinv : TInv d.client
  place : PlaceOk d.client kd

/-- How much is left. -/
abbrev Stat := Nat × Nat × Nat × Nat × Nat

def Less : Stat → Stat → Prop := (inferInstance : WellFoundedRelation Stat).rel

theorem less_wf : WellFounded Less := (inferInstance : WellFoundedRelation Stat).wf

def weight (qs : List Request) : Nat := qs.length + qs.countP (fun q => q.auth.isEmpty)

def levelOf (c : Client) : Kind → Nat
  | .options => 28
  | .describe => 24
  | .setup => 20
  | .cmd k => 4 * (4 - k) + 4
  | .idle k => 4 * (4 - k) + (if c.states ≠ [] then 3 else if c.armed then 2 else 1)

def statOf (tm : Terms) (d : Dialogue) (kd : Kind) (qa qb : List Request) (n : Nat) : Stat :=
  (levelOf d.client kd, weight (qa ++ qb) + (tm.patience - (d.answered - qa.length)), if qa = [] then (if qb = [] then 0 else 1) else 0, if qa = [] then 0 else n, if qa = [] then 0 else d.client.data.length)

/-- What brings the dialogue on. -/
def helpful (x : Stat) : DEv :=
  if x.1 % 4 = 3 then .client .stage
  else if x.1 % 4 = 2 then .client .expire
  else if x.1 % 4 = 1 then .client .timer
  else if x.2.2.1 = 1 then .answer
  else if x.2.2.2.2 ≤ 20 then .client .read
  else .client .packet

theorem less1 {a a' : Nat} (h : a < a') (x y : Nat × Nat × Nat × Nat) : Less (a, x) (a', y) := Prod.Lex.left _ _ h
theorem less2 {a b b' : Nat} (h : b < b') (x y : Nat × Nat × Nat) : Less (a, b, x) (a, b', y) := Prod.Lex.right _ (Prod.Lex.left _ _ h)
theorem less3 {a b c c' : Nat} (h : c < c') (x y : Nat × Nat) : Less (a, b, c, x) (a, b, c', y) := Prod.Lex.right _ (Prod.Lex.right _ (Prod.Lex.left _ _ h))
theorem less4 {a b c e e' : Nat} (h : e < e') (x y : Nat) : Less (a, b, c, e, x) (a, b, c, e', y) := Prod.Lex.right _ (Prod.Lex.right _ (Prod.Lex.right _ (Prod.Lex.left _ _ h)))
theorem less5 {a b c e f f' : Nat} (h : f < f') : Less (a, b, c, e, f) (a, b, c, e, f') := Prod.Lex.right _ (Prod.Lex.right _ (Prod.Lex.right _ (Prod.Lex.right _ h)))

/-- Unless it is about to happen, an event need not help. -/
theorem not_helpful {x : Stat} {e : DEv} (h1 : x.1 % 4 = 3 → e ≠ .client .stage) (h2 : x.1 % 4 = 2 → e ≠ .client .expire) (h3 : x.1 % 4 = 1 → e ≠ .client .timer)
    (h4 : x.1 % 4 = 0 → x.2.2.1 = 1 → e ≠ .answer) (h5 : x.1 % 4 = 0 → x.2.2.1 ≠ 1 → x.2.2.2.2 ≤ 20 → e ≠ .client .read)
    (h6 : x.1 % 4 = 0 → x.2.2.1 ≠ 1 → 20 < x.2.2.2.2 → e ≠ .client .packet) : e ≠ helpful x := by
  unfold helpful
  by_cases k3 : x.1 % 4 = 3
  · rw [if_pos k3]; exact h1 k3
  rw [if_neg k3]
  by_cases k2 : x.1 % 4 = 2
  · rw [if_pos k2]; exact h2 k2
  rw [if_neg k2]
  by_cases k1 : x.1 % 4 = 1
  · rw [if_pos k1]; exact h3 k1
  rw [if_neg k1]
  have k0 : x.1 % 4 = 0 := by omega
  by_cases ka : x.2.2.1 = 1
  · rw [if_pos ka]; exact h4 k0 ka
  rw [if_neg ka]
  by_cases kr : x.2.2.2.2 ≤ 20
  · rw [if_pos kr]; exact h5 k0 ka kr
  rw [if_neg kr]; exact h6 k0 ka (by omega)

/-- The client has finished, and everything went as it should. -/
def Over (d : Dialogue) : Prop := d.client.ended = true ∧ milestones d.client.trace = course

def Moves (w : World) (tm : Terms) (srv : Nat → Request → Sent) (d : Dialogue) (x : Stat) (e : DEv) : Prop :=
  ∃ d', dstep w srv d e = .ok d' ∧ (Over d' ∨ ∃ kd qa qb n, DInv w tm d' kd qa qb n ∧ (Less (statOf tm d' kd qa qb n) x ∨ (statOf tm d' kd qa qb n = x ∧ e ≠ helpful x)))

theorem waits_nonempty {w : World} {one : Bool} {s : Sess} {kd : Kind} {qs : List Request} (h : kd.Ok w one s qs) (hk : ∀ k, kd ≠ .idle k) : qs ≠ [] := by
  cases kd with
  | options => obtain ⟨_, _, _, q, e, _⟩ := h; rw [e]; simp
  | describe => obtain ⟨_, _, _, q, e, _⟩ := h; rw [e]; simp
  | setup => exact h.2.2.1
  | idle k => exact absurd rfl (hk k)
  | cmd k => obtain ⟨_, _, _, _, q, e, _⟩ := h; rw [e]; simp

theorem deliver_evs (d : Dialogue) (evs : List Ev) : (d.deliver evs).client.rdr.evs = d.client.rdr.evs ++ evs := by
  unfold Dialogue.deliver Rdr.evs
  dsimp only
  rw [List.append_assoc]

theorem CInv.rdr {w : World} {c : Client} (h : CInv w c) (r : Rdr) : CInv w { c with rdr := r } := by
  obtain ⟨n, h1, h2, h3⟩ := h.course
  exact ⟨h.reach, n, h1, h2, fun he => (h3 he).congr rfl rfl rfl rfl (fun _ h => h) (fun h => h)⟩

theorem TInv.rdr {c : Client} (h : TInv c) (r : Rdr) : TInv { c with rdr := r } := ⟨h.just, h.last, h.fifo, h.don⟩

/-- More arrives. -/
theorem DInv.deliver {w : World} {tm : Terms} {d : Dialogue} {kd : Kind} {qa qb : List Request} {n : Nat} (h : DInv w tm d kd qa qb n) {evs : List Ev} {n' : Nat}
    (hf : Fly w tm (d.answered - qa.length) qa n' (d.client.rdr.evs ++ evs)) : DInv w tm (d.deliver evs) kd qa qb n' :=
  ⟨h.going, h.running, h.err, by rw [deliver_evs]; exact hf, h.asked, h.at_, h.data, h.cinv.rdr _, h.tinv.rdr _, by cases kd <;> exact h.place⟩

theorem statOf_deliver {tm : Terms} {d : Dialogue} {kd : Kind} {qa qb : List Request} {n n' : Nat} {evs : List Ev} (h : qa ≠ [] → n' = n) :
    statOf tm (d.deliver evs) kd qa qb n' = statOf tm d kd qa qb n := by
  unfold statOf
  have h1 : levelOf (d.deliver evs).client kd = levelOf d.client kd := by cases kd <;> rfl
  have h2 : (d.deliver evs).client.data = d.client.data := rfl
  have h3 : (d.deliver evs).answered = d.answered := rfl
  rw [h1, h2, h3]
  by_cases hq : qa = []
  · rw [if_pos hq, if_pos hq, if_pos hq, if_pos hq]
  · rw [if_neg hq, if_neg hq, if_neg hq, if_neg hq, h hq]

theorem helpful_cases (x : Stat) : (∃ e, helpful x = .client e) ∨ helpful x = .answer := by
  unfold helpful
  split
  · exact .inl ⟨_, rfl⟩
  · split
    · exact .inl ⟨_, rfl⟩
    · split
      · exact .inl ⟨_, rfl⟩
      · split
        · exact .inr rfl
        · split <;> exact .inl ⟨_, rfl⟩

theorem moves_quiet {w : World} {tm : Terms} {srv : Nat → Request → Sent} {d : Dialogue} {kd : Kind} {qa qb : List Request} {n : Nat} (h : DInv w tm d kd qa qb n) :
    Moves w tm srv d (statOf tm d kd qa qb n) .quiet := by
  obtain ⟨n', h1, h2⟩ := h.fly.addQuiet
  refine ⟨_, rfl, .inr ⟨kd, qa, qb, n', h.deliver h1, .inr ⟨statOf_deliver h2, ?_⟩⟩⟩
  rcases helpful_cases (statOf tm d kd qa qb n) with ⟨e, he⟩ | he <;> rw [he] <;> simp

theorem moves_frame {w : World} {tm : Terms} {srv : Nat → Request → Sent} {d : Dialogue} {kd : Kind} {qa qb : List Request} {n : Nat} (h : DInv w tm d kd qa qb n)
    {ch : UInt8} {p : Bytes} (hu : UsableFrame ch p) : Moves w tm srv d (statOf tm d kd qa qb n) (.frame ch p) := by
  obtain ⟨n', h1, h2⟩ := h.fly.addFrame hu
  refine ⟨_, rfl, .inr ⟨kd, qa, qb, n', h.deliver h1, .inr ⟨statOf_deliver h2, ?_⟩⟩⟩
  rcases helpful_cases (statOf tm d kd qa qb n) with ⟨e, he⟩ | he <;> rw [he] <;> simp

/-- The numbers of the requests. -/
theorem at_small {w : World} {tm : Terms} {s : Sess} {kd : Kind} {qs : List Request} (h : At w tm s kd qs) {q : Request} (hq : q ∈ qs) :
    SmallSeq q ∧ 0 < q.cseq := by
  have hb : s.cseq < 2 ^ 62 := by
    have hk := h.kind
    cases kd with
    | options => have := hk.2.2.1; omega
    | describe => have := hk.2.2.1; omega
    | setup => have := hk.2.1; omega
    | idle k => have := hk.2.2.2.1; have := hk.2.2.1; omega
    | cmd k => have := hk.2.2.2.1; have := hk.2.2.1; omega
  obtain ⟨m, h1, h2⟩ := h.nums
  have : q.cseq ∈ numbers m qs.length := by rw [← h2]; exact List.mem_map.2 ⟨q, hq, rfl⟩
  have := numbers_mem this
  exact ⟨⟨q.cseq.toNat, by omega, by omega⟩, by omega⟩

theorem moves_answer {w : World} {tm : Terms} {srv : Nat → Request → Sent} (hsrv : ∀ k req, 0 < req.cseq → Cooperates w tm k req (srv k req))
    {d : Dialogue} {kd : Kind} {qa qb : List Request} {n : Nat} (h : DInv w tm d kd qa qb n) : Moves w tm srv d (statOf tm d kd qa qb n) .answer := by
  obtain ⟨old, h1, h2⟩ := h.asked
  have hidx : (asked d.client.trace)[d.answered]? = qb[0]? := by
    rw [h1, h2, ← List.append_assoc, List.getElem?_append_right (by simp)]
    congr 1
    simp
  cases qb with
  | nil =>
    refine ⟨d, ?_, .inr ⟨kd, qa, [], n, h, .inr ⟨rfl, ?_⟩⟩⟩
    · unfold dstep
      rw [hidx]
      rfl
    · refine not_helpful (by simp) (by simp) (by simp) (fun _ hb => ?_) (by simp) (by simp)
      unfold statOf at hb
      dsimp only at hb
      rw [if_pos rfl, ite_self] at hb
      cases hb
  | cons q qb =>
    obtain ⟨hs, hpos⟩ := at_small h.at_ (q := q) (by simp)
    have hc := hsrv d.answered q hpos
    refine ⟨{ d.deliver ((Msg.response (srv d.answered q)).bytes.map .byte) with answered := d.answered + 1 }, ?_, .inr ⟨kd, qa ++ [q], qb, n, ?_, ?_⟩⟩
    · unfold dstep
      rw [hidx]
      rfl
    · refine ⟨h.going, h.running, h.err, ?_, ⟨old, ?_, ?_⟩, ?_, h.data, h.cinv.rdr _, h.tinv.rdr _, by cases kd <;> exact h.place⟩
      · show Fly w tm (d.answered + 1 - (qa ++ [q]).length) _ _ (d.deliver _).client.rdr.evs
        rw [deliver_evs, List.length_append, show d.answered + 1 - (qa.length + [q].length) = d.answered - qa.length by (simp only [List.length_singleton]; omega)]
        exact h.fly.addResp (by rw [show d.answered - qa.length + qa.length = d.answered by omega]; exact hc) hs
      · show asked d.client.trace = _
        rw [h1]; simp
      · show d.answered + 1 = _
        rw [h2]; simp; omega
      · rw [List.append_assoc]; exact h.at_
    · have hw : weight (qa ++ [q] ++ qb) = weight (qa ++ q :: qb) := by rw [List.append_assoc]; rfl
      have hl : levelOf d.client kd = levelOf (d.deliver ((Msg.response (srv d.answered q)).bytes.map .byte)).client kd := by cases kd <;> rfl
      unfold statOf
      dsimp only
      rw [hw, ← hl, if_neg (by simp), if_neg (by simp), if_neg (by simp), List.length_append,
        show d.answered + 1 - (qa.length + [q].length) = d.answered - qa.length by (simp only [List.length_singleton]; omega)]
      by_cases hq : qa = []
      · left
        rw [if_pos hq, if_neg (by simp)]
        exact less3 (by decide) _ _
      · right
        rw [if_neg hq, if_neg hq, if_neg hq]
        exact ⟨rfl, not_helpful (by simp) (by simp) (by simp) (by simp) (by simp) (by simp)⟩

/-- A turn of the client other than reading. -/
theorem dstep_client {w : World} {srv : Nat → Request → Sent} {d : Dialogue} {e : CEv} {c : Client} (he : e ≠ .read) (h : cstep w d.client e = .ok c) :
    dstep w srv d (.client e) = .ok { d with client := c } := by
  unfold dstep
  have : d.await e = d := by cases e <;> first | rfl | exact absurd rfl he
  dsimp only
  rw [this, h]

/-- Nothing happens. -/
theorem moves_idle {w : World} {tm : Terms} {srv : Nat → Request → Sent} {d : Dialogue} {kd : Kind} {qa qb : List Request} {n : Nat} (h : DInv w tm d kd qa qb n)
    {e : CEv} (he : e ≠ .read) (hs : cstep w d.client e = .ok d.client) (hh : DEv.client e ≠ helpful (statOf tm d kd qa qb n)) : Moves w tm srv d (statOf tm d kd qa qb n) (.client e) :=
  ⟨d, dstep_client he hs, .inr ⟨kd, qa, qb, n, h, .inr ⟨rfl, hh⟩⟩⟩

theorem asked_append (a b : List Act) : asked (a ++ b) = asked b ++ asked a := by
  induction a with
  | nil => simp [asked]
  | cons x a ih =>
    cases x with
    | wire o =>
      cases o with
      | sent r req res => show asked (a ++ b) ++ [req] = asked b ++ (asked a ++ [req]); rw [ih]; simp
      | got | notified | started | data => exact ih
    | timer | stage | packet | unit | ended => exact ih

theorem asked_wire (o : List Out) : asked (o.map .wire) = requestsIn o := by
  induction o with
  | nil => rfl
  | cons x o ih =>
    have : requestsIn (x :: o) = requestsIn o ++ requestsIn [x] := by
      unfold requestsIn
      rw [List.reverse_cons, List.filterMap_append]
      rfl
    rw [this, ← ih]
    cases x with
    | sent r req res => rfl
    | got | notified | started | data => exact (List.append_nil _).symm

theorem level_mod (c : Client) (kd : Kind) (h : ∀ k, kd ≠ .idle k) : levelOf c kd % 4 = 0 := by
  cases kd with
  | options => show 28 % 4 = 0; rfl
  | describe => show 24 % 4 = 0; rfl
  | setup => show 20 % 4 = 0; rfl
  | idle k => exact absurd rfl (h k)
  | cmd k => show (4 * (4 - k) + 4) % 4 = 0; omega

theorem moves_expire {w : World} {tm : Terms} {srv : Nat → Request → Sent} {d : Dialogue} {kd : Kind} {qa qb : List Request} {n : Nat} (h : DInv w tm d kd qa qb n) :
    Moves w tm srv d (statOf tm d kd qa qb n) (.client .expire) := by
  have hstep : cstep w d.client .expire = .ok (if d.client.armed then { d.client with armed := false, fired := true } else d.client) := by
    unfold cstep; rw [if_neg (by rw [h.going]; decide)]; rfl
  by_cases ha : d.client.armed = true
  · rw [if_pos ha] at hstep
    refine ⟨_, dstep_client (by simp) hstep, .inr ?_⟩
    have hp := h.place
    cases kd with
    | idle k =>
      rcases hp with ⟨_, hc⟩ | ⟨h1, h2, h3, h4⟩
      · rw [hc.1] at ha; cases ha
      · refine ⟨.idle k, qa, qb, n, ⟨h.going, h.running, h.err, h.fly, h.asked, h.at_, h.data, cstep_inv h.cinv hstep, cstep_tinv h.tinv h.at_.opened hstep, .inr ⟨h1, h2, h3, .inr ⟨rfl, rfl⟩⟩⟩, .inl ?_⟩
        refine less1 ?_ _ _
        show 4 * (4 - k) + (if d.client.states ≠ [] then 3 else if false = true then 2 else 1) < 4 * (4 - k) + (if d.client.states ≠ [] then 3 else if d.client.armed = true then 2 else 1)
        rw [h2, ha]
        simp
    | options => rw [hp.2.1] at ha; cases ha
    | describe => rw [hp.2.1] at ha; cases ha
    | setup => rw [hp.2.1] at ha; cases ha
    | cmd k => rw [hp.2.1] at ha; cases ha
  · rw [if_neg ha] at hstep
    refine moves_idle h (by simp) hstep (not_helpful (by simp) (fun hl => ?_) (by simp) (by simp) (by simp) (by simp))
    cases kd with
    | idle k =>
      have hl : (4 * (4 - k) + (if d.client.states ≠ [] then 3 else if d.client.armed = true then 2 else 1)) % 4 = 2 := hl
      rw [if_neg ha] at hl
      split at hl <;> omega
    | options => have hl : 28 % 4 = 2 := hl; omega
    | describe => have hl : 24 % 4 = 2 := hl; omega
    | setup => have hl : 20 % 4 = 2 := hl; omega
    | cmd k =>
      have hl : (4 * (4 - k) + 4) % 4 = 2 := hl
      omega

/-- The client's loop sends a command. -/
theorem asks_inv {w : World} (hw : ∀ o b, w.write o b = .ok) {tm : Terms} {d : Dialogue} {k n : Nat} {c : Client}
    (h : DInv w tm d (.idle k) [] [] n) (verb uri : Bytes) (hk : k ≤ 3) (hv : stageAfter verb = some (k + 1)) (hcs : c.sess = d.client.sess) (hce : c.ended = false)
    (hcr : c.running = true) (hcrd : c.rdr = d.client.rdr) (hct : asked c.trace = asked d.client.trace) (hcd : c.data = d.client.data) (hcst : c.states = []) (hcalm : Calm c) :
    ∃ c' q, c.order (c.sess.deref (command w c.sess verb uri [])) = .ok c' ∧ ∀ e, cstep w d.client e = .ok c' → DInv w tm { d with client := c' } (.cmd (k + 1)) [] [q] n := by
  obtain ⟨t, q, h1, h2, h3, h4, h5, h6, h7, h8, h9, h10⟩ := command_asks hw (s := c.sess) (by rw [hcs]; exact h.at_.opened) (by rw [hcs]; exact h.at_.proto) verb uri []
  have ha := adopt_eq c (s := t) (o := [.sent false q .ok]) h2
  refine ⟨c.adopt t, q, ?_, fun e hstep => ?_⟩
  · unfold Client.order; rw [deref_open (by rw [hcs]; exact h.at_.opened), h1]; rfl
  · obtain ⟨g1, g2, g3, g4, g5⟩ := h.at_.kind
    obtain ⟨old, a1, a2⟩ := h.asked
    have hi := cstep_inv h.cinv hstep
    have ht := cstep_tinv h.tinv h.at_.opened hstep
    rw [ha] at hi ht ⊢
    rw [hcs] at h4 h5 h6
    obtain ⟨m, m1, m2⟩ := h.at_.nums
    refine ⟨hce, hcr, by rw [show ({ c with sess := t } : Client).rdr = d.client.rdr from hcrd]; exact h.err, ?_, ⟨old, ?_, a2⟩, ?_, ?_, hi, ht, ?_⟩
    · show Fly w tm (d.answered - 0) [] n c.rdr.evs
      rw [hcrd]; exact h.fly
    · show asked ([Out.sent false q .ok].map Act.wire ++ c.trace) = _
      rw [asked_append, hct, a1]; simp [asked]
    · refine ⟨?_, ?_, ?_, ?_, ⟨d.client.sess.cseq, ?_, ?_⟩, ?_⟩
      · rw [show t.opened = c.sess.opened from h9.1, hcs]; exact h.at_.opened
      · rw [show t.proto = c.sess.proto from h9.2.1, hcs]; exact h.at_.proto
      · rw [show t.user = c.sess.user from h9.2.2.2, hcs]; exact h.at_.user
      · intro q' hq'
        rw [List.nil_append, List.mem_singleton] at hq'
        subst hq'
        show t.find _ = _
        rw [h10, if_pos rfl]
      · exact h5
      · show [q.cseq] = numbers _ (0 + 1)
        rw [numbers_succ, h4]; rfl
      · refine ⟨?_, ?_, ?_, ?_, q, rfl, by rw [h3]; exact hv⟩
        · show t.stage + 1 = _
          rw [h6, g1]
        · omega
        · omega
        · show t.cseq < _
          rw [h5]; omega
    · intro x hx
      have hx : x ∈ c.data ++ [] := hx
      rw [List.append_nil, hcd] at hx
      exact h.data x hx
    · refine ⟨?_, hcalm⟩
      show c.states ++ [] = []
      rw [hcst]; rfl

theorem idle_nil {w : World} {tm : Terms} {d : Dialogue} {k : Nat} {qa qb : List Request} {n : Nat} (h : DInv w tm d (.idle k) qa qb n) : qa = [] ∧ qb = [] := by
  have := h.at_.kind.2.2.2.2
  simpa using this

theorem moves_timer {w : World} (hw : ∀ o b, w.write o b = .ok) {tm : Terms} {srv : Nat → Request → Sent} {d : Dialogue} {kd : Kind} {qa qb : List Request} {n : Nat} (h : DInv w tm d kd qa qb n) :
    Moves w tm srv d (statOf tm d kd qa qb n) (.client .timer) := by
  have hstep : cstep w d.client .timer = clientTimer w d.client := by
    unfold cstep; rw [if_neg (by rw [h.going]; decide)]
  by_cases hf : d.client.fired = true
  · have hp := h.place
    cases kd with
    | idle k =>
      obtain ⟨rfl, rfl⟩ := idle_nil h
      rcases hp with ⟨_, hc⟩ | ⟨h1, h2, h3, h4⟩
      · rw [hc.2] at hf; cases hf
      · have harm : d.client.armed = false := by
          rcases h4 with h4 | h4
          · rw [h4.2] at hf; cases hf
          · exact h4.1
        obtain ⟨c, hc⟩ : ∃ c : Client, c = { d.client with fired := false, trace := .timer :: d.client.trace } := ⟨_, rfl⟩
        have hl : levelOf d.client (.idle k) = 4 * (4 - k) + 1 := by
          show 4 * (4 - k) + (if d.client.states ≠ [] then 3 else if d.client.armed = true then 2 else 1) = _
          rw [h2, harm]; simp
        have hk4 := h.at_.kind.2.2.1
        have go : ∀ verb, k ≤ 3 → stageAfter verb = some (k + 1) → clientTimer w d.client = c.order (c.sess.deref (command w c.sess verb c.sess.baseURI [])) →
            Moves w tm srv d (statOf tm d (.idle k) [] [] n) (.client .timer) := by
          intro verb hk hv he
          obtain ⟨c', q, g1, g2⟩ := asks_inv (c := c) hw h verb c.sess.baseURI hk hv (by rw [hc]) (by rw [hc]; exact h.going) (by rw [hc]; exact h.running) (by rw [hc]) (by rw [hc]; rfl) (by rw [hc]) (by rw [hc]; exact h2) (by rw [hc]; exact ⟨harm, rfl⟩)
          have hs := hstep.trans (he.trans g1)
          refine ⟨_, dstep_client (by simp) hs, .inr ⟨_, _, _, _, g2 _ hs, .inl ?_⟩⟩
          refine less1 ?_ _ _
          rw [hl]
          show 4 * (4 - (k + 1)) + 4 < _
          omega
        have he : clientTimer w d.client = if c.state = stagePlay then c.order (c.sess.pause w)
            else if c.state = stagePause then c.order (c.sess.teardown w)
            else if c.state = stageDone then pure (c.finish .finished)
            else pure c := by
          unfold clientTimer; rw [if_pos hf, hc]
        have hst : c.state = k := by rw [hc]; exact h3
        rw [hst] at he
        by_cases k2 : k = 2
        · subst k2; exact go b!"PAUSE" (by omega) rfl he
        by_cases k3 : k = 3
        · subst k3; exact go b!"TEARDOWN" (by omega) rfl he
        have k4 : k = 4 := by omega
        subst k4
        have hs : cstep w d.client .timer = .ok (c.finish .finished) := hstep.trans he
        refine ⟨_, dstep_client (by simp) hs, .inl ⟨rfl, ?_⟩⟩
        obtain ⟨m, m1, m2, _⟩ := (cstep_inv h.cinv hs).course
        have hm : milestones (c.finish .finished).trace = milestones c.trace ++ [.finished] := rfl
        show milestones (c.finish .finished).trace = course
        rw [m2]
        rw [hm] at m2
        have hlast : (course.take m).getLast? = some .finished := by rw [← m2]; simp
        have : m = 0 ∨ m = 1 ∨ m = 2 ∨ m = 3 ∨ m = 4 ∨ m = 5 ∨ m = 6 ∨ m = 7 ∨ m = 8 := by omega
        rcases this with rfl | rfl | rfl | rfl | rfl | rfl | rfl | rfl | rfl
        all_goals first | rfl | exact absurd hlast (by decide)
    | options => rw [hp.2.2] at hf; cases hf
    | describe => rw [hp.2.2] at hf; cases hf
    | setup => rw [hp.2.2] at hf; cases hf
    | cmd k => rw [hp.2.2] at hf; cases hf
  · have he : clientTimer w d.client = .ok d.client := by unfold clientTimer; rw [if_neg hf]; rfl
    refine moves_idle h (by simp) (hstep.trans he) (not_helpful (by simp) (by simp) (fun hl => ?_) (by simp) (by simp) (by simp))
    cases kd with
    | idle k =>
      have hl : (4 * (4 - k) + (if d.client.states ≠ [] then 3 else if d.client.armed = true then 2 else 1)) % 4 = 1 := hl
      rcases h.place with ⟨hs, hc⟩ | ⟨h1, h2, h3, h4⟩
      · rw [hs] at hl; simp at hl
      · have : d.client.armed = true := by
          rcases h4 with h4 | h4
          · exact h4.1
          · exact absurd h4.2 hf
        rw [h2, this] at hl; simp at hl
    | options => have hl : 28 % 4 = 1 := hl; omega
    | describe => have hl : 24 % 4 = 1 := hl; omega
    | setup => have hl : 20 % 4 = 1 := hl; omega
    | cmd k =>
      have hl : (4 * (4 - k) + 4) % 4 = 1 := hl
      omega

theorem moves_stage {w : World} (hw : ∀ o b, w.write o b = .ok) {tm : Terms} {srv : Nat → Request → Sent} {d : Dialogue} {kd : Kind} {qa qb : List Request} {n : Nat} (h : DInv w tm d kd qa qb n) :
    Moves w tm srv d (statOf tm d kd qa qb n) (.client .stage) := by
  have hstep : cstep w d.client .stage = clientStage w d.client := by
    unfold cstep; rw [if_neg (by rw [h.going]; decide)]
  have hp := h.place
  by_cases hn : d.client.states = []
  · have he : clientStage w d.client = .ok d.client := by unfold clientStage; rw [hn]; rfl
    refine moves_idle h (by simp) (hstep.trans he) (not_helpful (fun hl => ?_) (by simp) (by simp) (by simp) (by simp) (by simp))
    cases kd with
    | idle k =>
      have hl : (4 * (4 - k) + (if d.client.states ≠ [] then 3 else if d.client.armed = true then 2 else 1)) % 4 = 3 := hl
      rw [hn] at hl
      simp at hl
      split at hl <;> omega
    | options => have hl : 28 % 4 = 3 := hl; omega
    | describe => have hl : 24 % 4 = 3 := hl; omega
    | setup => have hl : 20 % 4 = 3 := hl; omega
    | cmd k =>
      have hl : (4 * (4 - k) + 4) % 4 = 3 := hl
      omega
  · cases kd with
    | idle k =>
      obtain ⟨rfl, rfl⟩ := idle_nil h
      rcases hp with ⟨h1, hc⟩ | ⟨_, h2, _⟩
      · obtain ⟨c, hcc⟩ : ∃ c : Client, c = { d.client with states := [], state := k, trace := .stage k :: d.client.trace } := ⟨_, rfl⟩
        have hl : levelOf d.client (.idle k) = 4 * (4 - k) + 3 := by
          show 4 * (4 - k) + (if d.client.states ≠ [] then 3 else if d.client.armed = true then 2 else 1) = _
          rw [h1]; simp
        have he : clientStage w d.client = if k = stageReady then c.order (c.sess.play w)
            else if k = stagePlay then pure { c with armed := true }
            else if k = stagePause then pure { c with armed := true }
            else if k = stageDone then pure { c with armed := true }
            else pure c := by
          unfold clientStage; rw [h1, hcc]
        have hk1 := h.at_.kind.2.1
        have hk4 := h.at_.kind.2.2.1
        by_cases k1 : k = 1
        · subst k1
          obtain ⟨c', q, g1, g2⟩ := asks_inv (c := c) hw h b!"PLAY" c.sess.baseURI (by omega) rfl (by rw [hcc]) (by rw [hcc]; exact h.going) (by rw [hcc]; exact h.running) (by rw [hcc]) (by rw [hcc]; rfl) (by rw [hcc]) (by rw [hcc]) (by rw [hcc]; exact hc)
          have hs := hstep.trans (he.trans g1)
          refine ⟨_, dstep_client (by simp) hs, .inr ⟨_, _, _, _, g2 _ hs, .inl ?_⟩⟩
          refine less1 ?_ _ _
          rw [hl]
          show 4 * (4 - (1 + 1)) + 4 < _
          omega
        · have he : clientStage w d.client = .ok { c with armed := true } := by
            rw [he]
            have : k = 2 ∨ k = 3 ∨ k = 4 := by omega
            rcases this with rfl | rfl | rfl <;> rfl
          have hs := hstep.trans he
          have hi := cstep_inv h.cinv hs
          have ht := cstep_tinv h.tinv h.at_.opened hs
          refine ⟨_, dstep_client (by simp) hs, .inr ⟨.idle k, [], [], n, ?_, .inl ?_⟩⟩
          · rw [hcc] at hi ht ⊢
            exact ⟨h.going, h.running, h.err, h.fly, h.asked, h.at_, h.data, hi, ht, .inr ⟨by omega, rfl, rfl, .inl ⟨rfl, hc.2⟩⟩⟩
          · refine less1 ?_ _ _
            rw [hl, hcc]
            show 4 * (4 - k) + (if ([] : List Nat) ≠ [] then 3 else if true = true then 2 else 1) < _
            simp
      · exact absurd h2 hn
    | options => exact absurd hp.1 hn
    | describe => exact absurd hp.1 hn
    | setup => exact absurd hp.1 hn
    | cmd k => exact absurd hp.1 hn

/-- A packet that can be used is taken. -/
theorem packet_taken {c : Client} (hd : c.sink.don < 65536) {ch : UInt8} {p : Bytes} {rest : List (UInt8 × Bytes)} (hdata : c.data = (ch, p) :: rest) (hu : UsableFrame ch p) :
    ∃ sink o, clientPacket c = .ok { c with data := rest, sink := sink, trace := o ++ c.trace } ∧ asked o = [] := by
  have units : ∀ us : List NALUnit, ∀ r : List Act, asked r = [] → asked ((us.map Act.unit).reverse ++ r) = [] := by
    intro us
    induction us with
    | nil => intro r hr; exact hr
    | cons u us ih =>
      intro r hr
      rw [List.map_cons, List.reverse_cons, List.append_assoc]
      exact ih _ hr
  obtain ⟨_, ⟨v, hv, rfl, rfl⟩ | ⟨hch, padding, count, len, i, r, g1, g2, g3, g4, rfl⟩ | ⟨hch, b0, pt, x, y, r, g1, g2, rfl⟩⟩ := hu
  · obtain ⟨sink, h1, _, _⟩ := clientPacket_video hd v hv rest hdata
    refine ⟨sink, (sink.units.map .unit).reverse ++ [.packet v.ch v.rtp.encode], ?_, units _ _ rfl⟩
    rw [h1, List.append_assoc]; rfl
  · obtain ⟨q, hq, _⟩ := C26_sender_report padding count len i r g1 g2 g3 g4
    refine ⟨c.sink, [.packet ch (senderReport padding count len i r)], ?_, rfl⟩
    unfold clientPacket
    rw [hdata]
    dsimp only
    rw [if_neg hch, hq]
    rfl
  · refine ⟨c.sink, [.packet ch (b0 :: pt :: x :: y :: r)], ?_, rfl⟩
    unfold clientPacket
    rw [hdata]
    dsimp only
    rw [if_neg hch, C26_other b0 pt x y r g1 g2]
    rfl

theorem moves_packet {w : World} {tm : Terms} {srv : Nat → Request → Sent} {d : Dialogue} {kd : Kind} {qa qb : List Request} {n : Nat} (h : DInv w tm d kd qa qb n) :
    Moves w tm srv d (statOf tm d kd qa qb n) (.client .packet) := by
  have hstep : cstep w d.client .packet = clientPacket d.client := by
    unfold cstep; rw [if_neg (by rw [h.going]; decide)]
  cases hdata : d.client.data with
  | nil =>
    have he : clientPacket d.client = .ok d.client := by unfold clientPacket; rw [hdata]; rfl
    refine moves_idle h (by simp) (hstep.trans he) (not_helpful (by simp) (by simp) (by simp) (by simp) (by simp) (fun _ _ hb => ?_))
    have hb : 20 < (if qa = [] then 0 else d.client.data.length) := hb
    rw [hdata] at hb
    simp at hb
  | cons x rest =>
    obtain ⟨ch, p⟩ := x
    obtain ⟨sink, o, h1, h2⟩ := packet_taken h.tinv.don hdata (h.data (ch, p) (by rw [hdata]; exact List.mem_cons_self))
    have hs := hstep.trans h1
    have hi := cstep_inv h.cinv hs
    have ht := cstep_tinv h.tinv h.at_.opened hs
    obtain ⟨old, a1, a2⟩ := h.asked
    refine ⟨_, dstep_client (by simp) hs, .inr ⟨kd, qa, qb, n, ⟨h.going, h.running, h.err, h.fly, ⟨old, ?_, a2⟩, h.at_, ?_, hi, ht, by cases kd <;> exact h.place⟩, ?_⟩⟩
    · show asked (o ++ d.client.trace) = _
      rw [asked_append, h2, List.append_nil]; exact a1
    · intro x hx
      exact h.data x (by rw [hdata]; exact List.mem_cons_of_mem _ hx)
    · have hl : ∀ c : Client, c.states = d.client.states → c.armed = d.client.armed → levelOf c kd = levelOf d.client kd := by
        intro c e1 e2; cases kd <;> first | rfl | (unfold levelOf; rw [e1, e2])
      unfold statOf
      dsimp only
      rw [hl { d.client with data := rest, sink := sink, trace := o ++ d.client.trace } rfl rfl]
      by_cases hq : qa = []
      · rw [if_pos hq, if_pos hq, if_pos hq, if_pos hq]
        refine .inr ⟨rfl, not_helpful (by simp) (by simp) (by simp) (by simp) (by simp) (fun _ _ hb => ?_)⟩
        have hb : 20 < 0 := hb
        omega
      · rw [if_neg hq, if_neg hq, if_neg hq, if_neg hq, hdata]
        exact .inl (less5 (by simp))

theorem level_eq {c c' : Client} (kd : Kind) (h1 : c'.states = c.states) (h2 : c'.armed = c.armed) : levelOf c' kd = levelOf c kd := by
  cases kd <;> first | rfl | (unfold levelOf; rw [h1, h2])

theorem place_eq {c c' : Client} {kd : Kind} (h : PlaceOk c kd) (h1 : c'.states = c.states) (h2 : c'.armed = c.armed) (h3 : c'.fired = c.fired) (h4 : c'.state = c.state) : PlaceOk c' kd := by
  cases kd with
  | idle k =>
    rcases h with ⟨g1, g2⟩ | ⟨g1, g2, g3, g4⟩
    · exact .inl ⟨h1.trans g1, h2.trans g2.1, h3.trans g2.2⟩
    · exact .inr ⟨g1, h1.trans g2, h4.trans g3, by rw [h2, h3]; exact g4⟩
  | options => exact ⟨h1.trans h.1, h2.trans h.2.1, h3.trans h.2.2⟩
  | describe => exact ⟨h1.trans h.1, h2.trans h.2.1, h3.trans h.2.2⟩
  | setup => exact ⟨h1.trans h.1, h2.trans h.2.1, h3.trans h.2.2⟩
  | cmd k => exact ⟨h1.trans h.1, h2.trans h.2.1, h3.trans h.2.2⟩

/-- After a response. -/
theorem goes_less {tm : Terms} {d : Dialogue} {kd kd' : Kind} {q : Request} {qs news qa' qb' : List Request} {notes : List Nat} {n n' : Nat} {c : Client} {qa qb : List Request} (hg : Goes (d.answered - qa.length < tm.patience) kd (q :: qs) news notes kd')
    (hq : qa ++ qb = q :: qs) (hq' : qa' ++ qb' = qs ++ news) (hqa : qa = q :: qa') (hans : qa.length ≤ d.answered) (hc : c.states = notes) : Less (statOf tm { d with client := c } kd' qa' qb' n') (statOf tm d kd qa qb n) := by
  unfold statOf
  rw [hq, hq']
  dsimp only
  have hlen : d.answered - qa'.length = d.answered - qa.length + 1 := by
    have := congrArg List.length hqa
    rw [List.length_cons] at this
    omega
  rw [hlen]
  cases hg with
  | again _ _ _ h1 h2 h3 =>
    have hlv : levelOf c kd = levelOf d.client kd := by cases kd <;> first | rfl | exact absurd rfl (h3 _)
    rw [hlv]
    refine less2 ?_ _ _
    unfold weight
    rw [List.nil_append, List.countP_cons_of_neg (by simpa using h2)]
    rcases h1 with h1 | h1
    · rw [List.countP_cons_of_pos (by simpa using h1)]
      simp
      omega
    · rw [List.countP_cons]
      simp
      omega
  | described q' => exact less1 (show 24 < 28 by decide) _ _
  | setups => exact less1 (show 20 < 24 by decide) _ _
  | setup h =>
    refine less2 ?_ _ _
    unfold weight
    rw [List.append_nil, List.countP_cons, List.length_cons]
    omega
  | ready =>
    refine less1 ?_ _ _
    show 4 * (4 - 1) + (if c.states ≠ [] then 3 else if c.armed = true then 2 else 1) < 20
    rw [hc]; simp
  | granted _ k =>
    refine less1 ?_ _ _
    show 4 * (4 - k) + (if c.states ≠ [] then 3 else if c.armed = true then 2 else 1) < 4 * (4 - k) + 4
    rw [hc]; simp

theorem goes_place {e : Prop} {c : Client} {kd kd' : Kind} {q : Request} {qs news : List Request} {notes : List Nat} (hg : Goes e kd (q :: qs) news notes kd') (hc : c.states = notes) (h : Calm c) : PlaceOk c kd' := by
  cases hg with
  | again _ _ _ h1 h2 h3 => cases kd <;> first | exact ⟨hc, h⟩ | exact absurd rfl (h3 _)
  | described q' => exact ⟨hc, h⟩
  | setups => exact ⟨hc, h⟩
  | setup => exact ⟨hc, h⟩
  | ready => exact .inl ⟨hc, h⟩
  | granted k => exact .inl ⟨hc, h⟩

/-- The client reads when something has arrived. -/
theorem read_some {w : World} (hw : ∀ o b, w.write o b = .ok) {tm : Terms} {d : Dialogue} {kd : Kind} {qa qb : List Request} {n : Nat} (h : DInv w tm d kd qa qb n)
    (hne : d.client.rdr.evs ≠ []) : ∃ c, cstep w d.client .read = .ok c ∧ ∃ kd' qa' qb' n', DInv w tm { d with client := c } kd' qa' qb' n' ∧
      (Less (statOf tm { d with client := c } kd' qa' qb' n') (statOf tm d kd qa qb n) ∨
        (statOf tm { d with client := c } kd' qa' qb' n' = statOf tm d kd qa qb n ∧ DEv.client .read ≠ helpful (statOf tm d kd qa qb n))) := by
  have hstep : cstep w d.client .read = clientRead w d.client := by
    unfold cstep; rw [if_neg (by rw [h.going]; decide)]
  have notq : qa = [] → DEv.client .read ≠ helpful (statOf tm d kd qa qb n) := by
    intro hqa
    refine not_helpful (by simp) (by simp) (by simp) (by simp) (fun hl hb _ => ?_) (by simp)
    exfalso
    have hb : (if qa = [] then (if qb = [] then 0 else 1) else 0) ≠ 1 := hb
    have hkd : ∀ k, kd ≠ .idle k := by
      intro k e
      subst e
      have hl : (4 * (4 - k) + (if d.client.states ≠ [] then 3 else if d.client.armed = true then 2 else 1)) % 4 = 0 := hl
      split at hl
      · omega
      · split at hl <;> omega
    have := waits_nonempty h.at_.kind hkd
    rw [hqa] at this hb
    rw [if_pos rfl, if_neg (by simpa using this)] at hb
    exact hb rfl
  by_cases hcan : d.client.running = true ∧ d.client.states = [] ∧ d.client.data.length ≤ 20
  · have hr : clientRead w d.client = match recv d.client.rdr with
      | (.error (.io .timeout), r) => pure { d.client with rdr := r }
      | (.error _, r) => pure { d.client with rdr := r, running := false }
      | (.ok item, r) =>
        match handleItem w d.client.sess item with
        | .error p => .error p
        | .ok (s, e) => pure ({ d.client with rdr := r, running := goesOn e }.adopt s) := by
      unfold clientRead; rw [if_pos hcan]; rfl
    have stay : ∀ (c : Client) (n0 : Nat), n = n0 + 1 → DInv w tm { d with client := c } kd qa qb n0 → c.states = d.client.states → c.armed = d.client.armed →
        (Less (statOf tm { d with client := c } kd qa qb n0) (statOf tm d kd qa qb n) ∨
        (statOf tm { d with client := c } kd qa qb n0 = statOf tm d kd qa qb n ∧ DEv.client .read ≠ helpful (statOf tm d kd qa qb n))) := by
      intro c n0 e hd e1 e2
      have hl := level_eq kd e1 e2
      by_cases hq : qa = []
      · refine .inr ⟨?_, notq hq⟩
        unfold statOf
        dsimp only
        rw [hl]
        simp only [if_pos hq]
      · left
        unfold statOf
        dsimp only
        rw [hl]
        simp only [if_neg hq]
        exact less4 (by omega) _ _
    generalize hev : d.client.rdr.evs = evs at hne
    have hfly := h.fly
    rw [hev] at hfly
    cases hfly with
    | nil => exact absurd rfl hne
    | @quiet _ _ n0 evs' hf =>
      rw [recv_timeout h.err hev] at hr
      have hs := hstep.trans hr
      refine ⟨_, hs, kd, qa, qb, n0, ?_, ?_⟩
      · exact ⟨h.going, h.running, rfl, hf, h.asked, h.at_, h.data, cstep_inv h.cinv hs, cstep_tinv h.tinv h.at_.opened hs, place_eq h.place rfl rfl rfl rfl⟩
      · exact stay _ n0 rfl ⟨h.going, h.running, rfl, hf, h.asked, h.at_, h.data, cstep_inv h.cinv hs, cstep_tinv h.tinv h.at_.opened hs, place_eq h.place rfl rfl rfl rfl⟩ rfl rfl
    | @frame _ _ n0 evs' ch p hu hf =>
      obtain ⟨r, g1, g2, g3⟩ := recv_frame ch p evs' hu.1 h.err hev
      rw [g1] at hr
      have hs := hstep.trans hr
      have hi : CInv w _ := cstep_inv h.cinv hs
      have ht : TInv _ := cstep_tinv h.tinv h.at_.opened hs
      have ha := adopt_eq { d.client with rdr := r, running := goesOn none } (s := { d.client.sess with out := .data ch p :: d.client.sess.out }) (o := [.data ch p]) rfl
      have hd' : DInv w tm { d with client := ({ d.client with rdr := r, running := goesOn none } : Client).adopt { d.client.sess with out := .data ch p :: d.client.sess.out } } kd qa qb n0 := by
        obtain ⟨old, a1, a2⟩ := h.asked
        rw [ha] at hi ht ⊢
        refine ⟨h.going, rfl, g2, by rw [show ({ d.client with rdr := r } : Client).rdr.evs = evs' from g3]; exact hf, ⟨old, a1, a2⟩, ⟨h.at_.opened, h.at_.proto, h.at_.user, h.at_.find, h.at_.nums, ?_⟩, ?_, hi, ht, place_eq h.place (List.append_nil _) rfl rfl rfl⟩
        · have := h.at_.kind
          cases kd <;> exact this
        · intro x hx
          rcases List.mem_append.1 hx with hx | hx
          · exact h.data x hx
          · have hx : x ∈ [(ch, p)] := hx
            rw [List.mem_singleton] at hx; subst hx; exact hu
      refine ⟨_, hs, kd, qa, qb, n0, hd', ?_⟩
      exact stay _ n0 rfl hd' (by rw [ha]; exact List.append_nil _) (by rw [ha])
    | @resp _ qs n0 evs' q x hc hsm hf =>
      obtain ⟨rsp, i1, i2⟩ := good_of hc hsm
      obtain ⟨r, g1, g2, g3⟩ := recv_msg (.response x) evs' (coop_legal hc hsm) hc.small h.err hev
      rw [i1] at g1
      have hat := h.at_
      rw [List.cons_append] at hat
      obtain ⟨s', o, news, notes, kd', b1, b2, b3, b4, b5, b6, b7⟩ := at_answer hw hat i2
      rw [g1] at hr
      dsimp only at hr
      rw [b1] at hr
      have hs := hstep.trans hr
      have hi := cstep_inv h.cinv hs
      have ht := cstep_tinv h.tinv h.at_.opened hs
      have ha := adopt_eq { d.client with rdr := r, running := goesOn none } (s := s') (o := o) b2
      have hst : (({ d.client with rdr := r, running := goesOn none } : Client).adopt s').states = notes := by
        rw [ha]
        show d.client.states ++ sentStages o = notes
        rw [hcan.2.1, b3]; rfl
      have hcalm : Calm d.client := by
        have hp := h.place
        cases kd with
        | idle k => have := (idle_nil h).1; cases this
        | options => exact hp.2
        | describe => exact hp.2
        | setup => exact hp.2
        | cmd k => exact hp.2
      obtain ⟨old, a1, a2⟩ := h.asked
      refine ⟨_, hs, kd', qs, qb ++ news, n0, ?_, .inl (goes_less b6 rfl (by simp) rfl (by omega) hst)⟩
      have hpl : PlaceOk (({ d.client with rdr := r, running := goesOn none } : Client).adopt s') kd' := goes_place b6 hst (by rw [ha]; exact hcalm)
      rw [ha] at hi ht hpl ⊢
      have hlen : d.answered - (q :: qs).length + 1 = d.answered - qs.length := by rw [List.length_cons] at a2 ⊢; omega
      rw [hlen] at hf
      refine ⟨h.going, rfl, g2, by rw [show ({ d.client with rdr := r } : Client).rdr.evs = evs' from g3]; exact hf, ⟨old ++ [q], ?_, ?_⟩, ?_, ?_, hi, ht, hpl⟩
      · show asked (o.map .wire ++ d.client.trace) = _
        rw [asked_append, asked_wire, b5, a1]; simp
      · show d.answered = _
        rw [a2]; simp; omega
      · rw [← List.append_assoc]; exact b7
      · intro x hx
        have hx : x ∈ d.client.data ++ sentData o := hx
        rw [b4, List.append_nil] at hx
        exact h.data x hx
  · have he : clientRead w d.client = .ok d.client := by unfold clientRead; rw [if_neg hcan]; rfl
    refine ⟨_, hstep.trans he, kd, qa, qb, n, h, .inr ⟨rfl, ?_⟩⟩
    by_cases hqa : qa = []
    · exact notq hqa
    · refine not_helpful (by simp) (by simp) (by simp) (by simp) (fun _ _ hb => ?_) (by simp)
      exfalso
      have hb : (if qa = [] then 0 else d.client.data.length) ≤ 20 := hb
      rw [if_neg hqa] at hb
      refine hcan ⟨h.running, ?_, hb⟩
      have hp := h.place
      cases kd with
      | idle k => exact absurd (idle_nil h).1 hqa
      | options => exact hp.1
      | describe => exact hp.1
      | setup => exact hp.1
      | cmd k => exact hp.1

theorem moves_read {w : World} (hw : ∀ o b, w.write o b = .ok) {tm : Terms} {srv : Nat → Request → Sent} {d : Dialogue} {kd : Kind} {qa qb : List Request} {n : Nat} (h : DInv w tm d kd qa qb n) :
    Moves w tm srv d (statOf tm d kd qa qb n) (.client .read) := by
  by_cases he : (d.client.rdr.buf.isEmpty && d.client.rdr.net.isEmpty) = true
  · have haw : d.await .read = d.deliver [.timeout] := by unfold Dialogue.await; rw [if_pos he]
    obtain ⟨n', h1, h2⟩ := h.fly.addQuiet
    obtain ⟨c, g1, kd', qa', qb', n'', g2, g3⟩ := read_some hw (h.deliver h1) (by rw [deliver_evs]; simp)
    rw [statOf_deliver h2] at g3
    refine ⟨{ d with client := c }, ?_, .inr ⟨kd', qa', qb', n'', g2, g3⟩⟩
    unfold dstep
    dsimp only
    rw [haw, g1]
  · have haw : d.await .read = d := by unfold Dialogue.await; rw [if_neg he]
    obtain ⟨c, g1, kd', qa', qb', n'', g2, g3⟩ := read_some hw h (by
      intro e
      unfold Rdr.evs at e
      rw [List.append_eq_nil_iff, List.map_eq_nil_iff] at e
      rw [e.1, e.2] at he
      exact he rfl)
    refine ⟨{ d with client := c }, ?_, .inr ⟨kd', qa', qb', n'', g2, g3⟩⟩
    unfold dstep
    dsimp only
    rw [haw, g1]

/-- Every step goes on, or changes nothing that counts. -/
theorem moves {w : World} (hw : ∀ o b, w.write o b = .ok) {tm : Terms} {srv : Nat → Request → Sent} (hsrv : ∀ k req, 0 < req.cseq → Cooperates w tm k req (srv k req))
    {d : Dialogue} {kd : Kind} {qa qb : List Request} {n : Nat} (h : DInv w tm d kd qa qb n) (e : DEv) (he : ∀ ch p, e = .frame ch p → UsableFrame ch p) :
    Moves w tm srv d (statOf tm d kd qa qb n) e := by
  cases e with
  | client e =>
    cases e with
    | read => exact moves_read hw h
    | expire => exact moves_expire h
    | timer => exact moves_timer hw h
    | stage => exact moves_stage hw h
    | packet => exact moves_packet h
  | answer => exact moves_answer hsrv h
  | frame ch p => exact moves_frame h (he ch p rfl)
  | quiet => exact moves_quiet h

/-- Sooner or later what brings the dialogue on happens. -/
theorem fair_helpful {sched : Nat → DEv} (hf : Fair sched) (x : Stat) (n : Nat) : ∃ m, n ≤ m ∧ sched m = helpful x := by
  rcases helpful_cases x with ⟨e, he⟩ | he <;> rw [he]
  · exact hf.1 e n
  · exact hf.2 n

theorem dialogue_ends {w : World} (hw : ∀ o b, w.write o b = .ok) {tm : Terms} {srv : Nat → Request → Sent} (hsrv : ∀ k req, 0 < req.cseq → Cooperates w tm k req (srv k req))
    {sched : Nat → DEv} (hfair : Fair sched) (hframes : ∀ n ch p, sched n = .frame ch p → UsableFrame ch p) (d0 : Dialogue) (x : Stat) :
    ∀ (m : Nat) (d : Dialogue) (kd : Kind) (qa qb : List Request) (n : Nat), drun w srv d0 sched m = .ok d → DInv w tm d kd qa qb n → statOf tm d kd qa qb n = x →
      ∃ m' d', drun w srv d0 sched m' = .ok d' ∧ Over d' := by
  induction x using less_wf.induction with
  | _ x ih =>
    intro m d kd qa qb n hrun hi hx
    obtain ⟨m1, hm1, hm2⟩ := fair_helpful hfair x m
    have key : ∀ (j m : Nat) (d : Dialogue) (kd : Kind) (qa qb : List Request) (n : Nat), m + j = m1 → drun w srv d0 sched m = .ok d → DInv w tm d kd qa qb n → statOf tm d kd qa qb n = x →
        ∃ m' d', drun w srv d0 sched m' = .ok d' ∧ Over d' := by
      intro j
      induction j with
      | zero =>
        intro m d kd qa qb n hj hrun hi hx
        obtain ⟨d', h1, h2⟩ := moves hw hsrv hi (sched m) (hframes m)
        have hrun' : drun w srv d0 sched (m + 1) = .ok d' := by rw [drun, hrun]; exact h1
        rw [hx] at h2
        rcases h2 with h2 | ⟨kd', qa', qb', n', h3, h4 | ⟨_, h4⟩⟩
        · exact ⟨_, _, hrun', h2⟩
        · exact ih _ h4 _ _ _ _ _ _ hrun' h3 rfl
        · rw [show m = m1 by omega, hm2] at h4; exact absurd rfl h4
      | succ j ihj =>
        intro m d kd qa qb n hj hrun hi hx
        obtain ⟨d', h1, h2⟩ := moves hw hsrv hi (sched m) (hframes m)
        have hrun' : drun w srv d0 sched (m + 1) = .ok d' := by rw [drun, hrun]; exact h1
        rw [hx] at h2
        rcases h2 with h2 | ⟨kd', qa', qb', n', h3, h4 | ⟨h4, _⟩⟩
        · exact ⟨_, _, hrun', h2⟩
        · exact ih _ h4 _ _ _ _ _ _ hrun' h3 rfl
        · exact ihj (m + 1) d' kd' qa' qb' n' (by omega) hrun' h3 h4
    exact key (m1 - m) m d kd qa qb n (by omega) hrun hi hx

/-- The dialogue begins. -/
theorem dopen_inv {w : World} (hw : ∀ o b, w.write o b = .ok) (uri : Bytes) (tm : Terms) :
    ∃ d q, dopen w uri tm.user = .ok d ∧ DInv w tm d .options [] [q] 0 := by
  obtain ⟨t, q, h1, h2, h3, h4, h5, h6, h7, h8, h9, h10⟩ := command_asks hw (s := { newSession with opened := true, baseURI := uri, proto := .tcp, user := tm.user }) rfl rfl verbOptions uri []
  have ha := adopt_eq { rdr := ⟨[], none, []⟩, sess := { newSession with opened := true, baseURI := uri, proto := .tcp, user := tm.user } } (s := t) (o := [.sent false q .ok]) h2
  obtain ⟨c, hc⟩ : ∃ c, clientOpen w uri tm.user ⟨[], none, []⟩ = .ok c := by
    refine ⟨({ rdr := ⟨[], none, []⟩, sess := { newSession with opened := true, baseURI := uri, proto := .tcp, user := tm.user } } : Client).adopt t, ?_⟩
    unfold clientOpen Client.order Sess.options
    rw [deref_open rfl, h1]
    rfl
  have hc' : c = ({ rdr := ⟨[], none, []⟩, sess := { newSession with opened := true, baseURI := uri, proto := .tcp, user := tm.user } } : Client).adopt t := by
    unfold clientOpen Client.order Sess.options at hc
    rw [deref_open rfl, h1] at hc
    injection hc with hc
    exact hc.symm
  have hi := open_inv (n := 0) hc
  have ht : TInv c := client_tinv ⟨uri, tm.user, _, 0, c, [], hc, rfl⟩
  refine ⟨{ client := c }, q, ?_, ?_⟩
  · unfold dopen; rw [hc]
  · rw [ha] at hc'
    subst hc'
    refine ⟨rfl, rfl, rfl, .nil, ⟨[], rfl, rfl⟩, ⟨h9.1, h9.2.1, h9.2.2.2, ?_, ⟨0, h5, ?_⟩, ⟨h6, h7, h5, q, rfl, h3⟩⟩, fun x hx => (by cases hx), hi, ht, ⟨rfl, rfl, rfl⟩⟩
    · intro q' hq'
      rw [List.nil_append, List.mem_singleton] at hq'
      subst hq'
      show t.find _ = _
      rw [h10, if_pos rfl]
    · show [q.cseq] = numbers _ (0 + 1)
      rw [numbers_succ, h4]; rfl

end Ouro
