import Verif.Lemmas.Chunks2
import Verif.Spec.Chunks
/-! # C86: how the stream is cut into pieces does not matter -/
namespace Ouro
open Spec

theorem delivered_eq (net : List Rd) : delivered net = netEvs net := by
  induction net with
  | nil => rfl
  | cons e t ih =>
    cases e <;> simp [delivered, netEvs, Rd.evs, ih]

theorem order_keeps {c c' : Client} {x : Go (Sess × Option SErr)} (h : c.order x = .ok c') : c'.running = c.running ∧ c'.rdr = c.rdr := by
  rcases x with _ | ⟨s, _ | e⟩
  · cases h
  · cases h; exact ⟨rfl, rfl⟩
  · cases h; exact ⟨rfl, rfl⟩

/-- Steps that do not read leave the goroutine as it is and do not look at the reader. -/
theorem cstep_other (w : World) (c : Client) (e : CEv) (he : e ≠ .read) (r : Rdr) :
    cstep w { c with rdr := r } e = (cstep w c e).map fun c' => { c' with rdr := r } := by
  have hord : ∀ (c : Client) (x : Go (Sess × Option SErr)), Client.order { c with rdr := r } x = (c.order x).map fun c' => { c' with rdr := r } := by
    intro c x
    rcases x with _ | ⟨_, _ | _⟩ <;> rfl
  unfold cstep
  dsimp only
  split
  · rfl
  · cases e with
    | read => exact absurd rfl he
    | expire => dsimp only; split <;> rfl
    | timer =>
      dsimp only
      unfold clientTimer
      dsimp only
      repeat' split
      all_goals first | exact hord { c with fired := false, trace := .timer :: c.trace } _ | rfl
    | stage =>
      dsimp only
      unfold clientStage
      dsimp only
      cases hs : c.states with
      | nil => simp [Except.map, pure, Except.pure, hs]
      | cons k ks =>
        dsimp only
        repeat' split
        all_goals first | exact hord { c with states := ks, state := k, trace := .stage k :: c.trace } _ | rfl
    | packet =>
      dsimp only
      unfold clientPacket
      dsimp only
      cases hd : c.data with
      | nil => simp [Except.map, pure, Except.pure, hd]
      | cons p rest =>
        obtain ⟨ch, payload⟩ := p
        dsimp only
        repeat' split
        all_goals rfl

theorem cstep_keeps (w : World) (c : Client) (e : CEv) (he : e ≠ .read) {c' : Client} (h : cstep w c e = .ok c') :
    c'.running = c.running ∧ c'.rdr = c.rdr := by
  unfold cstep at h
  split at h
  · cases h; exact ⟨rfl, rfl⟩
  · cases e with
    | read => exact absurd rfl he
    | expire => dsimp only at h; split at h <;> (cases h; exact ⟨rfl, rfl⟩)
    | timer =>
      dsimp only at h
      unfold clientTimer at h
      dsimp only at h
      repeat' split at h
      all_goals first
        | (have hh := order_keeps h; exact hh)
        | (cases h; exact ⟨rfl, rfl⟩)
    | stage =>
      dsimp only at h
      unfold clientStage at h
      dsimp only at h
      repeat' split at h
      all_goals first
        | (have hh := order_keeps h; exact hh)
        | (cases h; exact ⟨rfl, rfl⟩)
    | packet =>
      dsimp only at h
      unfold clientPacket at h
      dsimp only at h
      repeat' split at h
      all_goals first
        | (cases h; done)
        | (cases h; exact ⟨rfl, rfl⟩)

section
variable {ρ σ : Type} {m : Methods ρ} {n : Methods σ} {okr : ρ → Prop} {oks : σ → Prop} {er : ρ → List Ev} {es : σ → List Ev}

/-- The same client; twin readers as long as they are used. -/
def SameRun (okr : ρ → Prop) (oks : σ → Prop) (er : ρ → List Ev) (es : σ → List Ev) (x : ρ × Client) (y : σ × Client) : Prop :=
  x.2 = y.2 ∧ (x.2.running = true → Twins okr oks er es x.1 y.1)

/-- Both panic in the same way or are related. -/
def Both {α β : Type} (R : α → β → Prop) : Go α → Go β → Prop
  | .ok a, .ok b => R a b
  | .error p, .error q => p = q
  | _, _ => False

variable (hm : Meets m okr er) (hn : Meets n oks es)
include hm hn

theorem same_read (w : World) {r : ρ} {s : σ} {c : Client} (h : c.running = true → Twins okr oks er es r s) :
    Both (SameRun okr oks er es) (clientReadM m w r c) (clientReadM n w s c) := by
  unfold clientReadM
  split
  · next hg =>
    obtain ⟨h1, h2⟩ := agree_recv hm hn (h hg.1)
    revert h1 h2
    rcases recvM m r with ⟨e | item, r'⟩ <;> rcases recvM n s with ⟨e' | item', s'⟩ <;> dsimp only <;> intro h1 h2
    · injection h1 with h1; subst h1
      rcases e with e | _ | _ | _
      · cases e with
        | timeout => exact ⟨rfl, fun _ => h2.resolve_left (fun h => by injection h with h; injection h with h; cases h)⟩
        | eof => exact ⟨rfl, fun h => by cases h⟩
        | reset => exact ⟨rfl, fun h => by cases h⟩
        | bufferFull => exact ⟨rfl, fun h => by cases h⟩
      all_goals exact ⟨rfl, fun h => by cases h⟩
    · cases h1
    · cases h1
    · injection h1 with h1; subst h1
      cases handleItem w c.sess item with
      | error p => exact rfl
      | ok q => exact ⟨rfl, fun _ => h2.resolve_left (fun h => by cases h)⟩
  · exact ⟨rfl, h⟩

theorem same_step (w : World) {r : ρ} {s : σ} {c : Client} (e : CEv) (h : c.running = true → Twins okr oks er es r s) :
    Both (SameRun okr oks er es) (cstepM m w r c e) (cstepM n w s c e) := by
  unfold cstepM
  split
  · exact ⟨rfl, h⟩
  · split
    · exact same_read hm hn w h
    · next hne =>
      cases hc : cstep w c e with
      | error p => exact rfl
      | ok c' => exact ⟨rfl, fun hr => h (by rw [← (cstep_keeps w c e (fun h => hne h) hc).1]; exact hr)⟩

theorem same_steps (w : World) (sched : List CEv) : ∀ {r : ρ} {s : σ} {c : Client}, (c.running = true → Twins okr oks er es r s) →
    Both (SameRun okr oks er es) (cstepsM m w r c sched) (cstepsM n w s c sched) := by
  induction sched with
  | nil => intro r s c h; exact ⟨rfl, h⟩
  | cons e sched ih =>
    intro r s c h
    have hs := same_step hm hn w e h
    rw [cstepsM, cstepsM]
    revert hs
    rcases cstepM m w r c e with p | ⟨r', c'⟩ <;> rcases cstepM n w s c e with q | ⟨s', d'⟩ <;> intro hs
    · exact hs
    · exact hs.elim
    · exact hs.elim
    · obtain ⟨h1, h2⟩ := hs
      dsimp only at h1
      subst h1
      exact ih h2

end

theorem both_client {ρ σ : Type} {okr : ρ → Prop} {oks : σ → Prop} {er : ρ → List Ev} {es : σ → List Ev} {x : Go (ρ × Client)} {y : Go (σ × Client)}
    (h : Both (SameRun okr oks er es) x y) : clientOf x = clientOf y := by
  rcases x with p | ⟨r, c⟩ <;> rcases y with q | ⟨s, d⟩
  · exact congrArg Except.error h
  · exact h.elim
  · exact h.elim
  · exact congrArg Except.ok h.1

theorem twins_new {a b : List Rd} (h : SameStream a b) : Twins CRdr.Calm CRdr.Calm CRdr.evs CRdr.evs ⟨[], none, a⟩ ⟨[], none, b⟩ := by
  refine ⟨⟨rfl, Nat.zero_le _⟩, ⟨rfl, Nat.zero_le _⟩, ?_⟩
  show netEvs a = netEvs b
  rw [← delivered_eq, ← delivered_eq]; exact h

/-- C86: two connections that deliver the same bytes in different pieces, with deadlines expiring at the same places, make the command line client do
the same, under every schedule: the same requests, stages, packets and units, and the same end. -/
theorem C86_client (w : World) (c : Client) (a b : List Rd) (h : SameStream a b) (sched : List CEv) :
    clientOf (cstepsM chunkMethods w ⟨[], none, a⟩ c sched) = clientOf (cstepsM chunkMethods w ⟨[], none, b⟩ c sched) :=
  both_client (same_steps chunk_meets chunk_meets w sched (fun _ => twins_new h))

/-- C86: the same for one call of `receive`, at any point: the same packet, response or error. -/
theorem C86_receive (a b : List Rd) (h : SameStream a b) : (recvM chunkMethods ⟨[], none, a⟩).1 = (recvM chunkMethods ⟨[], none, b⟩).1 :=
  (agree_recv chunk_meets chunk_meets (twins_new h)).1

/-- C86: the same for the HTTP handshake and the `receive` after it. -/
theorem C86_handshake (a b : List Rd) (h : SameStream a b) :
    (receiveHTTPM chunkMethods ⟨[], none, a⟩).1 = (receiveHTTPM chunkMethods ⟨[], none, b⟩).1 ∧
    (recvM chunkMethods (receiveHTTPM chunkMethods ⟨[], none, a⟩).2).1 = (recvM chunkMethods (receiveHTTPM chunkMethods ⟨[], none, b⟩).2).1 := by
  have := agree_receiveHTTP chunk_meets chunk_meets (twins_new h)
  exact ⟨this.1, (agree_recv chunk_meets chunk_meets this.2).1⟩

/-! ## The same as the model with single bytes -/

theorem cstepM_byte (w : World) (r : Rdr) (c : Client) (e : CEv) :
    cstep w { c with rdr := r } e = (cstepM byteMethods w r c e).map fun x => { x.2 with rdr := x.1 } := by
  unfold cstepM
  by_cases hend : c.ended = true
  · rw [if_pos hend]; unfold cstep; dsimp only; rw [if_pos hend]; rfl
  · rw [if_neg hend]
    cases e with
    | read =>
      show cstep w { c with rdr := r } .read = (clientReadM byteMethods w r c).map _
      unfold cstep clientReadM
      dsimp only
      rw [if_neg hend, recvM_byte]
      unfold clientRead
      dsimp only
      split
      · rcases recv r with ⟨e | item, r'⟩
        · rcases e with e | _ | _ | _
          · cases e <;> rfl
          all_goals rfl
        · dsimp only
          rcases handleItem w c.sess item with _ | ⟨s, e⟩ <;> rfl
      · rfl
    | expire => rw [cstep_other w c .expire (by simp) r]; dsimp only; rcases cstep w c .expire with _ | _ <;> rfl
    | timer => rw [cstep_other w c .timer (by simp) r]; dsimp only; rcases cstep w c .timer with _ | _ <;> rfl
    | stage => rw [cstep_other w c .stage (by simp) r]; dsimp only; rcases cstep w c .stage with _ | _ <;> rfl
    | packet => rw [cstep_other w c .packet (by simp) r]; dsimp only; rcases cstep w c .packet with _ | _ <;> rfl

theorem cstepsM_byte (w : World) (sched : List CEv) : ∀ (r : Rdr) (c : Client),
    csteps w { c with rdr := r } sched = (cstepsM byteMethods w r c sched).map fun x => { x.2 with rdr := x.1 } := by
  induction sched with
  | nil => intro r c; rfl
  | cons e sched ih =>
    intro r c
    rw [csteps, cstepsM, cstepM_byte]
    rcases cstepM byteMethods w r c e with p | ⟨r', c'⟩
    · rfl
    · exact ih r' c'

theorem cstepsM_rdr (w : World) (sched : List CEv) : ∀ (r s : Rdr) (c d : Client), cstepsM byteMethods w r c sched = .ok (s, d) → d.rdr = c.rdr := by
  induction sched with
  | nil => intro r s c d h; cases h; rfl
  | cons e sched ih =>
    intro r s c d h
    rw [cstepsM] at h
    cases hc : cstepM byteMethods w r c e with
    | error p => rw [hc] at h; cases h
    | ok x =>
      obtain ⟨r', c'⟩ := x
      rw [hc] at h
      rw [ih r' s c' d h]
      unfold cstepM at hc
      split at hc
      · cases hc; rfl
      · split at hc
        · unfold clientReadM at hc
          repeat' split at hc
          all_goals first | (cases hc; done) | (cases hc; rfl)
        · next hne =>
          split at hc
          · cases hc
          · next hs => cases hc; exact (cstep_keeps w c e (fun h => hne h) hs).2

/-- C86: with pieces the client does what the model with single bytes (Model/Main) says, so that every theorem about that model holds for every way to cut the
stream. The reader itself is left out of the comparison. -/
theorem C86_refines (w : World) (c : Client) (net : List Rd) (sched : List CEv) :
    clientOf (cstepsM chunkMethods w ⟨[], none, net⟩ c sched) =
      (csteps w { c with rdr := ⟨[], none, delivered net⟩ } sched).map fun c' => { c' with rdr := c.rdr } := by
  have ht : Twins CRdr.Calm Rdr.Calm CRdr.evs Rdr.evs ⟨[], none, net⟩ ⟨[], none, delivered net⟩ :=
    ⟨⟨rfl, Nat.zero_le _⟩, rfl, (delivered_eq net).symm⟩
  have hb := same_steps chunk_meets byte_meets w sched (c := c) (fun _ => ht)
  rw [both_client hb, cstepsM_byte]
  rcases hx : cstepsM byteMethods w ⟨[], none, delivered net⟩ c sched with p | ⟨s, d⟩
  · rfl
  · have := cstepsM_rdr w sched _ _ _ _ hx
    show Except.ok d = Except.ok _
    rw [← this]

/-- C86: one call of `receive` with pieces returns what it returns in the model with single bytes. -/
theorem C86_receive_refines (net : List Rd) : (recvM chunkMethods ⟨[], none, net⟩).1 = (recv ⟨[], none, delivered net⟩).1 := by
  rw [← recvM_byte]
  exact (agree_recv (r := (⟨[], none, net⟩ : CRdr)) (s := (⟨[], none, delivered net⟩ : Rdr)) chunk_meets byte_meets ⟨⟨rfl, Nat.zero_le _⟩, rfl, (delivered_eq net).symm⟩).1

/-! A response and a packet: in one piece, and cut inside the status line, inside the end of the headers, inside the body and inside the head of the
packet, with a deadline that expires at the same place in both. -/

def wholePiece : List Rd := [.data 82 (b!"TSP/1.0 200 OK\r\nCSeq: 7\r\nContent-Length: 3\r\n\r\nabc" ++ [36, 1, 0, 2, 9]), .timeout, .data 8 []]

def manyPieces : List Rd := [.data 82 b!"TSP/1.0 2", .data 48 b!"0 OK\r\nCSeq: 7\r\nContent-Length: 3\r\n\r", .data 10 b!"a", .data 98 b!"", .data 99 [36, 1],
  .data 0 [2, 9], .timeout, .data 8 []]

example : SameStream wholePiece manyPieces := by unfold SameStream; decide +kernel

example : (recvM chunkMethods ⟨[], none, manyPieces⟩).1 = (recvM chunkMethods ⟨[], none, wholePiece⟩).1 :=
  C86_receive _ _ (by unfold SameStream; decide +kernel)

example : (match (recvM chunkMethods ⟨[], none, manyPieces⟩).1 with
    | .ok (.response r) => r.body == some b!"abc" && r.statusCode == 200
    | _ => false) = true := by
  rw [C86_receive_refines]; decide +kernel

end Ouro
