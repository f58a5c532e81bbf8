import Verif.Spec.Over
import Verif.Props.Commands
import Verif.Props.Firsts
/-! # After the end of a session -/
namespace Ouro
open Spec

theorem stage_none {t : List Act} (h : milestones t = []) : stageNow (wires t) = 0 := by
  induction t with
  | nil => rfl
  | cons a t ih =>
    cases a with
    | wire o =>
      cases o with
      | notified k => exact absurd h (by show ¬ milestones t ++ [.reached k] = []; simp)
      | sent again req res =>
        cases again with
        | true => exact ih h
        | false =>
          have h : (if Own req.verb then milestones t else milestones t ++ [.asked req.verb]) = [] := h
          split at h
          · exact ih h
          · exact absurd h (by simp)
      | got => exact ih h
      | started => exact ih h
      | data => exact ih h
    | ended why =>
      cases why with
      | finished => exact absurd h (by show ¬ milestones t ++ [.finished] = []; simp)
      | _ => exact ih h
    | _ => exact ih h

/-- The first OPTIONS is answered once anything has been reported. -/
def Opened (c : Client) : Prop := c.sess.stage ≠ 0 → cnt b!"OPTIONS" c.sess.queue = 0

theorem place_start {w : World} {c : Client} (hi : CInv w c) (hw : wires c.trace = c.sess.out) (hne : c.ended = false) :
    (c.sess.stage = 0 ∧ Quota 1 c.sess) ∨ Settled c.sess := by
  obtain ⟨hr, n, _, hm, hp⟩ := hi
  have hst : c.sess.stage = stageNow c.sess.out := stageOk_reachable (PlainReachable.reachable hr)
  cases hp hne with
  | waiting k hk hs' hst' ht hq' hset =>
    cases k with
    | zero => exact .inl ⟨by rw [hst, ← hw]; exact stage_none hm, hq'⟩
    | succ k => exact .inr (hset (by omega))
  | told k hk hs' hst' ht hq' hset => exact .inr hset
  | timing k h1 hk hs' hst' ht hq' hset => exact .inr hset

theorem opened_response {w : World} {c : Client} {s : Sess} {rsp : Response} {e : Option SErr} (hi : CInv w c) (hw : wires c.trace = c.sess.out) (hne : c.ended = false)
    (ho : Opened c) (h : handleItem w c.sess (.response rsp) = .ok (s, e)) : s.stage ≠ 0 → cnt b!"OPTIONS" s.queue = 0 := by
  intro hs
  rcases place_start hi hw hne with ⟨h0, hq0⟩ | hset
  · cases response_effect h with
    | plain own ho hown hst hq hset => exact absurd (hst.trans h0) hs
    | retried req res ho hst hq hin => exact absurd (hst.trans h0) hs
    | granted st v ho hst hv hc hq =>
      obtain ⟨k1, k2⟩ := not_own hv
      have := hq0 v k1
      rw [if_neg (by rw [hv]; intro k; injection k with k; omega)] at this
      omega
    | ready sinks ho hst hq hin hall =>
      obtain ⟨d, hc⟩ := plain_counts hi.reach
      have h1 := hc.once
      rw [if_pos h0] at h1
      have h2 := hc.open_
      have h3 : d ≠ 0 := fun hd => by have := (hc.fresh hd).2.2; omega
      have := hq b!"OPTIONS"
      omega
  · have h0 := ho hset.stage
    have key : cnt b!"OPTIONS" s.queue ≤ cnt b!"OPTIONS" c.sess.queue := by
      cases response_effect h with
      | plain own ho hown hst hq hs => exact (hs hset.describe hset.stage).2 _
      | retried req res ho hst hq hin => exact hq _
      | granted st v ho hst hv hc hq => exact hq _
      | ready sinks ho hst hq hin hall => exact hq _
    omega

theorem opened_order {w : World} {c c' : Client} {verb : Bytes} (hv : verb ≠ b!"OPTIONS") (hopen : c.sess.opened = true)
    (ho : Opened c) (hc : c.order (c.sess.deref (command w c.sess verb c.sess.baseURI [])) = .ok c') : Opened c' := by
  rw [deref_open hopen] at hc
  obtain ⟨s, req, res, e, hcmd, hout, hverb, hq, hst, hcase⟩ := order_out hopen hc
  have key : s.stage ≠ 0 → cnt b!"OPTIONS" s.queue = 0 := by
    intro hs
    have h0 := ho (by rw [← hst]; exact hs)
    have := cnt_insert b!"OPTIONS" c.sess.queue req
    rw [if_neg (by rw [hverb]; exact hv)] at this
    rw [hq]
    omega
  rcases hcase with ⟨_, rfl⟩ | ⟨_, rfl⟩
  · exact key
  · exact key

theorem packet_sess {c c' : Client} (h : clientPacket c = .ok c') :
    c'.sess = c.sess ∧ ∃ new, c'.trace = new ++ c.trace ∧ ∀ a ∈ new, OnlyTakes a := by
  unfold clientPacket at h
  split at h
  · injection h with h; subst h; exact ⟨rfl, [], rfl, fun a h => by (cases h)⟩
  · rename_i ch payload rest _
    have one : ∀ a ∈ [Act.packet ch payload], OnlyTakes a := fun a h => by rw [List.mem_singleton] at h; subst h; trivial
    have two : ∀ why, ∀ a ∈ [Act.ended why, Act.packet ch payload], OnlyTakes a := fun why a h => by
      rcases List.mem_cons.1 h with rfl | h
      · trivial
      · exact one a h
    dsimp only at h
    split at h
    · split at h
      · cases h
      · injection h with h; subst h; exact ⟨rfl, _, rfl, two _⟩
      · split at h
        · cases h
        · injection h with h; subst h; exact ⟨rfl, [.ended .badPacket, .packet ch payload], rfl, two _⟩
        · rename_i sink _
          injection h with h; subst h
          refine ⟨rfl, (sink.units.map .unit).reverse ++ [.packet ch payload], by simp, fun a ha => ?_⟩
          rcases List.mem_append.1 ha with ha | ha
          · rw [List.mem_reverse] at ha
            obtain ⟨u, _, rfl⟩ := List.mem_map.1 ha
            trivial
          · exact one a ha
    · split at h
      · cases h
      · injection h with h; subst h; exact ⟨rfl, _, rfl, two _⟩
      · injection h with h; subst h; exact ⟨rfl, _, rfl, one⟩

theorem opened_step {w : World} {c c' : Client} {e : CEv} (hi : CInv w c) (hw : wires c.trace = c.sess.out) (ho : Opened c) (h : cstep w c e = .ok c') : Opened c' := by
  have hopen := (plain_static hi.reach).1
  unfold cstep at h
  split at h
  · injection h with h; subst h; exact ho
  · rename_i hne
    have hne : c.ended = false := by simpa using hne
    cases e with
    | read =>
      have h : clientRead w c = .ok c' := h
      unfold clientRead at h
      split at h
      · split at h
        · injection h with h; subst h; exact ho
        · injection h with h; subst h; exact ho
        · rename_i item r hq
          cases hs : handleItem w c.sess item with
          | error p => rw [hs] at h; cases h
          | ok x =>
            obtain ⟨s, e⟩ := x
            rw [hs] at h
            injection h with h; subst h
            show s.stage ≠ 0 → _
            cases item with
            | frame ch p => injection hs with hs; injection hs with hs _; subst hs; exact ho
            | response rsp => exact opened_response hi hw hne ho hs
      · injection h with h; subst h; exact ho
    | expire =>
      injection h with h; subst h
      split
      · exact ho
      · exact ho
    | timer =>
      have h : clientTimer w c = .ok c' := h
      unfold clientTimer at h
      split at h
      · dsimp only at h
        split at h
        · exact opened_order (c := { c with fired := false, trace := .timer :: c.trace }) (verb := verbPause) (by decide) hopen ho h
        · split at h
          · exact opened_order (c := { c with fired := false, trace := .timer :: c.trace }) (verb := verbTeardown) (by decide) hopen ho h
          · split at h
            · injection h with h; subst h; exact ho
            · injection h with h; subst h; exact ho
      · injection h with h; subst h; exact ho
    | stage =>
      have h : clientStage w c = .ok c' := h
      unfold clientStage at h
      split at h
      · injection h with h; subst h; exact ho
      · rename_i k ks hks
        dsimp only at h
        split at h
        · exact opened_order (c := { c with states := ks, state := k, trace := .stage k :: c.trace }) (verb := verbPlay) (by decide) hopen ho h
        · split at h
          · injection h with h; subst h; exact ho
          · split at h
            · injection h with h; subst h; exact ho
            · split at h
              · injection h with h; subst h; exact ho
              · injection h with h; subst h; exact ho
    | packet =>
      have hsess : c'.sess = c.sess := (packet_sess h).1
      show c'.sess.stage ≠ 0 → _
      rw [hsess]; exact ho

end Ouro
