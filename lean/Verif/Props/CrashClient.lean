import Verif.Props.Crash
import Verif.Props.Main
/-! # C75 for the command line client -/
namespace Ouro
open Spec

/-- A packet that makes the client panic: a truncated RTP packet, an RTP packet with an aggregate that has an impossible size field in it, or an
RTCP packet shorter than its header. -/
def Deadly (ch : UInt8) (p : Bytes) : Prop :=
  if ch % 2 = 0 then
    p = [] ∨ (∃ b0 rest, p = b0 :: rest ∧ b0.toNat / 64 = 2 ∧ ¬ ∃ q : RtpWire, q.Valid ∧ q.encode = p) ∨
    ∃ q : RtpWire, q.Valid ∧ q.encode = p ∧ ∃ pre bad post, splitAnnexB q.body = .ok (pre ++ bad :: post) ∧ (∀ x ∈ pre, Accepted x) ∧ Fatal bad
  else p.length < 4

/-- A response that may make the client panic. -/
def Risky (s : Sess) (rsp : Response) : Prop :=
  (∃ body, rsp.body = some body ∧ ¬ SafeBody body) ∨ ∃ f ∈ s.feeds, ∃ x ∈ f.media.spropParameterSets, ¬ SafeSet x

/-- C75, the client: whatever the server sends and however the loops are scheduled, it panics only on reading a response with a dangerous description (or
after one was read), or on taking a deadly packet. -/
theorem C75_client_reasons (w : World) (c : Client) (h : ClientReachable w c) (e : CEv) (hp : Panics (cstep w c e)) :
    (e = .read ∧ ∃ rsp r', recv c.rdr = (.ok (.response rsp), r') ∧ Risky c.sess rsp) ∨
    (e = .packet ∧ ∃ ch p rest, c.data = (ch, p) :: rest ∧ Deadly ch p) := by
  obtain ⟨hopen, hproto⟩ := plain_static (client_inv h).reach
  obtain ⟨p, hp⟩ := hp
  unfold cstep at hp
  split at hp
  · cases hp
  -- a command of the loop
  have order : ∀ (d : Client) (verb uri : Bytes) (hs : Header), d.sess = c.sess → d.order (d.sess.deref (command w d.sess verb uri hs)) ≠ .error p := by
    intro d verb uri hs hd hp
    rw [deref_open (by rw [hd]; exact hopen)] at hp
    obtain ⟨s', e, h1⟩ := command_runs w (s := d.sess) (by rw [hd]; exact hproto) verb uri hs
    rw [h1] at hp
    unfold Client.order at hp
    cases e <;> cases hp
  cases e with
  | read =>
    left
    refine ⟨rfl, ?_⟩
    dsimp only at hp
    unfold clientRead at hp
    split at hp
    · split at hp
      · cases hp
      · cases hp
      · next item r hr =>
        cases item with
        | frame ch pl => cases hp
        | response rsp =>
          refine ⟨rsp, r, hr, ?_⟩
          apply Classical.byContradiction
          intro hn
          have hh : Hardy c.sess := by
            refine ⟨⟨hproto, hopen⟩, fun f hf x hx => ?_⟩
            apply Classical.byContradiction
            intro hx'
            exact hn (.inr ⟨f, hf, x, hx, hx'⟩)
          have hop : SafeOp (.item (.response rsp)) := by
            intro body hb
            apply Classical.byContradiction
            intro hb'
            exact hn (.inl ⟨body, hb, hb'⟩)
          obtain ⟨s', e, h1, _⟩ := step_total (w := w) hh _ hop
          have h1 : handleItem w c.sess (.response rsp) = .ok (s', e) := h1
          rw [h1] at hp
          cases hp
    · cases hp
  | expire => cases hp
  | timer =>
    exfalso
    dsimp only at hp
    unfold clientTimer at hp
    split at hp
    · dsimp only at hp
      split at hp
      · exact order { c with fired := false, trace := .timer :: c.trace } verbPause c.sess.baseURI [] rfl hp
      · split at hp
        · exact order { c with fired := false, trace := .timer :: c.trace } verbTeardown c.sess.baseURI [] rfl hp
        · split at hp <;> cases hp
    · cases hp
  | stage =>
    exfalso
    dsimp only at hp
    unfold clientStage at hp
    split at hp
    · cases hp
    · next k ks _ =>
      dsimp only at hp
      split at hp
      · exact order { c with states := ks, state := k, trace := .stage k :: c.trace } verbPlay c.sess.baseURI [] rfl hp
      · repeat' (split at hp)
        all_goals cases hp
  | packet =>
    right
    refine ⟨rfl, ?_⟩
    dsimp only at hp
    unfold clientPacket at hp
    split at hp
    · cases hp
    · next ch pl rest hd =>
      refine ⟨ch, pl, rest, hd, ?_⟩
      dsimp only at hp
      unfold Deadly
      split at hp
      · next hch =>
        rw [if_pos hch]
        cases hu : rtpUnpack pl with
        | error x =>
          rcases (C24_panics_iff pl).1 ⟨x, hu⟩ with h | h
          · exact .inl h
          · exact .inr (.inl h)
        | ok x =>
          rw [hu] at hp
          cases x with
          | error x => cases hp
          | ok q =>
            dsimp only at hp
            right; right
            obtain ⟨g1, g2⟩ := C24_accepts_only_packets pl q hu
            refine ⟨q.wire, g1, g2, ?_⟩
            cases hpush : push c.sink q.pl q.ts with
            | error x => exact (C18_push_panics_iff c.sink (client_tinv h).don q.pl q.ts).1 ⟨x, hpush⟩
            | ok x =>
              rw [hpush] at hp
              obtain ⟨e, sink⟩ := x
              cases e <;> cases hp
      · next hch =>
        rw [if_neg hch]
        cases hu : rtcpUnpack pl with
        | error x => exact (C27_panics_iff pl).1 ⟨x, hu⟩
        | ok x =>
          rw [hu] at hp
          cases x <;> cases hp

/-- C75 fails for the client too: one byte on the video channel ... -/
theorem C75_packet_refuted : ∃ c, ClientReachable demoWorld c ∧ (cstep demoWorld c .packet).isOk = false :=
  demoClient_shows (frames := [[0x80]]) (es := demoPlay ++ [.read]) (f := fun c => (cstep demoWorld c .packet).isOk) (by decide +kernel)

/-- ... or a complete RTP packet with an aggregate whose first size is 0. -/
theorem C75_aggregate_refuted : ∃ c, ClientReachable demoWorld c ∧ (cstep demoWorld c .packet).isOk = false :=
  demoClient_shows (frames := [[0x80, 96, 0, 1, 0, 0, 0, 2, 0, 0, 0, 3, 24, 0, 0]]) (es := demoPlay ++ [.read]) (f := fun c => (cstep demoWorld c .packet).isOk) (by decide +kernel)

end Ouro
