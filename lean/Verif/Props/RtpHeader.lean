import Verif.Props.Determined
import Verif.Props.Rtp
/-! # C148: what the client reads of an RTP packet -/
namespace Ouro
open Spec

theorem fed_wire (s : NALSink × List (UInt8 × Nat × Bytes)) {p q : RtpWire} (hp : p.Valid) (hq : q.Valid) (ht : p.ts = q.ts) (hb : p.body = q.body) :
    fed s (0, p.encode) = fed s (0, q.encode) := by
  obtain ⟨x, h1, -, -, -, -, -, -, h2, -, -, -, -, h3⟩ := C23_unpack p hp
  obtain ⟨y, k1, -, -, -, -, -, -, k2, -, -, -, -, k3⟩ := C23_unpack q hq
  unfold fed
  rw [h1, k1]
  dsimp only
  rw [h2, h3, k2, k3, ht, hb]

/-- **C148**. Two clients that have taken video packets which agree, one by one, in their timestamps and in what follows the header have reported the same
units: padding flag, marker, payload type, sequence number, sources and header extension make no difference, and neither does anything else in the two
runs. -/
theorem C148_header (w w' : World) (c c' : Client) (h : ClientReachable w c) (h' : ClientReachable w' c') (ps qs : List RtpWire)
    (hp : ∀ p ∈ ps, p.Valid) (hq : ∀ q ∈ qs, q.Valid) (hc : videoBytes c.trace = ps.map (·.encode)) (hc' : videoBytes c'.trace = qs.map (·.encode))
    (he : ps.map (fun p => (p.ts, p.body)) = qs.map (fun q => (q.ts, q.body))) : reported c.trace = reported c'.trace := by
  rw [reported_fed h, reported_fed h', hc, hc', List.foldl_map, List.foldl_map]
  congr 1
  clear hc hc'
  generalize ((newNALSink, []) : NALSink × List (UInt8 × Nat × Bytes)) = s
  induction ps generalizing qs s with
  | nil =>
    have : qs = [] := List.map_eq_nil_iff.1 he.symm
    subst this; rfl
  | cons p ps ih =>
    cases qs with
    | nil => cases he
    | cons q qs =>
      simp only [List.map_cons, List.cons.injEq, Prod.mk.injEq] at he
      obtain ⟨⟨h1, h2⟩, h3⟩ := he
      rw [List.foldl_cons, List.foldl_cons, fed_wire s (hp p (by simp)) (hq q (by simp)) h1 h2]
      exact ih qs (fun p hp' => hp p (by simp [hp'])) (fun q hq' => hq q (by simp [hq'])) h3 _

/-- A packet as it comes from a mixer. -/
def mixed (p : RtpWire) : RtpWire :=
  { p with marker := !p.marker, pt := 33, sn := 65535 - p.sn, ssrc := 99, csrc := [1, 2, 3], ext := some (7, [1, 2, 3, 4]) }

/-- The hypotheses of `C148_header`: four packets, and the same from a mixer. -/
example : ∃ c c', ClientReachable demoWorld c ∧ ClientReachable demoWorld c' ∧ videoBytes c.trace = (demoVideo.map (·.rtp)).map (·.encode) ∧
    videoBytes c'.trace = (demoVideo.map (mixed ·.rtp)).map (·.encode) ∧ (reported c.trace).length = 4 ∧ videoBytes c.trace ≠ videoBytes c'.trace := by
  obtain ⟨c, h1, h2⟩ := demoClient_shows (frames := demoVideo.map (·.rtp.encode)) (es := demoPlay ++ demoFrame ++ demoFrame ++ demoFrame ++ demoFrame)
    (f := fun c => decide (videoBytes c.trace = (demoVideo.map (·.rtp)).map (·.encode) ∧ (reported c.trace).length = 4)) (a := true) (by decide +kernel)
  obtain ⟨c', h1', h2'⟩ := demoClient_shows (frames := demoVideo.map (fun v => (mixed v.rtp).encode)) (es := demoPlay ++ demoFrame ++ demoFrame ++ demoFrame ++ demoFrame)
    (f := fun c => decide (videoBytes c.trace = (demoVideo.map (mixed ·.rtp)).map (·.encode))) (a := true) (by decide +kernel)
  obtain ⟨k1, k2⟩ := of_decide_eq_true h2
  have k1' := of_decide_eq_true h2'
  refine ⟨c, c', h1, h1', k1, k1', k2, ?_⟩
  rw [k1, k1']
  decide +kernel

end Ouro
