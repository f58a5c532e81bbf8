import Verif.Props.NalUnits
/-! # C67, C68: exactly when a fragmented unit has its number, and an end fragment nothing of an earlier unit -/
namespace Ouro
open Spec

/-- **C67**, exactly when it holds: whatever unit is sent as an FU-B with the number `don` and any further fragments, one unit is delivered, with the last fragment, and it
has that number exactly if the last fragment is an FU-B with the same number, or an FU-A and the counter of the sink happens to be at that number. -/
theorem C67_iff (s : NALSink) (header : UInt8) (h0 : header &&& 0x1F ≠ 0) (don : Nat) (piece : Bytes) (ts : Nat) (last : FuPacket) (mids : List FuPacket)
    (h1 : ¬ [0, 0, 1] <:+: fuB header true false don piece) (hm : ∀ p ∈ mids, ¬ [0, 0, 1] <:+: p.bytes header false false)
    (h2 : ¬ [0, 0, 1] <:+: last.bytes header false true) (hdon : don < 65536) (hd : ∀ p ∈ last :: mids, ∀ d, p.don = some d → d < 65536) :
    ∃ u s', pushAll s ((fuB header true false don piece, ts) ::
        (mids.map (fun p => (p.bytes header false false, p.ts)) ++ [(last.bytes header false true, last.ts)])) =
      some (List.replicate (mids.length + 1) [] ++ [[u]], s') ∧
      (u.don = don ↔ last.don = some don ∨ last.don = none ∧ s.don = don) := by
  obtain ⟨s', h, _⟩ := C15_exact s header h0 ⟨some don, piece, ts⟩ last mids h1 hm h2 (by
    intro p hp d hpd
    rcases List.mem_cons.1 hp with rfl | hp
    · simp only [Option.some.injEq] at hpd; omega
    · exact hd p hp d hpd)
  refine ⟨_, s', h, ?_⟩
  cases last.don <;> simp

-- Both ways: an end fragment without a number, and a sink whose counter is at 0.
example : ¬ [0, 0, 1] <:+: fuB 0x65 true false 500 [1, 2] ∧ ¬ [0, 0, 1] <:+: (⟨none, [3], 90⟩ : FuPacket).bytes 0x65 false true ∧ newNALSink.don ≠ 500 := by decide
example : ¬ [0, 0, 1] <:+: fuB 0x65 true false 0 [9, 2] ∧ ¬ [0, 0, 1] <:+: (⟨none, [3], 90⟩ : FuPacket).bytes 0x65 false true ∧ newNALSink.don = 0 := by decide

/-- **C68**, exactly what happens: from any sink an end fragment, with or without a number, delivers one unit. It has nothing but the data of the fragment exactly if
no data is kept from before. -/
theorem C68_iff (s : NALSink) (header : UInt8) (last : FuPacket) (hc : Clean (last.bytes header false true)) (hd : ∀ d, last.don = some d → d < 65536) :
    ∃ u s', push s (last.bytes header false true) last.ts = .ok (none, s') ∧ s'.units = [u] ∧
      (u.data = last.piece ↔ ∀ f ∈ s.fragments, f.unit.data = []) := by
  rw [push_clean _ _ _ hc, parseNAL_fu _ _ _ _ _ hd, addFragment_fu]
  refine ⟨⟨header &&& 0x7F, last.don.getD s.don, last.ts, s.fragments.flatMap (·.unit.data) ++ last.piece⟩, _, rfl, by simp [frag], ?_⟩
  simp

example : Clean ((⟨none, [3], 90⟩ : FuPacket).bytes 0x65 false true) := by decide

end Ouro
