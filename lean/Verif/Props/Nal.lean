import Verif.Lemmas.Nal2
/-! # C15–C22, C67, C68: the H.264 NAL sink -/
namespace Ouro
open Spec

/-- A payload without start codes or emulation prevention sequences: `Push` parses it as it is. -/
def Clean (b : Bytes) : Prop := ¬ [0, 0, 1] <:+: b ∧ ¬ [0, 0, 3] <:+: b

instance (b : Bytes) : Decidable (Clean b) := by unfold Clean; infer_instance

theorem push_no_start_code (s : NALSink) (b : Bytes) (ts : Nat) (h : ¬ [0, 0, 1] <:+: b) :
    push s b ts = parseNAL s (unescape 0 b) ts := by
  rw [push, C14_split_no_start_code b h]
  simp only [pushLoop]
  rcases parseNAL s (unescape 0 b) ts with p | ⟨_ | e, s'⟩ <;> rfl

theorem push_clean (s : NALSink) (b : Bytes) (ts : Nat) (h : Clean b) : push s b ts = parseNAL s b ts := by
  have h1 := C09_ebspToRaw_identity b h.2
  rw [C09_ebspToRaw] at h1
  have h1 : unescape 0 b = b := by injection h1
  rw [push_no_start_code s b ts h.1, h1]

/-- What a caller collects from a series of pushes `(payload, timestamp)`: `Units` after each one. `none` if some push
panics or returns an error. -/
def pushAll : NALSink → List (Bytes × Nat) → Option (List (List NALUnit) × NALSink)
  | s, [] => some ([], s)
  | s, (b, ts) :: rest =>
    match push s b ts with
    | .ok (none, s') =>
      match pushAll s' rest with
      | some (us, s'') => some (s'.units :: us, s'')
      | none => none
    | _ => none

/-! ## C16 -/

/-- Units with consecutive order numbers from `don`. -/
def numbered (don ts : Nat) (us : List Nal) : List NALUnit :=
  us.mapIdx fun i u => { header := u.header, don := (don + i) % 65536, ts := ts, data := u.data }

theorem addUnits_eq (s : NALSink) (ts : Nat) (us : List Nal) :
    addUnits { s with units := [] } ts us =
      { units := numbered s.don ts us, fragments := s.fragments, don := (s.don + us.length) % 65536 } := by
  simp [addUnits, numbered]

theorem parseNAL_stapA (s : NALSink) (hs : s.don < 65536) (f : UInt8) (us : List Nal) (hus : ∀ u ∈ us, u.size ≤ 65533)
    (ts : Nat) : parseNAL s (stapA f us) ts = .ok (none, { units := numbered s.don ts us, fragments := s.fragments, don := (s.don + us.length) % 65536 }) := by
  rw [stapA, parseNAL_stap (.inl (typeByte_24 f)), typeByte_24, parseSTAP_24]
  have := (stapLoop_all us [] hus { s with units := [] } hs ts).1 (by simp [StapEnd])
  rw [List.append_nil] at this
  rw [this, addUnits_eq]

theorem parseNAL_stapB (s : NALSink) (f : UInt8) (don : Nat) (hd : don < 65536) (us : List Nal)
    (hus : ∀ u ∈ us, u.size ≤ 65533) (ts : Nat) :
    parseNAL s (stapB f don us) ts =
      .ok (none, { units := numbered don ts us, fragments := s.fragments, don := (don + us.length) % 65536 }) := by
  rw [stapB, parseNAL_stap (.inr (typeByte_25 f)), typeByte_25]
  simp only [be16, List.cons_append, List.nil_append]
  rw [parseSTAP_25]
  have e : (UInt8.ofNat (don / 256)).toNat * 256 + (UInt8.ofNat don).toNat = don := by
    simp only [UInt8.toNat_ofNat']; omega
  rw [e]
  have := (stapLoop_all us [] hus { s with units := [], don := don } hd ts).1 (by simp [StapEnd])
  rw [List.append_nil] at this
  rw [this]
  simp [addUnits, numbered]

/-- C16, STAP-A: a packet without `00 00 01` and `00 00 03` yields exactly its units, in order, numbered consecutively.
Missing for the full claim: packets with those byte sequences (refuted below) and units of 65534 and 65535 bytes. -/
theorem C16_stapA_partial (s : NALSink) (hs : s.don < 65536) (f : UInt8) (us : List Nal) (hus : ∀ u ∈ us, u.size ≤ 65533)
    (ts : Nat) (hc : Clean (stapA f us)) :
    push s (stapA f us) ts =
      .ok (none, { units := numbered s.don ts us, fragments := s.fragments, don := (s.don + us.length) % 65536 }) := by
  rw [push_clean _ _ _ hc, parseNAL_stapA s hs f us hus]

/-- C16, STAP-B: numbering starts at the packet's DON. -/
theorem C16_stapB_partial (s : NALSink) (f : UInt8) (don : Nat) (hd : don < 65536) (us : List Nal)
    (hus : ∀ u ∈ us, u.size ≤ 65533) (ts : Nat) (hc : Clean (stapB f don us)) :
    push s (stapB f don us) ts =
      .ok (none, { units := numbered don ts us, fragments := s.fragments, don := (don + us.length) % 65536 }) := by
  rw [push_clean _ _ _ hc, parseNAL_stapB s f don hd us hus]

example : Clean (stapA 0x60 [⟨0x67, [0x42, 0, 0, 0x1f]⟩, ⟨0x68, [0xce, 0x38]⟩]) ∧
    numbered 65535 90 [⟨0x67, [0x42, 0, 0, 0x1f]⟩, ⟨0x68, [0xce, 0x38]⟩] =
      [⟨0x67, 65535, 90, [0x42, 0, 0, 0x1f]⟩, ⟨0x68, 0, 90, [0xce, 0x38]⟩] := by decide

/-- C16 refuted: a unit with an emulation prevention byte makes the packet shorter than its size field says: error. -/
theorem C16_emulation_refuted (s : NALSink) (hs : s.don < 65536) (ts : Nat) :
    push s (stapA 0x60 [⟨0x67, [0x42, 0, 0, 3, 1]⟩]) ts =
      .ok (some .packetTooShort, { s with units := [] }) := by
  rw [push_no_start_code _ _ _ (by decide)]
  have e : unescape 0 (stapA 0x60 [⟨0x67, [0x42, 0, 0, 3, 1]⟩]) = 0x78 :: ([] ++ [0, 6, 0x67, 0x42, 0, 0, 1]) := by decide
  rw [e, parseNAL_stap (.inl (by decide)), show (0x78 : UInt8) &&& 0x1F = 24 by decide, parseSTAP_24]
  have := (stapLoop_all [] [0, 6, 0x67, 0x42, 0, 0, 1] (by simp) { s with units := [] } hs ts).2.1
    ⟨6, [0x67, 0x42, 0, 0, 1], by decide, by decide, by decide, by decide⟩
  rw [addUnits_nil (s := { s with units := [] }) hs] at this
  exact this

/-- C16 refuted: when more units follow, the unit with the emulation prevention byte is delivered with a byte of its
successor's size field at its end. -/
theorem C16_wrong_unit_refuted :
    push newNALSink (stapA 0x60 [⟨0x67, [0x42, 0, 0, 3, 1]⟩, ⟨0x68, [0, 0xce, 0x38]⟩]) 90 =
      .ok (some .packetTooShort, { units := [⟨0x67, 0, 90, [0x42, 0, 0, 1, 0]⟩], fragments := [], don := 1 }) := by
  rw [push_no_start_code _ _ _ (by decide)]
  have e : unescape 0 (stapA 0x60 [⟨0x67, [0x42, 0, 0, 3, 1]⟩, ⟨0x68, [0, 0xce, 0x38]⟩]) =
    [0x78, 0, 6, 0x67, 0x42, 0, 0, 1, 0, 4, 0x68, 0, 0xce, 0x38] := by decide
  rw [e]
  decide

/-- The size field of an aggregated unit is 16 bits: units of 65534 or 65535 bytes panic. -/
theorem C16_large_unit_refuted (s : NALSink) (hs : s.don < 65536) (f : UInt8) (u : Nal) (hu : u.size = 65534 ∨ u.size = 65535)
    (ts : Nat) : Panics (parseNAL s (stapA f [u]) ts) := by
  rw [parseNAL_panics_iff s hs]
  have := Fatal.stapA (typeByte f 24) [] (be16 u.size ++ u.bytes) (typeByte_24 f) (by simp)
    ⟨u.size, u.bytes, by omega, rfl, .inr (by omega)⟩
  simpa [stapA, stapUnit] using this

/-! ## C15 -/

/-- The fragments kept after a middle fragment. -/
def frag (header flags : UInt8) (don ts : Nat) (d : Bytes) : NALFragment := ⟨⟨header, don, ts, d⟩, flags⟩

/-- One FU-A packet, any content. -/
theorem push_fuA (s : NALSink) (header : UInt8) (a b : Bool) (piece : Bytes) (ts : Nat)
    (hc : Clean (fuA header a b piece)) :
    push s (fuA header a b piece) ts =
      .ok (none, addFragment { s with units := [] } (header &&& 0x7F) (fuHeader a b header) s.don ts piece) := by
  rw [push_clean _ _ _ hc, parseNAL_fuA]

theorem addFragment_fu (frs : List NALFragment) (sd : Nat) (h header : UInt8) (a b : Bool) (don ts : Nat) (piece : Bytes) :
    addFragment { units := [], fragments := frs, don := sd } h (fuHeader a b header) don ts piece =
      { units := if b then [⟨h, don, ts, ((if a then [] else frs) ++
          [frag h (fuHeader a b header) don ts piece]).flatMap (·.unit.data)⟩] else []
        fragments := (if a then [] else frs) ++ [frag h (fuHeader a b header) don ts piece]
        don := sd } := by
  unfold addFragment
  rw [fuHeader_start, fuHeader_end]
  cases a <;> cases b <;> simp [frag]

/-- A fragment packet: FU-A, or FU-B with its DON. -/
structure FuPacket where
  don : Option Nat
  piece : Bytes
  ts : Nat

def FuPacket.bytes (header : UInt8) (a b : Bool) (p : FuPacket) : Bytes :=
  match p.don with
  | none => fuA header a b p.piece
  | some d => fuB header a b d p.piece

theorem parseNAL_fu (s : NALSink) (header : UInt8) (a b : Bool) (p : FuPacket) (hd : ∀ d, p.don = some d → d < 65536)
    (ts : Nat) : parseNAL s (p.bytes header a b) ts =
      .ok (none, addFragment { s with units := [] } (header &&& 0x7F) (fuHeader a b header) (p.don.getD s.don) ts p.piece) := by
  unfold FuPacket.bytes
  cases h : p.don with
  | none => simp only [Option.getD_none]; exact parseNAL_fuA ..
  | some d => simp only [Option.getD_some]; exact parseNAL_fuB _ _ _ _ _ (hd d h) _ _

theorem pushAll_middle (header : UInt8) (mids : List FuPacket) : ∀ (s : NALSink) (rest : List (Bytes × Nat)),
    (∀ p ∈ mids, Clean (p.bytes header false false) ∧ ∀ d, p.don = some d → d < 65536) →
    ∀ us s' frs, frs = s.fragments ++ mids.map (fun p => frag (header &&& 0x7F) (fuHeader false false header) (p.don.getD s.don) p.ts p.piece) →
      pushAll { s with units := (if mids = [] then s.units else []), fragments := frs } rest = some (us, s') →
    pushAll s (mids.map (fun p => (p.bytes header false false, p.ts)) ++ rest) = some (List.replicate mids.length [] ++ us, s') := by
  induction mids with
  | nil => intro s rest _ us s' frs hf h; simp at hf h ⊢; rw [← h, hf]
  | cons p ps ih =>
    intro s rest hp us s' frs hf h
    simp only [List.map_cons, List.cons_append, pushAll]
    rw [push_clean _ _ _ (hp p (by simp)).1, parseNAL_fu _ _ _ _ _ (hp p (by simp)).2, addFragment_fu]
    simp only [Bool.false_eq_true, if_false]
    rw [ih _ rest (fun q hq => hp q (by simp [hq])) us s' frs (by simp [hf]) (by
      have : (if ps = [] then ([] : List NALUnit) else []) = [] := by split <;> rfl
      simp only [this]
      simpa using h)]
    simp [List.replicate_succ]

/-- C15: a start fragment, any number of middle fragments and an end fragment (FU-A or FU-B, in any mixture) without
`00 00 01` and `00 00 03` leave, from any sink state, exactly the fragmented unit: its header without the F bit, the
concatenated pieces. Nothing is delivered before the end fragment. Missing for the full claim: pieces with those byte
sequences (refuted below). -/
theorem C15_reassembly_partial (s : NALSink) (header : UInt8) (first last : FuPacket) (mids : List FuPacket)
    (h1 : Clean (first.bytes header true false)) (hm : ∀ p ∈ mids, Clean (p.bytes header false false))
    (h2 : Clean (last.bytes header false true))
    (hd : ∀ p ∈ first :: last :: mids, ∀ d, p.don = some d → d < 65536) :
    ∃ s', pushAll s ((first.bytes header true false, first.ts) ::
        (mids.map (fun p => (p.bytes header false false, p.ts)) ++ [(last.bytes header false true, last.ts)])) =
      some (List.replicate (mids.length + 1) [] ++ [[{
          header := header &&& 0x7F
          don := last.don.getD s.don
          ts := last.ts
          data := first.piece ++ mids.flatMap (·.piece) ++ last.piece }]], s') ∧ s'.don = s.don := by
  let frs : List NALFragment := frag (header &&& 0x7F) (fuHeader true false header) (first.don.getD s.don) first.ts first.piece ::
      mids.map (fun p => frag (header &&& 0x7F) (fuHeader false false header) (p.don.getD s.don) p.ts p.piece)
  have hdata : frs.flatMap (·.unit.data) = first.piece ++ mids.flatMap (·.piece) := by
    simp [frs, frag, List.flatMap_map]
  refine ⟨{ s with
    fragments := frs ++ [frag (header &&& 0x7F) (fuHeader false true header) (last.don.getD s.don) last.ts last.piece]
    units := [⟨header &&& 0x7F, last.don.getD s.don, last.ts, first.piece ++ mids.flatMap (·.piece) ++ last.piece⟩] }, ?_, rfl⟩
  simp only [pushAll]
  rw [push_clean _ _ _ h1, parseNAL_fu _ _ _ _ _ (hd first (by simp)), addFragment_fu]
  simp only [if_true, List.nil_append, Bool.false_eq_true, if_false]
  rw [pushAll_middle header mids _ _ (fun p hp => ⟨hm p hp, hd p (by simp [hp])⟩) _ _ frs (by simp [frs]) (by
    have : (if mids = [] then ([] : List NALUnit) else []) = [] := by split <;> rfl
    simp only [this, pushAll]
    rw [push_clean _ _ _ h2, parseNAL_fu _ _ _ _ _ (hd last (by simp)), addFragment_fu])]
  simp [List.replicate_succ, hdata, frag]

/-- C15: with the F bit clear, as in every valid unit, the header is the unit's own. -/
theorem C15_reassembly_header_partial (s : NALSink) (header : UInt8) (hF : header &&& 0x80 = 0) (first last : FuPacket)
    (mids : List FuPacket) (h1 : Clean (first.bytes header true false))
    (hm : ∀ p ∈ mids, Clean (p.bytes header false false)) (h2 : Clean (last.bytes header false true))
    (hd : ∀ p ∈ first :: last :: mids, ∀ d, p.don = some d → d < 65536) :
    ∃ s', pushAll s ((first.bytes header true false, first.ts) ::
        (mids.map (fun p => (p.bytes header false false, p.ts)) ++ [(last.bytes header false true, last.ts)])) =
      some (List.replicate (mids.length + 1) [] ++ [[{
          header := header
          don := last.don.getD s.don
          ts := last.ts
          data := first.piece ++ mids.flatMap (·.piece) ++ last.piece }]], s') := by
  obtain ⟨s', h, _⟩ := C15_reassembly_partial s header first last mids h1 hm h2 hd
  rw [header_low header hF] at h
  exact ⟨s', h⟩

example : Clean ((⟨none, [1, 2, 0, 0], 90⟩ : FuPacket).bytes 0x65 true false) ∧
    Clean ((⟨some 7, [3, 4], 90⟩ : FuPacket).bytes 0x65 false false) ∧
    Clean ((⟨none, [5], 90⟩ : FuPacket).bytes 0x65 false true) := by decide

/-- C15 refuted: an emulation prevention byte inside a piece is dropped, but the same sequence cut by a fragment boundary
is kept, so the delivered data depends on where the sender cut the unit. -/
theorem C15_emulation_refuted (ts : Nat) :
    (∃ s', pushAll newNALSink [(fuA 0x65 true false [0xaa], ts), (fuA 0x65 false true [0, 0, 3, 1], ts)] =
      some ([[], [⟨0x65, 0, ts, [0xaa, 0, 0, 1]⟩]], s')) ∧
    (∃ s', pushAll newNALSink [(fuA 0x65 true false [0xaa, 0, 0], ts), (fuA 0x65 false true [3, 1], ts)] =
      some ([[], [⟨0x65, 0, ts, [0xaa, 0, 0, 3, 1]⟩]], s')) := by
  constructor
  · refine ⟨⟨[⟨0x65, 0, ts, [0xaa, 0, 0, 1]⟩], [frag 0x65 0x85 0 ts [0xaa], frag 0x65 0x45 0 ts [0, 0, 1]], 0⟩, ?_⟩
    simp only [pushAll]
    rw [push_clean _ _ _ (by decide), parseNAL_fuA]
    simp only
    rw [push_no_start_code _ _ _ (by decide),
      show unescape 0 (fuA 0x65 false true [0, 0, 3, 1]) = fuA 0x65 false true [0, 0, 1] by decide, parseNAL_fuA]
    rfl
  · refine ⟨⟨[⟨0x65, 0, ts, [0xaa, 0, 0, 3, 1]⟩], [frag 0x65 0x85 0 ts [0xaa, 0, 0], frag 0x65 0x45 0 ts [3, 1]], 0⟩, ?_⟩
    simp only [pushAll]
    rw [push_clean _ _ _ (by decide), parseNAL_fuA]
    simp only
    rw [push_clean _ _ _ (by decide), parseNAL_fuA]
    rfl

/-! ## C67: decoding order number of a fragmented unit -/

/-- C67 refuted: RFC 6184 puts the DON in the FU-B that starts the unit; FU-As follow. The delivered unit carries the
sink's own counter instead, whatever DON the FU-B had. -/
theorem C67_fuB_don_refuted (s : NALSink) (header : UInt8) (don : Nat) (hd : don < 65536) (p q : Bytes) (ts : Nat)
    (h1 : Clean (fuB header true false don p)) (h2 : Clean (fuA header false true q)) (hne : don ≠ s.don) :
    ∃ u s', pushAll s [(fuB header true false don p, ts), (fuA header false true q, ts)] = some ([[], [u]], s') ∧
      u.don = s.don ∧ u.don ≠ don := by
  obtain ⟨s', h, _⟩ := C15_reassembly_partial s header ⟨some don, p, ts⟩ ⟨none, q, ts⟩ [] h1 (by simp) h2 (by
    intro x hx d hd'
    simp only [List.mem_cons, List.not_mem_nil, or_false] at hx
    rcases hx with rfl | rfl
    · simp only [Option.some.injEq] at hd'; omega
    · simp at hd')
  refine ⟨_, s', h, rfl, ?_⟩
  simp only [Option.getD_none]; exact fun e => hne e.symm

example : Clean (fuB 0x65 true false 500 [1, 2]) ∧ Clean (fuA 0x65 false true [3]) ∧ (500 : Nat) ≠ newNALSink.don := by decide

/-- C67, what does hold: when the fragment that ends the unit is an FU-B, its DON is used. -/
theorem C67_fuB_end_don_partial (s : NALSink) (header : UInt8) (don : Nat) (hd : don < 65536) (first : FuPacket) (q : Bytes)
    (ts : Nat) (hf : ∀ d, first.don = some d → d < 65536) (h1 : Clean (first.bytes header true false))
    (h2 : Clean (fuB header false true don q)) :
    ∃ u s', pushAll s [(first.bytes header true false, first.ts), (fuB header false true don q, ts)] = some ([[], [u]], s') ∧
      u.don = don := by
  obtain ⟨s', h, _⟩ := C15_reassembly_partial s header first ⟨some don, q, ts⟩ [] h1 (by simp) h2 (by
    intro x hx d hd'
    simp only [List.mem_cons, List.not_mem_nil, or_false] at hx
    rcases hx with rfl | rfl
    · exact hf d hd'
    · simp only [Option.some.injEq] at hd'; omega)
  exact ⟨_, s', h, rfl⟩

/-! ## C68: fragments without a start -/

/-- C68, exact: an end fragment delivers everything kept since the last start fragment. -/
theorem C68_end_delivers_kept (s : NALSink) (header : UInt8) (piece : Bytes) (ts : Nat)
    (hc : Clean (fuA header false true piece)) :
    ∃ s', push s (fuA header false true piece) ts = .ok (none, s') ∧
      s'.units = [⟨header &&& 0x7F, s.don, ts, s.fragments.flatMap (·.unit.data) ++ piece⟩] := by
  rw [push_fuA _ _ _ _ _ _ hc, addFragment_fu]
  exact ⟨_, rfl, by simp [frag]⟩

/-- C68 refuted: when the start of the second unit is lost, its end fragment delivers a unit with the whole first unit
in front. -/
theorem C68_lost_start_refuted (s : NALSink) (header : UInt8) (p q r : Bytes) (ts : Nat)
    (h1 : Clean (fuA header true false p)) (h2 : Clean (fuA header false true q)) (h3 : Clean (fuA header false true r)) :
    ∃ u s', pushAll s [(fuA header true false p, ts), (fuA header false true q, ts), (fuA header false true r, ts)] =
      some ([[], [u], [{ header := header &&& 0x7F, don := s.don, ts := ts, data := p ++ q ++ r }]], s') := by
  refine ⟨⟨header &&& 0x7F, s.don, ts, p ++ q⟩, ⟨[⟨header &&& 0x7F, s.don, ts, p ++ q ++ r⟩],
    [frag (header &&& 0x7F) (fuHeader true false header) s.don ts p,
     frag (header &&& 0x7F) (fuHeader false true header) s.don ts q,
     frag (header &&& 0x7F) (fuHeader false true header) s.don ts r], s.don⟩, ?_⟩
  simp only [pushAll]
  rw [push_fuA _ _ _ _ _ _ h1, addFragment_fu]
  simp only [push_fuA _ _ _ _ _ _ h2, push_fuA _ _ _ _ _ _ h3, addFragment_fu]
  simp [frag]

example : Clean (fuA 0x65 true false [1]) ∧ Clean (fuA 0x65 false true [2]) := by decide

/-! ## C17 -/

/-- RFC 6184 section 5.7.2: what an MTAP with base `donb` received at RTP time `ts` stands for. -/
def rfcMtap (donb ts : Nat) (us : List MtapNal) : List NALUnit :=
  us.map fun u => { header := u.nal.header, don := (donb + u.dond.toNat) % 65536, ts := (ts + u.tsOff) % 2 ^ 32, data := u.nal.data }

theorem parseNAL_mtap_units (s : NALSink) (b0 : UInt8) (hb : b0 &&& 0x1F = 26 ∨ b0 &&& 0x1F = 27) (donb : Nat) (hd : donb < 65536)
    (us : List MtapNal) (hus : ∀ u ∈ us, u.nal.size + mtapHdr (b0 &&& 0x1F) < 65536) (ts : Nat) :
    parseNAL s (b0 :: (be16 donb ++ us.flatMap (mtapUnit (b0 &&& 0x1F)))) ts =
      .ok (none, addMtap (b0 &&& 0x1F) { s with units := [], don := donb } ts us) := by
  rw [parseNAL_mtap hb]
  simp only [be16, List.cons_append, List.nil_append]
  rw [parseMTAP_eq]
  have e : (UInt8.ofNat (donb / 256)).toNat * 256 + (UInt8.ofNat donb).toNat = donb := by
    simp only [UInt8.toNat_ofNat']; omega
  rw [e]
  have := (mtapLoop_all (b0 &&& 0x1F) us [] hus { s with units := [], don := donb } hd ts).1 (by
    rcases hb with hb | hb <;> rw [hb] <;> simp [MtapEnd, mtapHdr])
  rw [List.append_nil] at this
  exact this

/-- C17, MTAP16, exact: the `i`-th unit gets order number `DONB + i + DOND`; everything else is as RFC 6184 says. -/
theorem C17_mtap16_exact (s : NALSink) (f : UInt8) (donb : Nat) (hd : donb < 65536) (us : List MtapNal)
    (hus : ∀ u ∈ us, u.nal.size ≤ 65530) (hoff : ∀ u ∈ us, u.tsOff < 65536) (ts : Nat) (hc : Clean (mtap16 f donb us)) :
    ∃ s', push s (mtap16 f donb us) ts = .ok (none, s') ∧
      s'.units = us.mapIdx fun i u =>
        { header := u.nal.header, don := (donb + i + u.dond.toNat) % 65536, ts := (ts + u.tsOff) % 2 ^ 32, data := u.nal.data } := by
  have ht := typeByte_26 f
  have h := parseNAL_mtap_units s (typeByte f 26) (.inl ht) donb hd us (by
    intro u hu; have := hus u hu; rw [ht]; simp [mtapHdr]; omega) ts
  have e : us.flatMap (mtapUnit (typeByte f 26 &&& 0x1F)) = us.flatMap mtap16Unit := by
    congr 1; funext u; rw [ht]; rfl
  rw [e, ht] at h
  refine ⟨_, by rw [push_clean _ _ _ hc]; exact h, ?_⟩
  simp only [addMtap, List.nil_append]
  apply List.ext_getElem
  · simp
  · intro i h1 h2
    simp only [List.length_mapIdx] at h1
    have := hoff us[i] (List.getElem_mem _)
    simp only [List.getElem_mapIdx, mtapOff, NALUnit.mk.injEq, true_and, and_true, u32]
    have hne : ((26 : UInt8) == 27) = false := by decide
    simp only [hne, Bool.false_eq_true, if_false]
    omega

/-- C17, MTAP16: headers, data, order and timestamps are right for any number of units. Missing: decoding order numbers
from the second unit on (refuted below). -/
theorem C17_mtap16_content_partial (s : NALSink) (f : UInt8) (donb : Nat) (hd : donb < 65536) (us : List MtapNal)
    (hus : ∀ u ∈ us, u.nal.size ≤ 65530) (hoff : ∀ u ∈ us, u.tsOff < 65536) (ts : Nat) (hc : Clean (mtap16 f donb us)) :
    ∃ s', push s (mtap16 f donb us) ts = .ok (none, s') ∧
      s'.units.map (fun u => (u.header, u.ts, u.data)) = (rfcMtap donb ts us).map (fun u => (u.header, u.ts, u.data)) := by
  obtain ⟨s', h1, h2⟩ := C17_mtap16_exact s f donb hd us hus hoff ts hc
  refine ⟨s', h1, ?_⟩
  rw [h2]
  apply List.ext_getElem
  · simp [rfcMtap]
  · intro i _ _; simp [rfcMtap]

/-- C17, MTAP16 with a single unit: exactly what RFC 6184 says. -/
theorem C17_mtap16_single_partial (s : NALSink) (f : UInt8) (donb : Nat) (hd : donb < 65536) (u : MtapNal)
    (hu : u.nal.size ≤ 65530) (hoff : u.tsOff < 65536) (ts : Nat) (hc : Clean (mtap16 f donb [u])) :
    ∃ s', push s (mtap16 f donb [u]) ts = .ok (none, s') ∧ s'.units = rfcMtap donb ts [u] := by
  obtain ⟨s', h1, h2⟩ := C17_mtap16_exact s f donb hd [u] (by simpa using hu) (by simpa using hoff) ts hc
  exact ⟨s', h1, by rw [h2]; simp [rfcMtap]⟩

/-- C17 refuted: with two or more units in an MTAP16 the second has the wrong order number, always. -/
theorem C17_mtap16_don_refuted (s : NALSink) (f : UInt8) (donb : Nat) (hd : donb < 65536) (u v : MtapNal) (us : List MtapNal)
    (hus : ∀ x ∈ u :: v :: us, x.nal.size ≤ 65530) (hoff : ∀ x ∈ u :: v :: us, x.tsOff < 65536) (ts : Nat)
    (hc : Clean (mtap16 f donb (u :: v :: us))) :
    ∃ s', push s (mtap16 f donb (u :: v :: us)) ts = .ok (none, s') ∧ s'.units ≠ rfcMtap donb ts (u :: v :: us) := by
  obtain ⟨s', h1, h2⟩ := C17_mtap16_exact s f donb hd _ hus hoff ts hc
  refine ⟨s', h1, ?_⟩
  rw [h2]
  simp only [rfcMtap, List.mapIdx_cons, List.map_cons, ne_eq, List.cons.injEq, not_and, NALUnit.mk.injEq]
  intro _ h
  have := h.2.1
  omega

example : Clean (mtap16 0 5 [⟨⟨0x41, [1, 2]⟩, 1, 300⟩, ⟨⟨0x61, [3]⟩, 2, 600⟩]) := by decide

/-- C17, MTAP24, exact: the timestamp is `ts + 256*ts + (offset mod 256)` instead of `ts + offset`. -/
theorem C17_mtap24_exact (s : NALSink) (f : UInt8) (donb : Nat) (hd : donb < 65536) (us : List MtapNal)
    (hus : ∀ u ∈ us, u.nal.size ≤ 65529) (ts : Nat) (hc : Clean (mtap24 f donb us)) :
    ∃ s', push s (mtap24 f donb us) ts = .ok (none, s') ∧
      s'.units = us.mapIdx fun i u =>
        { header := u.nal.header, don := (donb + i + u.dond.toNat) % 65536
          ts := (ts + (ts * 256 + u.tsOff % 256)) % 2 ^ 32, data := u.nal.data } := by
  have ht := typeByte_27 f
  have h := parseNAL_mtap_units s (typeByte f 27) (.inr ht) donb hd us (by
    intro u hu; have := hus u hu; rw [ht]; simp [mtapHdr]; omega) ts
  have e : us.flatMap (mtapUnit (typeByte f 27 &&& 0x1F)) = us.flatMap mtap24Unit := by
    congr 1; funext u; rw [ht]; rfl
  rw [e, ht] at h
  refine ⟨_, by rw [push_clean _ _ _ hc]; exact h, ?_⟩
  simp only [addMtap, List.nil_append]
  apply List.ext_getElem
  · simp
  · intro i h1 h2
    simp only [List.getElem_mapIdx, mtapOff, NALUnit.mk.injEq, true_and, and_true, u32, Nat.shiftLeft_eq]
    have hne : ((27 : UInt8) == 27) = true := by decide
    simp only [hne, if_true]
    omega

/-- C17, MTAP24: headers, data and order are right. Missing: timestamps and order numbers (refuted below). -/
theorem C17_mtap24_content_partial (s : NALSink) (f : UInt8) (donb : Nat) (hd : donb < 65536) (us : List MtapNal)
    (hus : ∀ u ∈ us, u.nal.size ≤ 65529) (ts : Nat) (hc : Clean (mtap24 f donb us)) :
    ∃ s', push s (mtap24 f donb us) ts = .ok (none, s') ∧
      s'.units.map (fun u => (u.header, u.data)) = us.map (fun u => (u.nal.header, u.nal.data)) := by
  obtain ⟨s', h1, h2⟩ := C17_mtap24_exact s f donb hd us hus ts hc
  refine ⟨s', h1, ?_⟩
  rw [h2]
  apply List.ext_getElem
  · simp
  · intro i _ _; simp

/-- A packet the two theorems above apply to. -/
example : Clean (mtap24 0 5 [⟨⟨0x41, [1, 2]⟩, 1, 300⟩, ⟨⟨0x61, [3]⟩, 2, 70000⟩]) := by decide

/-- C17 refuted: an MTAP24 unit sent with offset 300 at time 90000 is stamped 23130044 instead of 90300. -/
theorem C17_mtap24_ts_refuted (s : NALSink) :
    ∃ s', push s (mtap24 0 5 [⟨⟨0x41, [1, 2]⟩, 1, 300⟩]) 90000 = .ok (none, s') ∧
      s'.units = [⟨0x41, 6, 23130044, [1, 2]⟩] ∧ rfcMtap 5 90000 [⟨⟨0x41, [1, 2]⟩, 1, 300⟩] = [⟨0x41, 6, 90300, [1, 2]⟩] := by
  obtain ⟨s', h1, h2⟩ := C17_mtap24_exact s 0 5 (by decide) [⟨⟨0x41, [1, 2]⟩, 1, 300⟩] (by decide) 90000 (by decide)
  exact ⟨s', h1, by rw [h2]; decide, by decide⟩

/-! ## C18 -/

/-- A unit `Push` accepts: parsing succeeds, whatever the sink holds. -/
def Accepted (nal : Bytes) : Prop := ∀ s : NALSink, s.don < 65536 → ∀ ts, ∃ s', parseNAL s nal ts = .ok (none, s')

theorem accepted_or (nal : Bytes) : Accepted nal ∨ Fatal nal ∨
    (∀ s : NALSink, s.don < 65536 → ∀ ts, ∃ e s', parseNAL s nal ts = .ok (some e, s')) := by
  match nal with
  | [] => exact .inr (.inr fun s _ ts => ⟨_, _, rfl⟩)
  | b0 :: rest =>
    by_cases h24 : b0 &&& 0x1F = 24
    · obtain ⟨us, tail, rfl, h2, h3⟩ := stap_cases _ rest (Nat.le_refl _)
      rcases h3 with h3 | h3 | h3
      · refine .inl fun s hs ts => ⟨addUnits { s with units := [] } ts us, ?_⟩
        rw [parseNAL_stap (.inl h24), h24, parseSTAP_24]
        exact (stapLoop_all us tail h2 { s with units := [] } hs ts).1 h3
      · exact .inr (.inl (.stapA b0 us tail h24 h2 h3))
      · refine .inr (.inr fun s hs ts => ⟨.packetTooShort, addUnits { s with units := [] } ts us, ?_⟩)
        rw [parseNAL_stap (.inl h24), h24, parseSTAP_24]
        exact (stapLoop_all us tail h2 { s with units := [] } hs ts).2.1 h3
    by_cases h25 : b0 &&& 0x1F = 25
    · match rest with
      | [] => exact .inr (.inr fun s hs ts => ⟨.packetTooShort, _, by rw [parseNAL_stap (.inr h25), h25]; rfl⟩)
      | [_] => exact .inr (.inr fun s hs ts => ⟨.packetTooShort, _, by rw [parseNAL_stap (.inr h25), h25]; rfl⟩)
      | x :: y :: rest =>
        obtain ⟨us, tail, rfl, h2, h3⟩ := stap_cases _ rest (Nat.le_refl _)
        rcases h3 with h3 | h3 | h3
        · refine .inl fun s hs ts => ⟨addUnits { s with units := [], don := x.toNat * 256 + y.toNat } ts us, ?_⟩
          rw [parseNAL_stap (.inr h25), h25, parseSTAP_25]
          exact (stapLoop_all us tail h2 _ (two_bytes_lt _ _) ts).1 h3
        · exact .inr (.inl (.stapB b0 x y us tail h25 h2 h3))
        · refine .inr (.inr fun s hs ts =>
            ⟨.packetTooShort, addUnits { s with units := [], don := x.toNat * 256 + y.toNat } ts us, ?_⟩)
          rw [parseNAL_stap (.inr h25), h25, parseSTAP_25]
          exact (stapLoop_all us tail h2 _ (two_bytes_lt _ _) ts).2.1 h3
    by_cases hm : b0 &&& 0x1F = 26 ∨ b0 &&& 0x1F = 27
    · match rest with
      | [] => exact .inr (.inr fun s hs ts => ⟨.packetTooShort, _, by rw [parseNAL_mtap hm]; rfl⟩)
      | [_] => exact .inr (.inr fun s hs ts => ⟨.packetTooShort, _, by rw [parseNAL_mtap hm]; rfl⟩)
      | x :: y :: rest =>
        obtain ⟨us, tail, rfl, h2, h3⟩ := mtap_cases (b0 &&& 0x1F) _ rest (Nat.le_refl _)
        rcases h3 with h3 | h3 | h3
        · refine .inl fun s hs ts => ⟨addMtap (b0 &&& 0x1F) { s with units := [], don := x.toNat * 256 + y.toNat } ts us, ?_⟩
          rw [parseNAL_mtap hm, parseMTAP_eq]
          exact (mtapLoop_all _ us tail h2 _ (two_bytes_lt _ _) ts).1 h3
        · exact .inr (.inl (.mtap b0 x y us tail hm h2 h3))
        · refine .inr (.inr fun s hs ts =>
            ⟨.packetTooShort, addMtap (b0 &&& 0x1F) { s with units := [], don := x.toNat * 256 + y.toNat } ts us, ?_⟩)
          rw [parseNAL_mtap hm, parseMTAP_eq]
          exact (mtapLoop_all _ us tail h2 _ (two_bytes_lt _ _) ts).2.1 h3
    simp only [not_or] at hm
    by_cases h28 : b0 &&& 0x1F = 28
    · match rest with
      | [] => exact .inr (.inr fun s hs ts => ⟨.packetTooShort, _, by unfold parseNAL; simp only [h28]; rfl⟩)
      | x :: rest => exact .inl fun s hs ts => ⟨_, by unfold parseNAL; simp [h28, idx, sliceFrom, len2]; rfl⟩
    by_cases h29 : b0 &&& 0x1F = 29
    · match rest with
      | [] => exact .inr (.inr fun s hs ts => ⟨.packetTooShort, _, by unfold parseNAL; simp only [h29]; rfl⟩)
      | [_] => exact .inr (.inr fun s hs ts => ⟨.packetTooShort, _, by unfold parseNAL; simp only [h29]; rfl⟩)
      | [_, _] => exact .inr (.inr fun s hs ts => ⟨.packetTooShort, _, by unfold parseNAL; simp only [h29]; rfl⟩)
      | x :: y :: z :: rest => exact .inl fun s hs ts => ⟨_, by unfold parseNAL; simp [h29, idx, sliceFrom, beU16, len4]; rfl⟩
    exact .inl fun s hs ts => ⟨_, parseNAL_single h24 h25 hm.1 hm.2 h28 h29 s rest ts⟩

theorem pushLoop_panics_iff (nals : List Bytes) : ∀ (s : NALSink), s.don < 65536 → ∀ ts,
    Panics (pushLoop s ts nals) ↔ ∃ pre bad post, nals = pre ++ bad :: post ∧ (∀ p ∈ pre, Accepted p) ∧ Fatal bad := by
  induction nals with
  | nil => intro s _ ts; simp [pushLoop, Panics]
  | cons nal nals ih =>
    intro s hs ts
    rcases accepted_or nal with ha | hf | he
    · obtain ⟨s', h'⟩ := ha s hs ts
      simp only [pushLoop, h']
      rw [ih s' (parseNAL_don hs h')]
      constructor
      · rintro ⟨pre, bad, post, rfl, h1, h2⟩
        exact ⟨nal :: pre, bad, post, rfl, by simpa using ⟨ha, h1⟩, h2⟩
      · rintro ⟨pre, bad, post, h0, h1, h2⟩
        match pre, h0, h1 with
        | [], h0, _ =>
          simp only [List.nil_append, List.cons.injEq] at h0
          rw [← h0.1, ← parseNAL_panics_iff s hs nal ts, h'] at h2
          exact absurd h2 (not_panics_ok _)
        | p :: pre, h0, h1 =>
          simp only [List.cons_append, List.cons.injEq] at h0
          exact ⟨pre, bad, post, h0.2, fun q hq => h1 q (by simp [hq]), h2⟩
    · have hp := (parseNAL_panics_iff s hs nal ts).mpr hf
      obtain ⟨p, hp⟩ := hp
      simp only [pushLoop, hp]
      exact ⟨fun _ => ⟨[], nal, nals, rfl, by simp, hf⟩, fun _ => ⟨p, rfl⟩⟩
    · obtain ⟨e, s', h'⟩ := he s hs ts
      simp only [pushLoop, h']
      constructor
      · intro h; exact absurd h (not_panics_ok _)
      · rintro ⟨pre, bad, post, h0, h1, h2⟩
        exfalso
        match pre, h0, h1 with
        | [], h0, _ =>
          simp only [List.nil_append, List.cons.injEq] at h0
          rw [← h0.1, ← parseNAL_panics_iff s hs nal ts, h'] at h2
          exact absurd h2 (not_panics_ok _)
        | p :: pre, h0, h1 =>
          simp only [List.cons_append, List.cons.injEq] at h0
          obtain ⟨s'', h''⟩ := h1 p (by simp) s hs ts
          rw [← h0.1, h'] at h''
          cases h''

/-- C18, exact: `Push` panics exactly when some unit of the split payload, all earlier ones being accepted, is an
aggregation packet that, after well-formed units, has a size field of 0 or one that overflows 16 bits when the length of
the unit header is added. -/
theorem C18_push_panics_iff (s : NALSink) (hs : s.don < 65536) (buf : Bytes) (ts : Nat) :
    Panics (push s buf ts) ↔ ∃ pre bad post, splitAnnexB buf = .ok (pre ++ bad :: post) ∧ (∀ p ∈ pre, Accepted p) ∧ Fatal bad := by
  rw [push, C14_split_exact]
  simp only [Except.ok.injEq]
  exact pushLoop_panics_iff _ s hs ts

/-- C18: payloads with no aggregation packets in them never panic. Missing for the full claim: aggregation packets with a
size field of 0 or close to 65536 (refuted below). -/
theorem C18_no_panic_partial (s : NALSink) (hs : s.don < 65536) (buf : Bytes) (ts : Nat)
    (h : ∀ us, splitAnnexB buf = .ok us → ∀ u ∈ us, ∀ b0 ∈ u.head?, b0 &&& 0x1F ∉ [24, 25, 26, 27]) :
    ¬ Panics (push s buf ts) := by
  rw [C18_push_panics_iff s hs]
  rintro ⟨pre, bad, post, h1, _, h3⟩
  have := h _ h1 bad (by simp)
  cases h3 with
  | stapA b0 us tail h4 => exact this b0 (by simp) (by simp [h4])
  | stapB b0 x y us tail h4 => exact this b0 (by simp) (by simp [h4])
  | mtap b0 x y us tail h4 => exact this b0 (by simp) (by rcases h4 with h4 | h4 <;> simp [h4])

example : splitAnnexB [0, 0, 1, 0x67, 0x42, 0, 0, 1, 0x7c, 0x85] = .ok [[0x67, 0x42], [0x7c, 0x85]] ∧
    (0x67 : UInt8) &&& 0x1F ∉ [24, 25, 26, 27] ∧ (0x7c : UInt8) &&& 0x1F ∉ [24, 25, 26, 27] := by
  refine ⟨?_, by decide, by decide⟩
  have := C13_split_inverts_framing [(false, [0x67, 0x42]), (false, [0x7c, 0x85])] (by simp) (by
    simp [Frameable]; decide)
  exact this

/-- C18 refuted: a three-byte payload, from any sink. -/
theorem C18_panic_refuted (s : NALSink) (hs : s.don < 65536) (ts : Nat) : Panics (push s [24, 0, 0] ts) := by
  rw [C18_push_panics_iff s hs]
  refine ⟨[], [24, 0, 0], [], ?_, by simp, ?_⟩
  · rw [C14_split_no_start_code _ (by decide)]; decide
  · exact .stapA 24 [] [0, 0] (by decide) (by simp) ⟨0, [], by decide, by decide, by simp⟩

/-! ## C19 -/

/-- A unit that travels alone: not an aggregation or fragmentation type. -/
def Plain (u : Nal) : Prop := u.header &&& 0x1F ∉ [24, 25, 26, 27, 28, 29]

instance (u : Nal) : Decidable (Plain u) := by unfold Plain; infer_instance

theorem parseNAL_plain (s : NALSink) (u : Nal) (hu : Plain u) (ts : Nat) :
    parseNAL s u.bytes ts = .ok (none, { s with
      units := [{ header := u.header, don := s.don, ts := ts, data := u.data }], don := u16 (s.don + 1) }) := by
  simp only [Plain, List.mem_cons, List.not_mem_nil, or_false, not_or] at hu
  exact parseNAL_single hu.1 hu.2.1 hu.2.2.1 hu.2.2.2.1 hu.2.2.2.2.1 hu.2.2.2.2.2 s _ ts

theorem pushLoop_plain (us : List Nal) : ∀ (s : NALSink), s.don < 65536 → ∀ (ts : Nat) (last : Nal),
    (∀ u ∈ us ++ [last], Plain u) →
    pushLoop s ts ((us ++ [last]).map Nal.bytes) = .ok (none, { s with
      units := [{ header := last.header, don := (s.don + us.length) % 65536, ts := ts, data := last.data }]
      don := (s.don + us.length + 1) % 65536 }) := by
  induction us with
  | nil =>
    intro s hs ts last h
    simp only [List.nil_append, List.map_cons, List.map_nil, pushLoop]
    rw [parseNAL_plain s last (h last (by simp))]
    simp [u16, Nat.mod_eq_of_lt hs]
  | cons u us ih =>
    intro s hs ts last h
    simp only [List.cons_append, List.map_cons, pushLoop]
    rw [parseNAL_plain s u (h u (by simp))]
    simp only
    rw [ih _ (by simp only [u16]; omega) ts last (fun v hv => h v (by simp at hv ⊢; exact .inr hv))]
    simp only [u16, List.length_cons, Except.ok.injEq, Prod.mk.injEq, true_and, NALSink.mk.injEq, List.cons.injEq,
      NALUnit.mk.injEq, and_true]
    constructor <;> omega

/-- C19, exact: of a payload that splits into several units only the last one is in `Units` after `Push`; the others
have only advanced the order number. -/
theorem C19_only_last (s : NALSink) (hs : s.don < 65536) (buf : Bytes) (ts : Nat) (us : List Nal) (last : Nal)
    (hsplit : splitAnnexB buf = .ok ((us ++ [last]).map Nal.bytes)) (h : ∀ u ∈ us ++ [last], Plain u) :
    push s buf ts = .ok (none, { s with
      units := [{ header := last.header, don := (s.don + us.length) % 65536, ts := ts, data := last.data }]
      don := (s.don + us.length + 1) % 65536 }) := by
  rw [push, hsplit]
  exact pushLoop_plain us s hs ts last h

/-- C19: a payload with one unit reports it. Missing for the full claim: several units (refuted below). -/
theorem C19_single_partial (s : NALSink) (hs : s.don < 65536) (buf : Bytes) (ts : Nat) (u : Nal)
    (hsplit : splitAnnexB buf = .ok [u.bytes]) (h : Plain u) :
    ∃ s', push s buf ts = .ok (none, s') ∧ s'.units = [{ header := u.header, don := s.don, ts := ts, data := u.data }] := by
  have := C19_only_last s hs buf ts [] u hsplit (by simpa using h)
  exact ⟨_, this, by simp [Nat.mod_eq_of_lt hs]⟩

/-- C19 refuted: for every payload of two or more units some are missing. -/
theorem C19_refuted (s : NALSink) (hs : s.don < 65536) (buf : Bytes) (ts : Nat) (us : List Nal) (last : Nal) (hne : us ≠ [])
    (hsplit : splitAnnexB buf = .ok ((us ++ [last]).map Nal.bytes)) (h : ∀ u ∈ us ++ [last], Plain u) :
    ∃ s', push s buf ts = .ok (none, s') ∧ s'.units.length = 1 ∧ 1 < (us ++ [last]).length :=
  ⟨_, C19_only_last s hs buf ts us last hsplit h, rfl, by
    have := List.length_pos_iff.mpr hne
    simp; omega⟩

example : splitAnnexB [0, 0, 1, 0x67, 0x42, 0, 0, 1, 0x68, 0xce] =
    .ok (([⟨0x67, [0x42]⟩] ++ [⟨0x68, [0xce]⟩] : List Nal).map Nal.bytes) ∧ Plain ⟨0x67, [0x42]⟩ ∧ Plain ⟨0x68, [0xce]⟩ := by
  refine ⟨?_, by decide, by decide⟩
  exact C13_split_inverts_framing [(false, [0x67, 0x42]), (false, [0x68, 0xce])] (by simp) (by simp [Frameable]; decide)

/-! ## C20 -/

/-- A packet of a sequence in the non-interleaved mode. -/
inductive Packet
  | single (u : Nal)
  | stapA (f : UInt8) (us : List Nal)
  /-- Any fragment that does not end a unit. -/
  | fragment (header : UInt8) (start : Bool) (piece : Bytes)

def Packet.bytes : Packet → Bytes
  | .single u => u.bytes
  | .stapA f us => Spec.stapA f us
  | .fragment header start piece => fuA header start false piece

/-- The units a packet brings. -/
def Packet.units : Packet → List Nal
  | .single u => [u]
  | .stapA _ us => us
  | .fragment .. => []

def Packet.Valid (p : Packet) : Prop :=
  Clean p.bytes ∧ match p with
    | .single u => Plain u
    | .stapA _ us => ∀ u ∈ us, u.size ≤ 65533
    | .fragment .. => True

theorem push_packet (s : NALSink) (hs : s.don < 65536) (p : Packet) (hp : p.Valid) (ts : Nat) :
    ∃ s', push s p.bytes ts = .ok (none, s') ∧ s'.units = numbered s.don ts p.units ∧
      s'.don = (s.don + p.units.length) % 65536 := by
  match p, hp with
  | .single u, hp =>
    refine ⟨_, by rw [push_clean _ _ _ hp.1]; exact parseNAL_plain s u hp.2 ts, ?_, ?_⟩
    · simp [numbered, Packet.units, Nat.mod_eq_of_lt hs]
    · simp [Packet.units, u16]
  | .stapA f us, hp => exact ⟨_, C16_stapA_partial s hs f us hp.2 ts hp.1, rfl, rfl⟩
  | .fragment header start piece, hp =>
    refine ⟨_, push_fuA s header start false piece ts hp.1, ?_, ?_⟩
    · rw [addFragment_fu]; simp [numbered, Packet.units]
    · rw [addFragment_don]; simp [Packet.units, Nat.mod_eq_of_lt hs]

/-- C20 with the contents: over any sequence of single-NAL, STAP-A and non-final fragment pushes free of 00 00 01 and 00 00 03, the units collected are those sent, in
order, and the `k`-th carries the starting order number plus `k` modulo 65536. -/
theorem C20_consecutive_partial (ps : List (Packet × Nat)) : ∀ (s : NALSink), s.don < 65536 → (∀ p ∈ ps, p.1.Valid) →
    ∃ us s', pushAll s (ps.map fun p => (p.1.bytes, p.2)) = some (us, s') ∧
      us.flatten.map (fun u => (u.header, u.data)) = (ps.flatMap fun p => p.1.units).map (fun u => (u.header, u.data)) ∧
      us.flatten.mapIdx (fun k u => (u.don, k)) = us.flatten.mapIdx (fun k _ => ((s.don + k) % 65536, k)) ∧
      s'.don = (s.don + us.flatten.length) % 65536 := by
  induction ps with
  | nil => intro s hs _; exact ⟨[], s, rfl, by simp, by simp, by simp [Nat.mod_eq_of_lt hs]⟩
  | cons p ps ih =>
    intro s hs hv
    obtain ⟨s1, h1, h2, h3⟩ := push_packet s hs p.1 (hv p (by simp)) p.2
    obtain ⟨us, s', g1, g2, g3, g4⟩ := ih s1 (by omega) (fun q hq => hv q (by simp [hq]))
    have hlen : s1.units.length = p.1.units.length := by rw [h2]; simp [numbered]
    refine ⟨s1.units :: us, s', ?_, ?_, ?_, ?_⟩
    · simp only [List.map_cons, pushAll, h1, g1]
    · simp only [List.flatten_cons, List.map_append, List.flatMap_cons, g2]
      congr 1
      rw [h2]
      apply List.ext_getElem
      · simp [numbered]
      · intro i _ _; simp [numbered]
    · rw [List.flatten_cons]
      apply List.ext_getElem
      · simp
      · intro i hi _
        simp only [List.length_mapIdx, List.length_append] at hi
        simp only [List.getElem_mapIdx, Prod.mk.injEq, and_true]
        by_cases hc : i < s1.units.length
        · rw [List.getElem_append_left hc]
          simp only [h2]
          simp [numbered]
        · rw [List.getElem_append_right (by omega)]
          have hj : i - s1.units.length < us.flatten.length := by omega
          have := congrArg (fun l => l[i - s1.units.length]?) g3
          simp only [List.getElem?_mapIdx, List.getElem?_eq_getElem hj, Option.map_some, Option.some.injEq,
            Prod.mk.injEq, and_true] at this
          rw [this]
          omega
    · rw [g4, List.flatten_cons, List.length_append, h3, hlen]; omega

example : (Packet.single ⟨0x41, [1]⟩).Valid ∧ (Packet.stapA 0 [⟨0x67, [2]⟩, ⟨0x68, [3]⟩]).Valid ∧
    (Packet.fragment 0x65 true [4]).Valid := by
  refine ⟨⟨by decide, by decide⟩, ⟨by decide, ?_⟩, ⟨by decide, trivial⟩⟩
  show ∀ u ∈ _, _
  simp [Nal.size]

/-- The payload brings no order number of its own and ends no fragmented unit: its type is not 25 to 27 or 29, and a fragment has no end bit. -/
def OwnNumbers (p : Bytes) : Prop :=
  ∀ b0 rest, p = b0 :: rest → b0 &&& 0x1F ≠ 25 ∧ b0 &&& 0x1F ≠ 26 ∧ b0 &&& 0x1F ≠ 27 ∧ b0 &&& 0x1F ≠ 29 ∧
    (b0 &&& 0x1F = 28 → ∀ b1 tail, rest = b1 :: tail → b1 &&& 0x40 = 0)

/-- `us` carry `d`, `d + 1`, ... modulo 65536. -/
def Consecutive (d : Nat) (us : List NALUnit) : Prop := us.map (·.don) = (List.range us.length).map fun k => (d + k) % 65536

theorem consecutive_append (d : Nat) (us vs : List NALUnit) (h1 : Consecutive d us) (h2 : Consecutive ((d + us.length) % 65536) vs) : Consecutive d (us ++ vs) := by
  unfold Consecutive at *
  rw [List.map_append, h1, h2, List.length_append, List.range_add, List.map_append, List.map_map]
  congr 1
  apply List.map_congr_left
  intro k _
  simp only [Function.comp_apply]
  omega

theorem stapLoop_numbers (fuel : Nat) : ∀ (s s' : NALSink) (buf : Bytes) (ts : Nat) (e : Option H264Err), s.don < 65536 → stapLoop fuel s buf ts = .ok (e, s') →
    ∃ vs, s'.units = s.units ++ vs ∧ Consecutive s.don vs ∧ s'.don = (s.don + vs.length) % 65536 := by
  induction fuel with
  | zero => intro s s' buf ts e _ h; cases h
  | succ fuel ih =>
    intro s s' buf ts e hs h
    have hnil : ∃ vs, s.units = s.units ++ vs ∧ Consecutive s.don vs ∧ s.don = (s.don + vs.length) % 65536 :=
      ⟨[], (List.append_nil _).symm, rfl, (Nat.mod_eq_of_lt hs).symm⟩
    unfold stapLoop at h
    split at h
    · injection h with h; injection h with _ h; subst h; exact hnil
    · split at h
      · cases h
      · split at h
        · injection h with h; injection h with _ h; subst h; exact hnil
        · split at h
          · cases h
          · split at h
            · cases h
            · split at h
              · cases h
              · obtain ⟨vs, h1, h2, h3⟩ := ih _ _ _ _ _ (by unfold u16; dsimp only; omega) h
                refine ⟨_ :: vs, by rw [h1]; simp; rfl, ?_, ?_⟩
                · refine consecutive_append s.don [_] vs ?_ ?_
                  · show [s.don] = [(s.don + 0) % 65536]
                    rw [Nat.add_zero, Nat.mod_eq_of_lt hs]
                  · exact h2
                · rw [h3]
                  unfold u16
                  simp only [List.length_cons]
                  omega

theorem unescape_head2 (b0 b1 : UInt8) (rest : Bytes) : ∃ tail, unescape 0 (b0 :: b1 :: rest) = b0 :: b1 :: tail := by
  unfold unescape
  rw [if_neg (by simp)]
  unfold unescape
  rw [if_neg (by split <;> simp)]
  exact ⟨_, rfl⟩

theorem parseNAL_numbers (s s' : NALSink) (hs : s.don < 65536) (p : Bytes) (ts : Nat) (e : Option H264Err) (hp : OwnNumbers p) (h : parseNAL s p ts = .ok (e, s')) :
    Consecutive s.don s'.units ∧ s'.don = (s.don + s'.units.length) % 65536 := by
  have hnil : ∀ t : NALSink, t.units = [] → t.don = s.don → Consecutive s.don t.units ∧ t.don = (s.don + t.units.length) % 65536 := by
    intro t h1 h2
    rw [h1, h2]
    exact ⟨rfl, (Nat.mod_eq_of_lt hs).symm⟩
  unfold parseNAL at h
  dsimp only at h
  split at h
  · injection h with h; injection h with _ h; subst h; exact hnil _ rfl rfl
  · rename_i b0 rest
    obtain ⟨n1, n2, n3, n4, n5⟩ := hp b0 rest rfl
    split at h
    · rename_i h24
      unfold parseSTAP at h
      rw [if_neg (by simpa using n1)] at h
      obtain ⟨vs, h1, h2, h3⟩ := stapLoop_numbers _ { s with units := [] } _ _ _ _ hs h
      rw [List.nil_append] at h1
      rw [h1]
      exact ⟨h2, h3⟩
    · rw [if_neg (by simpa using n1), if_neg (by simpa using n2), if_neg (by simpa using n3)] at h
      split at h
      · rename_i h28
        have h28 : b0 &&& 0x1F = 28 := by simpa using h28
        split at h
        · injection h with h; injection h with _ h; subst h; exact hnil _ rfl rfl
        · split at h
          · rename_i b1 d hb1 hd
            injection h with h; injection h with _ h
            subst h
            have he : b1 &&& 0x40 = 0 := by
              cases rest with
              | nil => cases hb1
              | cons x tail =>
                have : x = b1 := by injection hb1
                subst this
                exact n5 h28 x tail rfl
            unfold addFragment
            dsimp only
            rw [if_neg (by rw [he]; decide)]
            exact hnil _ rfl rfl
          · cases h
          · cases h
      · rw [if_neg (by simpa using n4)] at h
        injection h with h; injection h with _ h
        subst h
        refine ⟨?_, rfl⟩
        show [s.don] = [(s.don + 0) % 65536]
        rw [Nat.add_zero, Nat.mod_eq_of_lt hs]

/-- C20 for every payload without a start code, whatever its bytes: over any series of pushes that succeed, of packets that bring no number of their own
and end no fragmented unit, the units collected carry the starting number, the next one, and so on, modulo 65536. Missing: payloads with start codes, for
which it is false (`C20_split_refuted`). -/
theorem C20_any_payload_partial (ps : List (Bytes × Nat)) : ∀ (s s' : NALSink) (us : List (List NALUnit)), s.don < 65536 →
    (∀ p ∈ ps, OwnNumbers p.1 ∧ ¬ [0, 0, 1] <:+: p.1) → pushAll s ps = some (us, s') →
    us.flatten.map (·.don) = (List.range us.flatten.length).map (fun k => (s.don + k) % 65536) := by
  induction ps with
  | nil => intro s s' us _ _ h; injection h with h; injection h with h _; subst h; rfl
  | cons p ps ih =>
    intro s s' us hs hps h
    obtain ⟨b, ts⟩ := p
    obtain ⟨hown, hno⟩ := hps (b, ts) (by simp)
    unfold pushAll at h
    cases hpush : push s b ts with
    | error e => rw [hpush] at h; cases h
    | ok r =>
      obtain ⟨e, t⟩ := r
      rw [hpush] at h
      cases e with
      | some e => cases h
      | none =>
        dsimp only at h
        cases hrest : pushAll t ps with
        | none => rw [hrest] at h; cases h
        | some r =>
          obtain ⟨vs, s''⟩ := r
          rw [hrest] at h
          injection h with h; injection h with h _
          subst h
          have hnal : parseNAL s (unescape 0 b) ts = .ok (none, t) := by
            unfold push at hpush
            rw [C14_split_no_start_code b hno] at hpush
            dsimp only [pushLoop] at hpush
            cases hn : parseNAL s (unescape 0 b) ts with
            | error e => rw [hn] at hpush; cases hpush
            | ok r =>
              obtain ⟨e, t'⟩ := r
              rw [hn] at hpush
              cases e with
              | some e => cases hpush
              | none => injection hpush with hpush; injection hpush with _ hpush; subst hpush; rfl
          have hown' : OwnNumbers (unescape 0 b) := by
            cases b with
            | nil => exact hown
            | cons b0 b =>
              cases b with
              | nil =>
                have : unescape 0 [b0] = [b0] := by unfold unescape; rw [if_neg (by simp)]; rfl
                rw [this]; exact hown
              | cons b1 rest =>
                obtain ⟨tail, ht⟩ := unescape_head2 b0 b1 rest
                rw [ht]
                intro c0 crest hc
                injection hc with hc1 hc2
                subst hc1; subst hc2
                obtain ⟨n1, n2, n3, n4, n5⟩ := hown b0 (b1 :: rest) rfl
                refine ⟨n1, n2, n3, n4, fun h28 c1 ct hct => ?_⟩
                injection hct with hct _
                subst hct
                exact n5 h28 b1 rest rfl
          obtain ⟨g1, g2⟩ := parseNAL_numbers s t hs _ ts none hown' hnal
          have := ih t s'' vs (by rw [g2]; omega) (fun p hp => hps p (by simp [hp])) hrest
          rw [List.flatten_cons]
          exact consecutive_append s.don t.units vs.flatten g1 (by rw [← g2]; exact this)

example : OwnNumbers [0x41, 0, 0, 3, 1] ∧ ¬ ([0, 0, 1] : Bytes) <:+: [0x41, 0, 0, 3, 1] ∧
    pushAll { newNALSink with don := 65535 } [([0x41, 0, 0, 3, 1], 7), ([0x38, 0, 2, 0x67, 1, 0, 2, 0x68, 2], 8)] =
      some ([[⟨0x41, 65535, 7, [0, 0, 1]⟩], [⟨0x67, 0, 8, [1]⟩, ⟨0x68, 1, 8, [2]⟩]], ⟨[⟨0x67, 0, 8, [1]⟩, ⟨0x68, 1, 8, [2]⟩], [], 2⟩) := by
  refine ⟨?_, by decide, by decide +kernel⟩
  intro b0 rest h
  injection h with h1 h2
  subst h1
  exact ⟨by decide, by decide, by decide, by decide, fun h => absurd h (by decide)⟩

/-- C20 fails for a payload with a start code in it: the unit before the start code takes a number and is not reported. -/
theorem C20_split_refuted : ∃ us s', pushAll newNALSink [([0x41, 1, 0, 0, 1, 0x41, 2], 7)] = some (us, s') ∧ us.flatten.map (·.don) = [1] := by
  exact ⟨[[⟨0x41, 1, 7, [2]⟩]], ⟨[⟨0x41, 1, 7, [2]⟩], [], 2⟩, by decide +kernel, rfl⟩

/-! ## C21 -/

/-- C21: `DonDiff` is RFC 6184's `don_diff`. -/
theorem C21_donDiff_rfc (a b : Nat) (ha : a < 65536) (hb : b < 65536) : donDiff a b = rfcDonDiff a b := by
  unfold donDiff rfcDonDiff
  simp only
  split
  · (repeat' split) <;> omega
  · split
    · (repeat' split) <;> omega
    · (repeat' split) <;> omega

/-- C21: signed distance: congruent to `b - a`, at most half the number space, and zero only for equal numbers. -/
theorem C21_donDiff_distance (a b : Nat) (ha : a < 65536) (hb : b < 65536) :
    (donDiff a b - ((b : Int) - a)) % 65536 = 0 ∧ -32768 ≤ donDiff a b ∧ donDiff a b ≤ 32768 ∧ (donDiff a b = 0 ↔ a = b) := by
  unfold donDiff
  simp only
  refine ⟨?_, ?_, ?_, ?_⟩
  · (repeat' split) <;> omega
  · (repeat' split) <;> omega
  · (repeat' split) <;> omega
  · (repeat' split) <;> omega

/-- C21: antisymmetric, also for numbers half the space apart. -/
theorem C21_donDiff_antisymm (a b : Nat) (ha : a < 65536) (hb : b < 65536) : donDiff a b = - donDiff b a := by
  unfold donDiff
  simp only
  (repeat' split) <;> omega

/-- C21: the successor is at distance 1, also across the wrap. -/
theorem C21_donDiff_succ (a : Nat) (ha : a < 65536) : donDiff a ((a + 1) % 65536) = 1 := by
  unfold donDiff
  simp only
  (repeat' split) <;> omega

example : donDiff 65535 1 = 2 ∧ donDiff 1 65535 = -2 ∧ donDiff 0 32768 = -32768 := by decide

/-! ## C22 -/

set_option maxRecDepth 100000 in
/-- C22: the three fields of the header byte: F in bit 7, NRI in bits 5–6, type in bits 0–4. -/
theorem C22_accessors (u : NALUnit) :
    (u.zeroBit = true ↔ u.header.toNat / 128 = 0) ∧ u.refIdc.toNat = u.header.toNat / 32 % 4 ∧
      u.type.toNat = u.header.toNat % 32 := by
  obtain ⟨h, d, t, x⟩ := u
  simp only [NALUnit.zeroBit, NALUnit.refIdc, NALUnit.type]
  revert h
  apply forall_u8
  decide

/-- C22: the fields determine the header byte. -/
theorem C22_header_unique (u v : NALUnit) (hz : u.zeroBit = v.zeroBit) (hr : u.refIdc = v.refIdc) (ht : u.type = v.type) :
    u.header = v.header := by
  have hu := C22_accessors u
  have hv := C22_accessors v
  rw [hz, hr, ht] at hu
  apply UInt8.toNat_inj.mp
  have h1 := u.header.toNat_lt
  have h2 := v.header.toNat_lt
  obtain ⟨a1, a2, a3⟩ := hu
  obtain ⟨b1, b2, b3⟩ := hv
  rw [a1] at b1
  omega

set_option maxRecDepth 100000 in
/-- C22: start and end flags are the two top bits of the fragment flags. -/
theorem C22_flags (f : NALFragment) :
    (f.isStart = true ↔ f.flags.toNat / 128 = 1) ∧ (f.isEnd = true ↔ f.flags.toNat / 64 % 2 = 1) := by
  obtain ⟨u, h⟩ := f
  simp only [NALFragment.isStart, NALFragment.isEnd]
  revert h
  apply forall_u8
  decide

end Ouro
