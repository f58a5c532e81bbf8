import Verif.Props.Nal
import Verif.Spec.NalUnits
/-! # C15, C16, C17 for whole units: what the NAL sink makes of any legal unit, with or without emulation prevention -/
namespace Ouro
open Spec

/-! ## Byte patterns and concatenation -/

theorem infix_cons_nz {a : UInt8} (ha : a ≠ 0) (x : UInt8) (l : Bytes) :
    [0, 0, x] <:+: a :: l ↔ [0, 0, x] <:+: l := by
  rw [List.infix_cons_iff]
  constructor
  · rintro (h | h)
    · rw [List.cons_prefix_cons] at h; exact absurd h.1.symm ha
    · exact h
  · exact .inr

theorem infix_append_nz (x : UInt8) (l m : Bytes) (h : l.getLast? ≠ some 0) :
    [0, 0, x] <:+: l ++ m ↔ [0, 0, x] <:+: l ∨ [0, 0, x] <:+: m := by
  induction l with
  | nil => simp
  | cons a l ih =>
    by_cases hl : l = []
    · subst hl
      have ha : a ≠ 0 := by intro e; exact h (by simp [e])
      rw [List.cons_append, List.nil_append, infix_cons_nz ha, infix_cons_nz ha]
      simp
    · have h' : l.getLast? ≠ some 0 := by
        intro e; exact h (by rw [List.getLast?_cons, e]; rfl)
      rw [List.cons_append, List.infix_cons_iff, List.infix_cons_iff, ih h']
      constructor
      · rintro (hp | hp | hp)
        · left; left
          match l, hl, hp with
          | [b], _, hp =>
            simp only [List.cons_append, List.nil_append, List.cons_prefix_cons] at hp
            exact absurd (by simp [hp.2.1]) h'
          | b :: c :: l, _, hp =>
            simp only [List.cons_append, List.cons_prefix_cons, List.nil_prefix, and_true] at hp ⊢
            exact hp
        · exact .inl (.inr hp)
        · exact .inr hp
      · rintro ((hp | hp) | hp)
        · exact .inl (hp.trans (by rw [← List.cons_append]; exact List.prefix_append _ _))
        · exact .inr (.inl hp)
        · exact .inr (.inr hp)

theorem clean_cons {a : UInt8} (ha : a ≠ 0) (l : Bytes) : Clean (a :: l) ↔ Clean l := by
  unfold Clean; rw [infix_cons_nz ha, infix_cons_nz ha]

theorem clean_append {l m : Bytes} (h : l.getLast? ≠ some 0) : Clean (l ++ m) ↔ Clean l ∧ Clean m := by
  unfold Clean; rw [infix_append_nz _ _ _ h, infix_append_nz _ _ _ h]
  constructor
  · rintro ⟨h1, h2⟩; exact ⟨⟨fun e => h1 (.inl e), fun e => h2 (.inl e)⟩, ⟨fun e => h1 (.inr e), fun e => h2 (.inr e)⟩⟩
  · rintro ⟨⟨h1, h2⟩, h3, h4⟩; exact ⟨fun e => e.elim h1 h3, fun e => e.elim h2 h4⟩

theorem clean_infix {l m : Bytes} (h : l <:+: m) (hm : Clean m) : Clean l :=
  ⟨fun e => hm.1 (e.trans h), fun e => hm.2 (e.trans h)⟩

theorem unescape_cons_nz {a : UInt8} (ha : a ≠ 0) (l : Bytes) : unescape 0 (a :: l) = a :: unescape 0 l := by
  rw [unescape, if_neg (by omega), if_neg ha]

/-- Nothing is removed exactly if there is no `00 00 03`. -/
theorem unescape_self_iff (l : Bytes) : unescape 0 l = l ↔ ¬ Escaped l := by
  constructor
  · intro h he
    have key : ∀ (l : Bytes) (z : Nat), Escaped l → (unescape z l).length < l.length := by
      intro l
      induction l with
      | nil => intro z h; have := List.IsInfix.length_le h; simp at this
      | cons a l ih =>
        intro z h
        rw [unescape]
        split
        · have := (unescape_sublist l 0).length_le
          simp only [List.length_cons]; omega
        · unfold Escaped at h
          rw [List.infix_cons_iff] at h
          rcases h with h | h
          · simp only [List.cons_prefix_cons] at h
            obtain ⟨rfl, t, rfl⟩ := h
            have := (unescape_sublist t 0).length_le
            simp only [List.cons_append, List.nil_append, if_true]
            rw [unescape, if_neg (by simp), if_pos rfl, unescape, if_pos ⟨by omega, rfl⟩]
            simp only [List.length_cons]; omega
          · have := ih (if a = 0 then z + 1 else 0) h
            simp only [List.length_cons]; omega
    have := key l 0 he
    rw [h] at this; omega
  · intro h
    have := C09_ebspToRaw_identity l h
    rw [C09_ebspToRaw] at this
    injection this

theorem typeByte_ne (f : UInt8) : typeByte f 24 ≠ 0 ∧ typeByte f 25 ≠ 0 ∧ typeByte f 26 ≠ 0 ∧ typeByte f 28 ≠ 0 ∧ typeByte f 29 ≠ 0 := by
  have h4 := typeByte_24 f
  have h5 := typeByte_25 f
  have h6 := typeByte_26 f
  have h8 := typeByte_28 f
  have h9 := typeByte_29 f
  refine ⟨?_, ?_, ?_, ?_, ?_⟩ <;> intro e
  · rw [e] at h4; exact absurd h4 (by decide)
  · rw [e] at h5; exact absurd h5 (by decide)
  · rw [e] at h6; exact absurd h6 (by decide)
  · rw [e] at h8; exact absurd h8 (by decide)
  · rw [e] at h9; exact absurd h9 (by decide)

theorem fuHeader_ne (a b : Bool) {header : UInt8} (h : header &&& 0x1F ≠ 0) : fuHeader a b header ≠ 0 := by
  intro e
  have := fuHeader_type a b header
  rw [e] at this
  exact h (by rw [← this]; decide)

theorem zero_byte (n : Nat) : UInt8.ofNat n = 0 ↔ n % 256 = 0 := by
  constructor
  · intro h
    have := congrArg UInt8.toNat h
    rw [UInt8.toNat_ofNat'] at this
    exact this
  · intro h
    apply UInt8.toNat_inj.mp
    rw [UInt8.toNat_ofNat']
    exact h

theorem unescape_be16 (d : Nat) (l : Bytes) : unescape 0 (be16 d ++ l) = be16 d ++ unescape (zerosBefore (some d)) l := by
  simp only [be16, List.cons_append, List.nil_append]
  rw [unescape, if_neg (by omega)]
  congr 1
  have hz : ¬ (2 ≤ (if UInt8.ofNat (d / 256) = 0 then 0 + 1 else 0) ∧ UInt8.ofNat d = 3) := by split <;> omega
  rw [unescape, if_neg hz]
  congr 1
  simp only [zerosBefore, zero_byte]
  by_cases h1 : d % 256 = 0 <;> by_cases h2 : d / 256 % 256 = 0 <;> simp [h1, h2]

/-! ## C15: fragmented units -/

/-- A fragment with the emulation prevention bytes of its piece removed, as seen behind the packet's header. -/
def FuPacket.raw (p : FuPacket) : FuPacket := { p with piece := unescape (zerosBefore p.don) p.piece }

theorem unescape_fu (p : FuPacket) (a b : Bool) {header : UInt8} (h : header &&& 0x1F ≠ 0) :
    unescape 0 (p.bytes header a b) = p.raw.bytes header a b := by
  unfold FuPacket.bytes FuPacket.raw
  have hf := fuHeader_ne a b h
  cases hp : p.don with
  | none =>
    simp only [fuA, zerosBefore]
    rw [unescape_cons_nz (typeByte_ne header).2.2.2.1, unescape_cons_nz hf]
  | some d =>
    simp only [fuB]
    rw [unescape_cons_nz (typeByte_ne header).2.2.2.2, unescape_cons_nz hf, unescape_be16]

theorem push_fu (s : NALSink) (p : FuPacket) (a b : Bool) {header : UInt8} (h : header &&& 0x1F ≠ 0)
    (hd : ∀ d, p.don = some d → d < 65536) (hc : ¬ [0, 0, 1] <:+: p.bytes header a b) :
    push s (p.bytes header a b) p.ts =
      .ok (none, addFragment { s with units := [] } (header &&& 0x7F) (fuHeader a b header) (p.don.getD s.don) p.ts p.raw.piece) := by
  rw [push_no_start_code _ _ _ hc, unescape_fu p a b h, parseNAL_fu _ _ _ _ p.raw hd]
  rfl

theorem pushAll_middle_raw {header : UInt8} (h0 : header &&& 0x1F ≠ 0) (mids : List FuPacket) : ∀ (s : NALSink) (rest : List (Bytes × Nat)),
    (∀ p ∈ mids, ¬ [0, 0, 1] <:+: p.bytes header false false ∧ ∀ d, p.don = some d → d < 65536) →
    ∀ us s' frs, frs = s.fragments ++ mids.map (fun p => frag (header &&& 0x7F) (fuHeader false false header) (p.don.getD s.don) p.ts p.raw.piece) →
      pushAll { s with units := (if mids = [] then s.units else []), fragments := frs } rest = some (us, s') →
    pushAll s (mids.map (fun p => (p.bytes header false false, p.ts)) ++ rest) = some (List.replicate mids.length [] ++ us, s') := by
  induction mids with
  | nil => intro s rest _ us s' frs hf h; simp at hf h ⊢; rw [← h, hf]
  | cons p ps ih =>
    intro s rest hp us s' frs hf h
    simp only [List.map_cons, List.cons_append, pushAll]
    rw [push_fu _ _ _ _ h0 (hp p (by simp)).2 (hp p (by simp)).1, addFragment_fu]
    simp only [Bool.false_eq_true, if_false]
    rw [ih _ rest (fun q hq => hp q (by simp [hq])) us s' frs (by simp [hf]) (by
      have : (if ps = [] then ([] : List NALUnit) else []) = [] := by split <;> rfl
      simp only [this]
      simpa using h)]
    simp [List.replicate_succ]

/-- C15, exact: for any fragments without a start code in them, in any mixture of FU-A and FU-B and from any sink, the
unit delivered with the end fragment holds the pieces in order, each with its own emulation prevention bytes removed; a
piece right behind a DON that ends in zeros is read as if these zeros belonged to it. Nothing is delivered before. -/
theorem C15_exact (s : NALSink) (header : UInt8) (h0 : header &&& 0x1F ≠ 0) (first last : FuPacket) (mids : List FuPacket)
    (h1 : ¬ [0, 0, 1] <:+: first.bytes header true false) (hm : ∀ p ∈ mids, ¬ [0, 0, 1] <:+: p.bytes header false false)
    (h2 : ¬ [0, 0, 1] <:+: last.bytes header false true)
    (hd : ∀ p ∈ first :: last :: mids, ∀ d, p.don = some d → d < 65536) :
    ∃ s', pushAll s ((first.bytes header true false, first.ts) ::
        (mids.map (fun p => (p.bytes header false false, p.ts)) ++ [(last.bytes header false true, last.ts)])) =
      some (List.replicate (mids.length + 1) [] ++ [[{
          header := header &&& 0x7F
          don := last.don.getD s.don
          ts := last.ts
          data := unescape (zerosBefore first.don) first.piece ++ mids.flatMap (fun p => unescape (zerosBefore p.don) p.piece) ++
            unescape (zerosBefore last.don) last.piece }]], s') ∧ s'.don = s.don := by
  let frs : List NALFragment := frag (header &&& 0x7F) (fuHeader true false header) (first.don.getD s.don) first.ts first.raw.piece ::
      mids.map (fun p => frag (header &&& 0x7F) (fuHeader false false header) (p.don.getD s.don) p.ts p.raw.piece)
  have hdata : frs.flatMap (·.unit.data) = first.raw.piece ++ mids.flatMap (·.raw.piece) := by
    simp [frs, frag, List.flatMap_map]
  refine ⟨{ s with
    fragments := frs ++ [frag (header &&& 0x7F) (fuHeader false true header) (last.don.getD s.don) last.ts last.raw.piece]
    units := [⟨header &&& 0x7F, last.don.getD s.don, last.ts, first.raw.piece ++ mids.flatMap (·.raw.piece) ++ last.raw.piece⟩] }, ?_, rfl⟩
  simp only [pushAll]
  rw [push_fu _ _ _ _ h0 (hd first (by simp)) h1, addFragment_fu]
  simp only [if_true, List.nil_append, Bool.false_eq_true, if_false]
  rw [pushAll_middle_raw h0 mids _ _ (fun p hp => ⟨hm p hp, hd p (by simp [hp])⟩) _ _ frs (by simp [frs]) (by
    have : (if mids = [] then ([] : List NALUnit) else []) = [] := by split <;> rfl
    simp only [this, pushAll]
    rw [push_fu _ _ _ _ h0 (hd last (by simp)) h2, addFragment_fu])]
  simp [List.replicate_succ, hdata, frag, FuPacket.raw]

/-- The FU-A packets for a unit cut into `first`, `mids` and `last`, all with time `ts`. -/
def fuAll (header : UInt8) (first : Bytes) (mids : List Bytes) (last : Bytes) (ts : Nat) : List (Bytes × Nat) :=
  (fuA header true false first, ts) :: (mids.map (fun p => (fuA header false false p, ts)) ++ [(fuA header false true last, ts)])

theorem fuA_no_start {header : UInt8} (h0 : header &&& 0x1F ≠ 0) (a b : Bool) {p : Bytes} (h : ¬ [0, 0, 1] <:+: p) :
    ¬ [0, 0, 1] <:+: fuA header a b p := by
  rw [fuA, infix_cons_nz (typeByte_ne header).2.2.2.1, infix_cons_nz (fuHeader_ne a b h0)]
  exact h

/-- C15 for whole units, exact: whatever legal unit is sent, cut anywhere and into any number of FU-A fragments, exactly one
unit is delivered, with the last fragment; its data are the pieces with the emulation prevention bytes of each removed. -/
theorem C15_unit_exact (s : NALSink) (u : Nal) (hF : u.header &&& 0x80 = 0) (hu : Legal u) (first last : Bytes) (mids : List Bytes)
    (hcut : u.data = first ++ mids.flatten ++ last) (ts : Nat) :
    ∃ s', pushAll s (fuAll u.header first mids last ts) =
      some (List.replicate (mids.length + 1) [] ++ [[{
          header := u.header, don := s.don, ts := ts
          data := unescape 0 first ++ mids.flatMap (unescape 0) ++ unescape 0 last }]], s') ∧ s'.don = s.don := by
  have hno : ∀ p : Bytes, p <:+: u.data → ¬ [0, 0, 1] <:+: p := by
    intro p hp hi
    exact hu.2.1 (.inr (.inl ((hi.trans hp).trans (List.suffix_cons _ _).isInfix)))
  have hm : ∀ p ∈ mids, p <:+: u.data := by
    intro p hp
    obtain ⟨a, b, e⟩ := List.append_of_mem hp
    rw [hcut, e]
    exact ⟨first ++ a.flatten, b.flatten ++ last, by simp⟩
  obtain ⟨s', h, hs⟩ := C15_exact s u.header hu.1 ⟨none, first, ts⟩ ⟨none, last, ts⟩ (mids.map fun p => ⟨none, p, ts⟩)
    (fuA_no_start hu.1 _ _ (hno _ ⟨[], mids.flatten ++ last, by rw [hcut]; simp⟩))
    (by
      intro p hp
      obtain ⟨q, hq, rfl⟩ := List.mem_map.mp hp
      exact fuA_no_start hu.1 _ _ (hno _ (hm q hq)))
    (fuA_no_start hu.1 _ _ (hno _ ⟨first ++ mids.flatten, [], by rw [hcut]; simp⟩))
    (by
      intro p hp d hd
      simp only [List.mem_cons, List.mem_map] at hp
      rcases hp with rfl | rfl | ⟨q, _, rfl⟩ <;> simp at hd)
  refine ⟨s', ?_, hs⟩
  rw [header_low _ hF] at h
  simp only [List.map_map, List.length_map, List.flatMap_map, FuPacket.bytes, Option.getD_none, zerosBefore] at h
  exact h

/-- The same length as sent only if nothing was removed. -/
theorem raw_eq_iff (first last : Bytes) (mids : List Bytes) :
    unescape 0 first ++ mids.flatMap (unescape 0) ++ unescape 0 last = first ++ mids.flatten ++ last ↔
      ∀ p ∈ first :: last :: mids, ¬ Escaped p := by
  have hle : ∀ p : Bytes, (unescape 0 p).length ≤ p.length := fun p => (unescape_sublist p 0).length_le
  have hlt : ∀ p : Bytes, Escaped p → (unescape 0 p).length < p.length := by
    intro p hp
    rcases Nat.lt_or_ge (unescape 0 p).length p.length with h | h
    · exact h
    · exact absurd hp ((unescape_self_iff p).mp ((unescape_sublist p 0).eq_of_length_le h))
  have hmid : ∀ ms : List Bytes, (ms.flatMap (unescape 0)).length ≤ ms.flatten.length ∧
      ((∃ p ∈ ms, Escaped p) → (ms.flatMap (unescape 0)).length < ms.flatten.length) := by
    intro ms
    induction ms with
    | nil => simp
    | cons m ms ih =>
      have := hle m
      simp only [List.flatMap_cons, List.flatten_cons, List.length_append]
      refine ⟨by omega, ?_⟩
      rintro ⟨p, hp, he⟩
      rcases List.mem_cons.mp hp with rfl | hp
      · have := hlt p he; omega
      · have := ih.2 ⟨p, hp, he⟩; omega
  constructor
  · intro h p hp he
    have hl := congrArg List.length h
    simp only [List.length_append] at hl
    have h1 := hle first
    have h2 := hle last
    have h3 := (hmid mids).1
    simp only [List.mem_cons] at hp
    rcases hp with rfl | rfl | hp
    · have := hlt _ he; omega
    · have := hlt _ he; omega
    · have := (hmid mids).2 ⟨p, hp, he⟩; omega
  · intro h
    rw [(unescape_self_iff first).mpr (h first (by simp)), (unescape_self_iff last).mpr (h last (by simp))]
    congr 2
    have : ∀ ms : List Bytes, (∀ p ∈ ms, ¬ Escaped p) → ms.flatMap (unescape 0) = ms.flatten := by
      intro ms
      induction ms with
      | nil => intro _; rfl
      | cons m ms ih =>
        intro hms
        rw [List.flatMap_cons, List.flatten_cons, (unescape_self_iff m).mpr (hms m (by simp)), ih (fun p hp => hms p (by simp [hp]))]
    exact this mids fun p hp => h p (by simp [hp])

/-- C15, when it holds: a legal unit sent as FU-A fragments is delivered as it is exactly if no piece has an emulation
prevention byte inside. -/
theorem C15_unit_iff (s : NALSink) (u : Nal) (hF : u.header &&& 0x80 = 0) (hu : Legal u) (first last : Bytes) (mids : List Bytes)
    (hcut : u.data = first ++ mids.flatten ++ last) (ts : Nat) :
    (∃ s', pushAll s (fuAll u.header first mids last ts) =
      some (List.replicate (mids.length + 1) [] ++ [[{ header := u.header, don := s.don, ts := ts, data := u.data }]], s')) ↔
      ∀ p ∈ first :: last :: mids, ¬ Escaped p := by
  obtain ⟨s', h, _⟩ := C15_unit_exact s u hF hu first last mids hcut ts
  rw [h, hcut, ← raw_eq_iff]
  constructor
  · rintro ⟨t, e⟩
    simp only [Option.some.injEq, Prod.mk.injEq, List.append_cancel_left_eq, List.cons.injEq, and_true, NALUnit.mk.injEq, true_and] at e
    exact e.1
  · intro e
    exact ⟨s', by rw [e]⟩

/-- C15 for whole units: a legal unit without emulation prevention bytes survives every fragmentation. -/
theorem C15_unit_partial (s : NALSink) (u : Nal) (hF : u.header &&& 0x80 = 0) (hu : Legal u) (he : ¬ Escaped u.bytes)
    (first last : Bytes) (mids : List Bytes) (hcut : u.data = first ++ mids.flatten ++ last) (ts : Nat) :
    ∃ s', pushAll s (fuAll u.header first mids last ts) =
      some (List.replicate (mids.length + 1) [] ++ [[{ header := u.header, don := s.don, ts := ts, data := u.data }]], s') := by
  rw [C15_unit_iff s u hF hu first last mids hcut ts]
  intro p hp hpe
  apply he
  refine List.IsInfix.trans hpe (List.IsInfix.trans ?_ (List.suffix_cons u.header u.data).isInfix)
  rw [hcut]
  simp only [List.mem_cons] at hp
  rcases hp with rfl | rfl | hp
  · exact ⟨[], mids.flatten ++ last, by simp⟩
  · exact ⟨first ++ mids.flatten, [], by simp⟩
  · obtain ⟨a, b, e⟩ := List.append_of_mem hp
    rw [e]
    exact ⟨first ++ a.flatten, b.flatten ++ last, by simp⟩

example : Legal ⟨0x65, [0x88, 0, 0, 3, 1, 0xaf]⟩ ∧ Escaped (Nal.bytes ⟨0x65, [0x88, 0, 0, 3, 1, 0xaf]⟩) ∧
    ¬ Escaped [0x88, 0, 0] ∧ ¬ Escaped [3, 1, 0xaf] := by decide
example : Legal ⟨0x65, [0x88, 0, 0, 4, 1]⟩ ∧ ¬ Escaped (Nal.bytes ⟨0x65, [0x88, 0, 0, 4, 1]⟩) ∧
    ([0x88, 0, 0, 4, 1] : Bytes) = [0x88, 0] ++ [[0], [4]].flatten ++ [1] := by decide

/-- C15 refuted without any emulation prevention byte: behind a decoding order number 0 a piece that begins with 1 looks
like a start code, so the fragment is refused, whatever the unit. -/
theorem C15_don_refuted (s : NALSink) (header : UInt8) (h0 : header &&& 0x1F ≠ 0) (a b : Bool) (x : UInt8) (rest : Bytes) (ts : Nat) :
    push s (fuB header a b 0 (1 :: x :: rest)) ts = .ok (some .packetTooShort, { s with units := [] }) := by
  have ht := (typeByte_ne header).2.2.2.2
  have hf := fuHeader_ne a b h0
  have e : pieces [] (fuB header a b 0 (1 :: x :: rest)) = [typeByte header 29, fuHeader a b header] :: pieces [] (x :: rest) := by
    show pieces [] (typeByte header 29 :: fuHeader a b header :: 0 :: 0 :: 1 :: x :: rest) = _
    rw [pieces_cons (by rintro ⟨_, _, h⟩; simp only [List.cons.injEq] at h; exact ht h.1),
      pieces_cons (by rintro ⟨_, _, h⟩; simp only [List.cons.injEq] at h; exact hf h.1), pieces_start, if_neg (by simp [dropZero, hf])]
    simp [dropZero, hf]
  rw [push, C14_split_exact, e, List.map_cons, unescape_cons_nz ht, unescape_cons_nz hf, show unescape 0 [] = [] from rfl]
  have : parseNAL s [typeByte header 29, fuHeader a b header] ts = .ok (some .packetTooShort, { s with units := [] }) := by
    unfold parseNAL
    simp [typeByte_29]
  simp only [pushLoop, this]

example : Legal ⟨0x65, [1, 0x88, 0x84]⟩ ∧ ¬ Escaped (Nal.bytes ⟨0x65, [1, 0x88, 0x84]⟩) := by decide

/-! ## C16: aggregates of whole units -/

theorem legal_last {u : Nal} (h : Legal u) : (stapUnit u).getLast? ≠ some 0 := by
  unfold stapUnit
  rw [List.getLast?_append]
  have : u.bytes.getLast? = some (u.bytes.getLast (by simp [Nal.bytes])) := List.getLast?_eq_some_getLast _
  rw [this, Option.or]
  rw [← this]
  exact h.2.2

theorem legal_header {u : Nal} (h : Legal u) : u.header ≠ 0 := by
  intro e; exact h.1 (by rw [e]; decide)

theorem infix_stapUnit (x : UInt8) {u : Nal} (h : Legal u) (hs : u.size ≤ 65533) :
    [0, 0, x] <:+: stapUnit u ↔ [0, 0, x] <:+: u.bytes := by
  simp only [stapUnit, be16, List.cons_append, List.nil_append]
  rw [List.infix_cons_iff, List.infix_cons_iff]
  constructor
  · rintro (hp | hp | hp)
    · simp only [List.cons_prefix_cons] at hp
      have h1 := (zero_byte _).mp hp.1.symm
      have h2 := (zero_byte _).mp hp.2.1.symm
      have : 1 ≤ u.size := by simp [Nal.size]
      omega
    · simp only [Nal.bytes, List.cons_prefix_cons] at hp
      exact absurd hp.2.1.symm (legal_header h)
    · exact hp
  · exact fun hp => .inr (.inr hp)

/-- The headers and sizes in a STAP-A add no byte pattern that is not in one of the units. -/
theorem infix_stapA (x f : UInt8) (us : List Nal) (h : ∀ u ∈ us, Legal u) (hs : ∀ u ∈ us, u.size ≤ 65533) :
    [0, 0, x] <:+: stapA f us ↔ ∃ u ∈ us, [0, 0, x] <:+: u.bytes := by
  rw [stapA, infix_cons_nz (typeByte_ne f).1]
  induction us with
  | nil => simp
  | cons u us ih =>
    rw [List.flatMap_cons, infix_append_nz _ _ _ (legal_last (h u (by simp))), infix_stapUnit x (h u (by simp)) (hs u (by simp)),
      ih (fun v hv => h v (by simp [hv])) (fun v hv => hs v (by simp [hv]))]
    simp

theorem stapA_no_start (f : UInt8) (us : List Nal) (h : ∀ u ∈ us, Legal u) (hs : ∀ u ∈ us, u.size ≤ 65533) :
    ¬ [0, 0, 1] <:+: stapA f us := by
  rw [infix_stapA 1 f us h hs]
  rintro ⟨u, hu, hi⟩
  exact (h u hu).2.1 (.inr (.inl hi))

theorem stapUnit_lengths (us vs : List Nal) (h : us.map Nal.bytes = vs.map Nal.bytes) :
    (us.flatMap stapUnit).length = (vs.flatMap stapUnit).length := by
  induction us generalizing vs with
  | nil => cases vs with | nil => rfl | cons v vs => simp at h
  | cons u us ih =>
    cases vs with
    | nil => simp at h
    | cons v vs =>
      simp only [List.map_cons, List.cons.injEq] at h
      have := congrArg List.length h.1
      simp only [List.flatMap_cons, List.length_append, ih vs h.2, stapUnit, be16, this, List.length_cons, List.length_nil]

theorem numbered_inj {don ts don' ts' : Nat} {us vs : List Nal} (h : numbered don ts us = numbered don' ts' vs) :
    us.map Nal.bytes = vs.map Nal.bytes := by
  have key : ∀ (d t : Nat) (l : List Nal), (numbered d t l).map (fun u : NALUnit => u.header :: u.data) = l.map Nal.bytes := by
    intro d t l
    apply List.ext_getElem
    · simp [numbered]
    · intro i _ _; simp [numbered, Nal.bytes]
  rw [← key don ts us, ← key don' ts' vs, h]

/-- C16, when it holds: a STAP-A packet of legal units is delivered as RFC 6184 says - no error, exactly its units, in
order, numbered consecutively - exactly if no unit has an emulation prevention byte. -/
theorem C16_stapA_iff (s : NALSink) (hs : s.don < 65536) (f : UInt8) (us : List Nal) (hl : ∀ u ∈ us, Legal u)
    (hus : ∀ u ∈ us, u.size ≤ 65533) (ts : Nat) :
    (∃ s', push s (stapA f us) ts = .ok (none, s') ∧ s'.units = numbered s.don ts us) ↔ ∀ u ∈ us, ¬ Escaped u.bytes := by
  constructor
  · rintro ⟨s', h, hu⟩ u hmem he
    rw [push_no_start_code _ _ _ (stapA_no_start f us hl hus), stapA, unescape_cons_nz (typeByte_ne f).1,
      parseNAL_stap (.inl (typeByte_24 f)), typeByte_24, parseSTAP_24] at h
    have hne : ¬ unescape 0 (us.flatMap stapUnit) = us.flatMap stapUnit := by
      rw [unescape_self_iff]
      intro hno
      apply hno
      have := (infix_stapA 3 f us hl hus).mpr ⟨u, hmem, he⟩
      rwa [stapA, infix_cons_nz (typeByte_ne f).1] at this
    have hlt : (unescape 0 (us.flatMap stapUnit)).length < (us.flatMap stapUnit).length := by
      rcases Nat.lt_or_ge (unescape 0 (us.flatMap stapUnit)).length (us.flatMap stapUnit).length with h | h
      · exact h
      · exact absurd ((unescape_sublist _ 0).eq_of_length_le h) hne
    obtain ⟨vs, tail, e, h2, h3⟩ := stap_cases _ (unescape 0 (us.flatMap stapUnit)) (Nat.le_refl _)
    rw [e] at h hlt
    have hall := stapLoop_all vs tail h2 { s with units := [] } hs ts
    have : s'.units = numbered s.don ts vs := by
      rcases h3 with h3 | h3 | h3
      · have := hall.1 h3
        rw [this] at h
        simp only [Except.ok.injEq, Prod.mk.injEq, true_and] at h
        rw [← h, addUnits_eq]
      · obtain ⟨p, hp⟩ := hall.2.2 h3
        rw [hp] at h; cases h
      · have := hall.2.1 h3
        rw [this] at h
        simp at h
    rw [hu] at this
    have hlen := stapUnit_lengths _ _ (numbered_inj this)
    rw [List.length_append] at hlt
    omega
  · intro h
    have hc : Clean (stapA f us) := by
      refine ⟨stapA_no_start f us hl hus, ?_⟩
      rw [infix_stapA 3 f us hl hus]
      rintro ⟨u, hu, hi⟩
      exact h u hu hi
    exact ⟨_, C16_stapA_partial s hs f us hus ts hc, rfl⟩

example : (∀ u ∈ [(⟨0x67, [0x42, 0, 0, 0x1f]⟩ : Nal), ⟨0x68, [0xce, 0x38]⟩], Legal u ∧ ¬ Escaped u.bytes) ∧
    Legal ⟨0x67, [0x42, 0, 0, 3, 1]⟩ ∧ Escaped (Nal.bytes ⟨0x67, [0x42, 0, 0, 3, 1]⟩) := by decide

/-- C16, STAP-B: the same if the decoding order number does not end in a zero byte. -/
theorem C16_stapB_units_partial (s : NALSink) (f : UInt8) (don : Nat) (hd : don < 65536) (h0 : don % 256 ≠ 0) (us : List Nal)
    (hl : ∀ u ∈ us, Legal u) (hus : ∀ u ∈ us, u.size ≤ 65533) (he : ∀ u ∈ us, ¬ Escaped u.bytes) (ts : Nat) :
    push s (stapB f don us) ts =
      .ok (none, { units := numbered don ts us, fragments := s.fragments, don := (don + us.length) % 65536 }) := by
  refine C16_stapB_partial s f don hd us hus ts ?_
  have key : ∀ x : UInt8, [0, 0, x] <:+: stapB f don us ↔ ∃ u ∈ us, [0, 0, x] <:+: u.bytes := by
    intro x
    rw [← infix_stapA x f us hl hus, stapA, infix_cons_nz (typeByte_ne f).1, stapB, infix_cons_nz (typeByte_ne f).2.1,
      infix_append_nz _ _ _ (by simp [be16, zero_byte, h0])]
    constructor
    · rintro (h | h)
      · have := h.length_le; simp [be16] at this
      · exact h
    · exact .inr
  refine ⟨?_, ?_⟩
  · rw [key]; rintro ⟨u, hu, hi⟩; exact (hl u hu).2.1 (.inr (.inl hi))
  · rw [key]; rintro ⟨u, hu, hi⟩; exact he u hu hi

/-- C16 refuted for STAP-B without any emulation prevention byte: a decoding order number that is a multiple of 256 and
a unit of one byte, such as an end of sequence unit, make a start code; the packet is refused, whatever units follow. -/
theorem C16_stapB_don_refuted (s : NALSink) (f : UInt8) (don : Nat) (h0 : don % 256 = 0) (x : UInt8) (us : List Nal) (ts : Nat) :
    push s (stapB f don (⟨x, []⟩ :: us)) ts = .ok (some .packetTooShort, { s with units := [] }) := by
  have ht := (typeByte_ne f).2.1
  have e : pieces [] (stapB f don (⟨x, []⟩ :: us)) =
      dropZero [typeByte f 25, UInt8.ofNat (don / 256)] :: pieces [] (x :: us.flatMap stapUnit) := by
    have e0 : stapB f don (⟨x, []⟩ :: us) = typeByte f 25 :: UInt8.ofNat (don / 256) :: 0 :: 0 :: 1 :: x :: us.flatMap stapUnit := by
      simp only [stapB, be16, (zero_byte don).mpr h0, List.flatMap_cons, stapUnit, Nal.size, Nal.bytes, List.cons_append, List.nil_append]
      rfl
    rw [e0, pieces_cons (by rintro ⟨_, _, h⟩; simp only [List.cons.injEq] at h; exact ht h.1),
      pieces_cons (by rintro ⟨_, _, h⟩; simp only [List.cons.injEq] at h; exact absurd h.2.2.1 (by decide)), pieces_start, if_neg]
    · simp
    · simp only [dropZero, List.nil_append, List.cons_append]
      split <;> simp
  rw [push, C14_split_exact, e, List.map_cons]
  have hp : parseNAL s (unescape 0 (dropZero [typeByte f 25, UInt8.ofNat (don / 256)])) ts =
      .ok (some .packetTooShort, { s with units := [] }) := by
    have hd : ∃ l : Bytes, l.length < 2 ∧ unescape 0 (dropZero [typeByte f 25, UInt8.ofNat (don / 256)]) = typeByte f 25 :: l := by
      unfold dropZero
      split
      · exact ⟨[], by simp, by simp only [List.dropLast]; rw [unescape_cons_nz ht]; rfl⟩
      · refine ⟨unescape 0 [UInt8.ofNat (don / 256)], ?_, unescape_cons_nz ht _⟩
        have := (unescape_sublist [UInt8.ofNat (don / 256)] 0).length_le
        simp at this; omega
    obtain ⟨l, hl, hd⟩ := hd
    rw [hd, parseNAL_stap (.inr (typeByte_25 f)), typeByte_25]
    simp [parseSTAP, hl]
  simp only [pushLoop, hp]

example : (0 : Nat) % 256 = 0 ∧ Legal ⟨0x0a, []⟩ ∧ ¬ Escaped (Nal.bytes ⟨0x0a, []⟩) := by decide

/-! ## C17: multi-time aggregates -/

/-- C17 refuted for legal units without emulation prevention bytes: DOND 0, as in the first unit of most packets, and a
timestamp offset of 1 make a start code. Instead of the units of the packet one unit is reported: the first one, without
its offset and with all that follows in the packet appended to its data. -/
theorem C17_offset_refuted (s : NALSink) (f : UInt8) (donb : Nat) (hd : donb < 65536) (h0 : donb % 256 ≠ 0) (u : Nal) (hp : Plain u)
    (hs : u.size < 256) (vs : List MtapNal) (hc : Clean (u.bytes ++ vs.flatMap mtap16Unit)) (ts : Nat) :
    ∃ s', push s (mtap16 f donb (⟨u, 0, 1⟩ :: vs)) ts = .ok (none, s') ∧
      s'.units = [⟨u.header, donb, ts, u.data ++ vs.flatMap mtap16Unit⟩] := by
  have ht := (typeByte_ne f).2.2.1
  have hlo : UInt8.ofNat donb ≠ 0 := by rw [ne_eq, zero_byte]; exact h0
  have hsz : UInt8.ofNat u.size ≠ 0 := by rw [ne_eq, zero_byte]; simp only [Nal.size] at hs ⊢; omega
  have hhi : UInt8.ofNat (u.size / 256) = 0 := by rw [zero_byte]; omega
  have e0 : mtap16 f donb (⟨u, 0, 1⟩ :: vs) = typeByte f 26 :: UInt8.ofNat (donb / 256) :: UInt8.ofNat donb :: 0 :: UInt8.ofNat u.size ::
      0 :: 0 :: 1 :: u.header :: (u.data ++ vs.flatMap mtap16Unit) := by
    simp only [mtap16, be16, hhi, List.flatMap_cons, mtap16Unit, Nal.bytes, List.cons_append, List.nil_append]
    rfl
  have e : pieces [] (mtap16 f donb (⟨u, 0, 1⟩ :: vs)) =
      [[typeByte f 26, UInt8.ofNat (donb / 256), UInt8.ofNat donb, 0, UInt8.ofNat u.size], u.bytes ++ vs.flatMap mtap16Unit] := by
    rw [e0, pieces_cons (by rintro ⟨_, _, h⟩; simp only [List.cons.injEq] at h; exact ht h.1),
      pieces_cons (by rintro ⟨_, _, h⟩; simp only [List.cons.injEq] at h; exact hlo h.2.1),
      pieces_cons (by rintro ⟨_, _, h⟩; simp only [List.cons.injEq] at h; exact hlo h.1),
      pieces_cons (by rintro ⟨_, _, h⟩; simp only [List.cons.injEq] at h; exact hsz h.2.1),
      pieces_cons (by rintro ⟨_, _, h⟩; simp only [List.cons.injEq] at h; exact hsz h.1), pieces_start]
    have hz : dropZero ([] ++ [typeByte f 26] ++ [UInt8.ofNat (donb / 256)] ++ [UInt8.ofNat donb] ++ [0] ++ [UInt8.ofNat u.size]) =
        [typeByte f 26, UInt8.ofNat (donb / 256), UInt8.ofNat donb, 0, UInt8.ofNat u.size] := by
      simp [dropZero, hsz]
    rw [hz, if_neg (by simp)]
    have := pieces_last (u.bytes ++ vs.flatMap mtap16Unit) [] hc.1
    simp only [Nal.bytes, List.cons_append, List.nil_append] at this ⊢
    rw [this]
  have hraw : unescape 0 [typeByte f 26, UInt8.ofNat (donb / 256), UInt8.ofNat donb, 0, UInt8.ofNat u.size] =
      [typeByte f 26, UInt8.ofNat (donb / 256), UInt8.ofNat donb, 0, UInt8.ofNat u.size] := by
    rw [unescape_self_iff, Escaped, infix_cons_nz ht]
    intro h
    rw [show [UInt8.ofNat (donb / 256), UInt8.ofNat donb, 0, UInt8.ofNat u.size] =
      [UInt8.ofNat (donb / 256), UInt8.ofNat donb] ++ [0, UInt8.ofNat u.size] from rfl, infix_append_nz _ _ _ (by simp [hlo])] at h
    rcases h with h | h <;> have := h.length_le <;> simp at this
  have h1 : parseNAL s [typeByte f 26, UInt8.ofNat (donb / 256), UInt8.ofNat donb, 0, UInt8.ofNat u.size] ts =
      .ok (none, { s with units := [], don := donb }) := by
    rw [parseNAL_mtap (.inl (typeByte_26 f)), parseMTAP_eq, typeByte_26]
    have e : (UInt8.ofNat (donb / 256)).toNat * 256 + (UInt8.ofNat donb).toNat = donb := by
      simp only [UInt8.toNat_ofNat']; omega
    rw [e]
    rfl
  refine ⟨{ s with units := [⟨u.header, donb, ts, u.data ++ vs.flatMap mtap16Unit⟩], don := u16 (donb + 1) }, ?_, rfl⟩
  rw [push, C14_split_exact, e]
  simp only [List.map_cons, List.map_nil, hraw, pushLoop, h1]
  rw [(unescape_self_iff _).mpr hc.2]
  have h2 := parseNAL_plain { s with units := [], don := donb } ⟨u.header, u.data ++ vs.flatMap mtap16Unit⟩ hp ts
  simp only [Nal.bytes] at h2
  simp only [Nal.bytes, List.cons_append, h2]

example : Plain ⟨0x41, [1, 2]⟩ ∧ Clean (Nal.bytes ⟨0x41, [1, 2]⟩ ++ [(⟨⟨0x61, [3]⟩, 2, 600⟩ : MtapNal)].flatMap mtap16Unit) ∧
    rfcMtap 5 90000 [⟨⟨0x41, [1, 2]⟩, 0, 1⟩, ⟨⟨0x61, [3]⟩, 2, 600⟩] ≠
      [⟨0x41, 5, 90000, [1, 2] ++ [(⟨⟨0x61, [3]⟩, 2, 600⟩ : MtapNal)].flatMap mtap16Unit⟩] := by decide

end Ouro
