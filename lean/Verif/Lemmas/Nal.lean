import Verif.Model.Nal
import Verif.Spec.Rtp6184
import Verif.Lemmas.AnnexB
/-! # Lemmas about packet.go -/
namespace Ouro
open Spec

theorem beU16_be16 {n : Nat} (h : n < 65536) (rest : Bytes) : beU16 (be16 n ++ rest) = .ok n := by
  simp only [be16, List.cons_append, List.nil_append, beU16, UInt8.toNat_ofNat']
  congr 1; omega

theorem be16_of_bytes (a b : UInt8) : be16 (a.toNat * 256 + b.toNat) = [a, b] := by
  have ha : a.toNat < 256 := a.toNat_lt
  have hb : b.toNat < 256 := b.toNat_lt
  simp only [be16, List.cons.injEq, and_true]
  constructor
  · apply UInt8.toNat_inj.mp; rw [UInt8.toNat_ofNat']; omega
  · apply UInt8.toNat_inj.mp; rw [UInt8.toNat_ofNat']; omega

theorem length_be16 (n : Nat) : (be16 n).length = 2 := rfl

/-- The sink after units with consecutive order numbers were added. -/
def addUnits (s : NALSink) (ts : Nat) (us : List Nal) : NALSink :=
  { s with
    units := s.units ++ us.mapIdx fun i u => { header := u.header, don := (s.don + i) % 65536, ts := ts, data := u.data }
    don := (s.don + us.length) % 65536 }

theorem addUnits_nil {s : NALSink} (h : s.don < 65536) (ts : Nat) : addUnits s ts [] = s := by
  simp [addUnits, Nat.mod_eq_of_lt h]

theorem addUnits_cons {s : NALSink} (h : s.don < 65536) (ts : Nat) (u : Nal) (us : List Nal) :
    addUnits { s with units := s.units ++ [{ header := u.header, don := s.don, ts := ts, data := u.data }]
                      don := u16 (s.don + 1) } ts us = addUnits s ts (u :: us) := by
  simp only [addUnits, List.mapIdx_cons, List.append_assoc, List.cons_append, List.nil_append, u16,
    List.length_cons, NALSink.mk.injEq, true_and, Nat.add_zero, Nat.mod_eq_of_lt h]
  refine ⟨?_, by omega⟩
  congr 2
  apply List.ext_getElem
  · simp
  · intro i h1 h2
    simp only [List.getElem_mapIdx, NALUnit.mk.injEq, true_and, and_true]
    omega

theorem stapLoop_unit (u : Nal) (hu : u.size ≤ 65533) (fuel : Nat) (s : NALSink) (tail : Bytes) (ts : Nat) :
    stapLoop (fuel + 1) s (stapUnit u ++ tail) ts =
      stapLoop fuel { s with units := s.units ++ [{ header := u.header, don := s.don, ts := ts, data := u.data }]
                             don := u16 (s.don + 1) } tail ts := by
  have hsz : u.size = u.data.length + 1 := rfl
  have hbuf : stapUnit u ++ tail = be16 u.size ++ (u.header :: (u.data ++ tail)) := by
    simp [stapUnit, Nal.bytes]
  have hlen : (stapUnit u ++ tail).length = u.size + 2 + tail.length := by
    rw [hbuf]; simp [length_be16]; omega
  have hu16 : u16 (u.size + 2) = u.size + 2 := by unfold u16; omega
  rw [stapLoop, if_neg (by omega), hbuf, beU16_be16 (by omega)]
  simp only [hu16]
  rw [if_neg (by rw [← hbuf]; omega)]
  have hidx : idx (be16 u.size ++ u.header :: (u.data ++ tail)) 2 = .ok u.header := by simp [idx, be16]
  have hsl : slice (be16 u.size ++ u.header :: (u.data ++ tail)) 3 (u.size + 2) = .ok u.data := by
    rw [slice_ok (by omega) (by rw [← hbuf]; omega)]
    simp only [be16, List.cons_append, List.nil_append]
    rw [show u.size + 2 = u.data.length + 1 + 1 + 1 by omega]
    simp
  have hsf : sliceFrom (be16 u.size ++ u.header :: (u.data ++ tail)) (u.size + 2) = .ok tail := by
    rw [sliceFrom, if_pos (by rw [← hbuf]; omega)]
    simp only [be16, List.cons_append, List.nil_append]
    rw [show u.size + 2 = u.data.length + 1 + 1 + 1 by omega]
    simp
  rw [hidx, hsl, hsf]

theorem stapLoop_units (us : List Nal) : ∀ (fuel : Nat) (s : NALSink) (tail : Bytes) (ts : Nat), s.don < 65536 →
    (∀ u ∈ us, u.size ≤ 65533) →
    stapLoop (us.length + fuel) s (us.flatMap stapUnit ++ tail) ts = stapLoop fuel (addUnits s ts us) tail ts := by
  induction us with
  | nil => intro fuel s tail ts hs _; simp [addUnits_nil hs]
  | cons u us ih =>
    intro fuel s tail ts hs hus
    rw [List.flatMap_cons, List.append_assoc, List.length_cons,
      show us.length + 1 + fuel = (us.length + fuel) + 1 by omega, stapLoop_unit u (hus u (by simp)),
      ih _ _ _ _ (by simp only [u16]; omega) (fun v hv => hus v (by simp [hv])), addUnits_cons hs]

theorem flatMap_stap_length (us : List Nal) : us.length ≤ (us.flatMap stapUnit).length := by
  induction us with
  | nil => simp
  | cons u us ih =>
    rw [List.flatMap_cons, List.length_append, List.length_cons]
    have : (stapUnit u).length = 2 + u.bytes.length := by simp [stapUnit, be16]; omega
    omega

/-- How a STAP body ends after its well-formed units. -/
def StapEnd (tail : Bytes) : Prop := tail.length < 2
def StapBad (tail : Bytes) : Prop := ∃ sz rest, sz < 65536 ∧ tail = be16 sz ++ rest ∧ (sz = 0 ∨ sz ≥ 65534)
def StapShort (tail : Bytes) : Prop := ∃ sz rest, tail = be16 sz ++ rest ∧ 1 ≤ sz ∧ sz ≤ 65533 ∧ rest.length < sz

theorem stap_cases (n : Nat) : ∀ b : Bytes, b.length ≤ n → ∃ (us : List Nal) (tail : Bytes), b = us.flatMap stapUnit ++ tail ∧
    (∀ u ∈ us, u.size ≤ 65533) ∧ (StapEnd tail ∨ StapBad tail ∨ StapShort tail) := by
  induction n with
  | zero =>
    intro b h
    exact ⟨[], b, by simp, by simp, .inl (by unfold StapEnd; omega)⟩
  | succ n ih =>
    intro b h
    match b, h with
    | [], _ => exact ⟨[], [], by simp, by simp, .inl (by simp [StapEnd])⟩
    | [x], _ => exact ⟨[], [x], by simp, by simp, .inl (by simp [StapEnd])⟩
    | x :: y :: rest, h =>
      have hx : x.toNat < 256 := x.toNat_lt
      have hy : y.toNat < 256 := y.toNat_lt
      obtain ⟨sz, hsz⟩ : ∃ sz, sz = x.toNat * 256 + y.toNat := ⟨_, rfl⟩
      have hb : x :: y :: rest = be16 sz ++ rest := by rw [hsz, be16_of_bytes]; rfl
      by_cases hbad : sz = 0 ∨ sz ≥ 65534
      · exact ⟨[], _, by simp, by simp, .inr (.inl ⟨sz, rest, by omega, hb, hbad⟩)⟩
      · by_cases hshort : rest.length < sz
        · exact ⟨[], _, by simp, by simp, .inr (.inr ⟨sz, rest, hb, by omega, by omega, hshort⟩)⟩
        · match rest, hb, hshort, h with
          | [], _, hshort, _ => simp at hshort; omega
          | hd :: rest, hb, hshort, h =>
            simp at hshort h
            obtain ⟨us, tail, h1, h2, h3⟩ := ih (rest.drop (sz - 1)) (by simp; omega)
            refine ⟨⟨hd, rest.take (sz - 1)⟩ :: us, tail, ?_, ?_, h3⟩
            · rw [List.flatMap_cons, List.append_assoc, ← h1, hb]
              simp only [stapUnit, Nal.size, Nal.bytes, List.length_take]
              rw [show min (sz - 1) rest.length + 1 = sz by omega]
              simp
            · intro u hu
              rw [List.mem_cons] at hu
              rcases hu with rfl | hu
              · simp [Nal.size]; omega
              · exact h2 u hu

theorem stapLoop_end {tail : Bytes} (h : StapEnd tail) (fuel : Nat) (s : NALSink) (ts : Nat) :
    stapLoop (fuel + 1) s tail ts = .ok (none, s) := by
  unfold StapEnd at h; rw [stapLoop, if_pos h]

theorem stapLoop_short {tail : Bytes} (h : StapShort tail) (fuel : Nat) (s : NALSink) (ts : Nat) :
    stapLoop (fuel + 1) s tail ts = .ok (some .packetTooShort, s) := by
  obtain ⟨sz, rest, rfl, h1, h2, h3⟩ := h
  rw [stapLoop, if_neg (by simp [length_be16]), beU16_be16 (by omega)]
  simp only
  rw [if_pos]
  simp only [u16, List.length_append, length_be16]; omega

theorem stapLoop_bad {tail : Bytes} (h : StapBad tail) (fuel : Nat) (s : NALSink) (ts : Nat) :
    Panics (stapLoop (fuel + 1) s tail ts) := by
  obtain ⟨sz, rest, h1, rfl, h2⟩ := h
  rw [stapLoop, if_neg (by simp [length_be16]), beU16_be16 h1]
  simp only
  have hw : u16 (sz + 2) ≤ 2 := by unfold u16; omega
  rw [if_neg (by simp only [List.length_append, length_be16]; omega)]
  cases hidx : idx (be16 sz ++ rest) 2 with
  | error p => exact ⟨p, rfl⟩
  | ok b =>
    have : slice (be16 sz ++ rest) 3 (u16 (sz + 2)) = .error .slice := by
      rw [slice, if_neg (by omega)]
    simp only [this]
    exact ⟨_, rfl⟩

/-- Result of the STAP loop for every body. -/
theorem stapLoop_all (us : List Nal) (tail : Bytes) (hus : ∀ u ∈ us, u.size ≤ 65533) (s : NALSink) (hs : s.don < 65536)
    (ts : Nat) :
    let r := stapLoop ((us.flatMap stapUnit ++ tail).length + 1) s (us.flatMap stapUnit ++ tail) ts
    (StapEnd tail → r = .ok (none, addUnits s ts us)) ∧
    (StapShort tail → r = .ok (some .packetTooShort, addUnits s ts us)) ∧
    (StapBad tail → Panics r) := by
  have hl := flatMap_stap_length us
  obtain ⟨f, hf⟩ : ∃ f, (us.flatMap stapUnit ++ tail).length + 1 = us.length + (f + 1) :=
    ⟨(us.flatMap stapUnit ++ tail).length - us.length, by rw [List.length_append]; omega⟩
  intro r
  have hr : r = stapLoop (f + 1) (addUnits s ts us) tail ts := by
    show stapLoop _ _ _ _ = _
    rw [hf, stapLoop_units us _ _ _ _ hs hus]
  rw [hr]
  exact ⟨fun h => stapLoop_end h _ _ _, fun h => stapLoop_short h _ _ _, fun h => stapLoop_bad h _ _ _⟩

/-! ## MTAP -/

/-- The timestamp offset as the code computes it. -/
def mtapOff (typ : UInt8) (ts tsOff : Nat) : Nat :=
  if typ == 27 then u32 (u32 (ts <<< 8) + tsOff % 256) else tsOff % 65536

/-- The sink after MTAP units were added, as the code does it. -/
def addMtap (typ : UInt8) (s : NALSink) (ts : Nat) (us : List MtapNal) : NALSink :=
  { s with
    units := s.units ++ us.mapIdx fun i u =>
      { header := u.nal.header, don := (s.don + i + u.dond.toNat) % 65536, ts := u32 (ts + mtapOff typ ts u.tsOff)
        data := u.nal.data }
    don := (s.don + us.length) % 65536 }

def mtapUnit (typ : UInt8) (u : MtapNal) : Bytes := if typ == 27 then mtap24Unit u else mtap16Unit u
/-- Bytes before the aggregated unit. -/
def mtapHdr (typ : UInt8) : Nat := if typ == 27 then 6 else 5

theorem addMtap_nil {typ : UInt8} {s : NALSink} (h : s.don < 65536) (ts : Nat) : addMtap typ s ts [] = s := by
  simp [addMtap, Nat.mod_eq_of_lt h]

theorem addMtap_cons {typ : UInt8} {s : NALSink} (ts : Nat) (u : MtapNal) (us : List MtapNal) :
    addMtap typ { s with
        units := s.units ++ [{ header := u.nal.header, don := u16 (s.don + u.dond.toNat)
                               ts := u32 (ts + mtapOff typ ts u.tsOff), data := u.nal.data }]
        don := u16 (s.don + 1) } ts us = addMtap typ s ts (u :: us) := by
  simp only [addMtap, List.mapIdx_cons, List.append_assoc, List.cons_append, List.nil_append, u16,
    List.length_cons, NALSink.mk.injEq, true_and, Nat.add_zero]
  refine ⟨?_, by omega⟩
  congr 2
  apply List.ext_getElem
  · simp
  · intro i h1 h2
    simp only [List.getElem_mapIdx, NALUnit.mk.injEq, true_and, and_true]
    omega

theorem length_mtapUnit (typ : UInt8) (u : MtapNal) : (mtapUnit typ u).length = mtapHdr typ + u.nal.size := by
  unfold mtapUnit mtapHdr
  split <;> simp [mtap24Unit, mtap16Unit, be16, be24, Nal.bytes, Nal.size] <;> omega

theorem ofNat8_toNat (n : Nat) : (UInt8.ofNat n).toNat = n % 256 := by
  rw [UInt8.toNat_ofNat']

theorem mtapLoop_unit (typ : UInt8) (u : MtapNal) (hu : u.nal.size + mtapHdr typ < 65536) (fuel : Nat) (s : NALSink)
    (tail : Bytes) (ts : Nat) :
    mtapLoop (fuel + 1) typ (mtapHdr typ) s (mtapUnit typ u ++ tail) ts =
      mtapLoop fuel typ (mtapHdr typ)
        { s with
          units := s.units ++ [{ header := u.nal.header, don := u16 (s.don + u.dond.toNat)
                                 ts := u32 (ts + mtapOff typ ts u.tsOff), data := u.nal.data }]
          don := u16 (s.don + 1) } tail ts := by
  have hsz : u.nal.size = u.nal.data.length + 1 := rfl
  have hlen : (mtapUnit typ u ++ tail).length = mtapHdr typ + u.nal.size + tail.length := by
    rw [List.length_append, length_mtapUnit]
  have hu16 : u16 (u.nal.size + mtapHdr typ) = u.nal.size + mtapHdr typ := by unfold u16; omega
  by_cases ht : typ == 27
  · have hh : mtapHdr typ = 6 := by simp [mtapHdr, ht]
    have hbuf : mtapUnit typ u ++ tail = UInt8.ofNat (u.nal.size / 256) :: UInt8.ofNat u.nal.size :: u.dond ::
        UInt8.ofNat (u.tsOff / 65536) :: UInt8.ofNat (u.tsOff / 256) :: UInt8.ofNat u.tsOff :: u.nal.header ::
        (u.nal.data ++ tail) := by
      simp [mtapUnit, ht, mtap24Unit, be16, be24, Nal.bytes]
    have h16 : beU16 (mtapUnit typ u ++ tail) = .ok u.nal.size := by
      rw [hbuf]; simp only [beU16, UInt8.toNat_ofNat']; congr 1; omega
    rw [mtapLoop, if_neg (by omega), h16]
    have i2 : idx (mtapUnit typ u ++ tail) 2 = .ok u.dond := by rw [hbuf]; rfl
    have i3 : idx (mtapUnit typ u ++ tail) 3 = .ok (UInt8.ofNat (u.tsOff / 65536)) := by rw [hbuf]; rfl
    have i4 : idx (mtapUnit typ u ++ tail) 4 = .ok (UInt8.ofNat (u.tsOff / 256)) := by rw [hbuf]; rfl
    have i5 : idx (mtapUnit typ u ++ tail) 5 = .ok (UInt8.ofNat u.tsOff) := by rw [hbuf]; rfl
    have i6 : idx (mtapUnit typ u ++ tail) (mtapHdr typ) = .ok u.nal.header := by rw [hbuf, hh]; rfl
    have hsl : slice (mtapUnit typ u ++ tail) (u16 (mtapHdr typ + 1)) (u.nal.size + mtapHdr typ) = .ok u.nal.data := by
      have : u16 (mtapHdr typ + 1) = 7 := by rw [hh]; rfl
      rw [this, slice_ok (by omega) (by omega), hbuf, hh, show u.nal.size + 6 = u.nal.data.length + 7 by omega]
      simp
    have hsf : sliceFrom (mtapUnit typ u ++ tail) (u.nal.size + mtapHdr typ) = .ok tail := by
      rw [sliceFrom, if_pos (by omega), hbuf, hh, show u.nal.size + 6 = u.nal.data.length + 7 by omega]
      simp
    simp only [i2, i3, i4, i5, i6, ht, hu16, if_true, hsl, hsf]
    rw [if_neg (by omega)]
    simp [mtapOff, ht, ofNat8_toNat]
  · have ht' : (typ == 27) = false := by simpa using ht
    have hh : mtapHdr typ = 5 := by simp [mtapHdr, ht']
    have hbuf : mtapUnit typ u ++ tail = UInt8.ofNat (u.nal.size / 256) :: UInt8.ofNat u.nal.size :: u.dond ::
        UInt8.ofNat (u.tsOff / 256) :: UInt8.ofNat u.tsOff :: u.nal.header :: (u.nal.data ++ tail) := by
      simp [mtapUnit, ht', mtap16Unit, be16, Nal.bytes]
    have h16 : beU16 (mtapUnit typ u ++ tail) = .ok u.nal.size := by
      rw [hbuf]; simp only [beU16, UInt8.toNat_ofNat']; congr 1; omega
    rw [mtapLoop, if_neg (by omega), h16]
    have i2 : idx (mtapUnit typ u ++ tail) 2 = .ok u.dond := by rw [hbuf]; rfl
    have i3 : idx (mtapUnit typ u ++ tail) 3 = .ok (UInt8.ofNat (u.tsOff / 256)) := by rw [hbuf]; rfl
    have i4 : idx (mtapUnit typ u ++ tail) 4 = .ok (UInt8.ofNat u.tsOff) := by rw [hbuf]; rfl
    have i5 : idx (mtapUnit typ u ++ tail) (mtapHdr typ) = .ok u.nal.header := by rw [hbuf, hh]; rfl
    have hsl : slice (mtapUnit typ u ++ tail) (u16 (mtapHdr typ + 1)) (u.nal.size + mtapHdr typ) = .ok u.nal.data := by
      have : u16 (mtapHdr typ + 1) = 6 := by rw [hh]; rfl
      rw [this, slice_ok (by omega) (by omega), hbuf, hh, show u.nal.size + 5 = u.nal.data.length + 6 by omega]
      simp
    have hsf : sliceFrom (mtapUnit typ u ++ tail) (u.nal.size + mtapHdr typ) = .ok tail := by
      rw [sliceFrom, if_pos (by omega), hbuf, hh, show u.nal.size + 5 = u.nal.data.length + 6 by omega]
      simp
    simp only [i2, i3, i4, i5, ht', hu16, hsl, hsf, Bool.false_eq_true, if_false]
    rw [if_neg (by omega)]
    have hoff : u32 ((UInt8.ofNat (u.tsOff / 256)).toNat <<< 8 + (UInt8.ofNat u.tsOff).toNat) =
        mtapOff typ ts u.tsOff := by
      simp only [mtapOff, ht', Bool.false_eq_true, if_false, ofNat8_toNat, u32, Nat.shiftLeft_eq]; omega
    rw [hoff]

theorem mtapLoop_units (typ : UInt8) (us : List MtapNal) : ∀ (fuel : Nat) (s : NALSink) (tail : Bytes) (ts : Nat),
    s.don < 65536 → (∀ u ∈ us, u.nal.size + mtapHdr typ < 65536) →
    mtapLoop (us.length + fuel) typ (mtapHdr typ) s (us.flatMap (mtapUnit typ) ++ tail) ts =
      mtapLoop fuel typ (mtapHdr typ) (addMtap typ s ts us) tail ts := by
  induction us with
  | nil => intro fuel s tail ts hs _; simp [addMtap_nil hs]
  | cons u us ih =>
    intro fuel s tail ts hs hus
    rw [List.flatMap_cons, List.append_assoc, List.length_cons,
      show us.length + 1 + fuel = (us.length + fuel) + 1 by omega, mtapLoop_unit typ u (hus u (by simp)),
      ih _ _ _ _ (by simp only [u16]; omega) (fun v hv => hus v (by simp [hv])), addMtap_cons]

theorem flatMap_mtap_length (typ : UInt8) (us : List MtapNal) : us.length ≤ (us.flatMap (mtapUnit typ)).length := by
  induction us with
  | nil => simp
  | cons u us ih =>
    have := length_mtapUnit typ u
    rw [List.flatMap_cons, List.length_append, List.length_cons, this]
    simp only [Nal.size]; omega

/-- How an MTAP body ends after its well-formed units. -/
def MtapEnd (typ : UInt8) (tail : Bytes) : Prop := tail.length < mtapHdr typ
def MtapBad (typ : UInt8) (tail : Bytes) : Prop :=
  ∃ sz rest, sz < 65536 ∧ tail = be16 sz ++ rest ∧ mtapHdr typ ≤ tail.length ∧ (sz = 0 ∨ sz + mtapHdr typ ≥ 65536)
def MtapShort (typ : UInt8) (tail : Bytes) : Prop :=
  ∃ sz rest, tail = be16 sz ++ rest ∧ mtapHdr typ ≤ tail.length ∧ 1 ≤ sz ∧ sz + mtapHdr typ < 65536 ∧
    tail.length < sz + mtapHdr typ

theorem mtapLoop_end {typ : UInt8} {tail : Bytes} (h : MtapEnd typ tail) (fuel : Nat) (s : NALSink) (ts : Nat) :
    mtapLoop (fuel + 1) typ (mtapHdr typ) s tail ts = .ok (none, s) := by
  unfold MtapEnd at h; rw [mtapLoop, if_pos h]

theorem mtapHdr_bound (typ : UInt8) : (mtapHdr typ = 6 ∧ (typ == 27) = true) ∨ (mtapHdr typ = 5 ∧ (typ == 27) = false) := by
  unfold mtapHdr
  cases typ == 27 <;> simp

/-- The header fields of an MTAP unit can be read. -/
theorem mtapLoop_read {typ : UInt8} {sz : Nat} {rest : Bytes} (hsz : sz < 65536)
    (hl : mtapHdr typ ≤ (be16 sz ++ rest).length) (fuel : Nat) (s : NALSink) (ts : Nat) :
    ∃ dond tsoff, mtapLoop (fuel + 1) typ (mtapHdr typ) s (be16 sz ++ rest) ts =
      (if (be16 sz ++ rest).length < u16 (sz + mtapHdr typ) then .ok (some .packetTooShort, s)
      else
        match idx (be16 sz ++ rest) (mtapHdr typ) with
        | .error p => .error p
        | .ok h =>
          match slice (be16 sz ++ rest) (u16 (mtapHdr typ + 1)) (u16 (sz + mtapHdr typ)) with
          | .error p => .error p
          | .ok d =>
            match sliceFrom (be16 sz ++ rest) (u16 (sz + mtapHdr typ)) with
            | .error p => .error p
            | .ok rest' =>
              mtapLoop fuel typ (mtapHdr typ)
                { s with
                  units := s.units ++ [{ header := h, don := u16 (s.don + dond), ts := u32 (ts + tsoff), data := d }]
                  don := u16 (s.don + 1) } rest' ts) := by
  have get : ∀ i, i < (be16 sz ++ rest).length → ∃ b, idx (be16 sz ++ rest) i = .ok b := by
    intro i hi
    exact ⟨_, by rw [idx, List.getElem?_eq_getElem hi]⟩
  have hb := mtapHdr_bound typ
  obtain ⟨b2, h2⟩ := get 2 (by omega)
  obtain ⟨b3, h3⟩ := get 3 (by omega)
  obtain ⟨b4, h4⟩ := get 4 (by omega)
  rcases hb with ⟨hh, ht⟩ | ⟨hh, ht⟩
  · obtain ⟨b5, h5⟩ := get 5 (by omega)
    refine ⟨b2.toNat, u32 (u32 (ts <<< 8) + b5.toNat), ?_⟩
    rw [mtapLoop, if_neg (by omega), beU16_be16 hsz, h2, h3, h4]
    simp only [ht, if_true, h5]
    split
    · rfl
    · rcases idx (be16 sz ++ rest) (mtapHdr typ) with p | h
      · rfl
      · rcases slice (be16 sz ++ rest) (u16 (mtapHdr typ + 1)) (u16 (sz + mtapHdr typ)) with p | d
        · rfl
        · rcases sliceFrom (be16 sz ++ rest) (u16 (sz + mtapHdr typ)) with p | r <;> rfl
  · refine ⟨b2.toNat, u32 (b3.toNat <<< 8 + b4.toNat), ?_⟩
    rw [mtapLoop, if_neg (by omega), beU16_be16 hsz, h2, h3, h4]
    simp only [ht, Bool.false_eq_true, if_false]
    split
    · rfl
    · rcases idx (be16 sz ++ rest) (mtapHdr typ) with p | h
      · rfl
      · rcases slice (be16 sz ++ rest) (u16 (mtapHdr typ + 1)) (u16 (sz + mtapHdr typ)) with p | d
        · rfl
        · rcases sliceFrom (be16 sz ++ rest) (u16 (sz + mtapHdr typ)) with p | r <;> rfl

theorem mtapLoop_short {typ : UInt8} {tail : Bytes} (h : MtapShort typ tail) (fuel : Nat) (s : NALSink) (ts : Nat) :
    mtapLoop (fuel + 1) typ (mtapHdr typ) s tail ts = .ok (some .packetTooShort, s) := by
  obtain ⟨sz, rest, rfl, hl, h1, h2, h3⟩ := h
  obtain ⟨d, t, he⟩ := mtapLoop_read (typ := typ) (sz := sz) (rest := rest) (by omega) hl fuel s ts
  rw [he, if_pos (by unfold u16; omega)]

theorem mtapLoop_bad {typ : UInt8} {tail : Bytes} (h : MtapBad typ tail) (fuel : Nat) (s : NALSink) (ts : Nat) :
    Panics (mtapLoop (fuel + 1) typ (mtapHdr typ) s tail ts) := by
  obtain ⟨sz, rest, h1, rfl, hl, h2⟩ := h
  obtain ⟨d, t, he⟩ := mtapLoop_read (typ := typ) h1 hl fuel s ts
  have hb := mtapHdr_bound typ
  have hw : u16 (sz + mtapHdr typ) ≤ mtapHdr typ := by unfold u16; omega
  have h8 : u16 (mtapHdr typ + 1) = mtapHdr typ + 1 := by unfold u16; omega
  rw [he, if_neg (by omega)]
  cases hidx : idx (be16 sz ++ rest) (mtapHdr typ) with
  | error p => exact ⟨p, rfl⟩
  | ok b =>
    have : slice (be16 sz ++ rest) (u16 (mtapHdr typ + 1)) (u16 (sz + mtapHdr typ)) = .error .slice := by
      rw [slice, if_neg (by omega)]
    simp only [this]
    exact ⟨_, rfl⟩

theorem mtap_cases (typ : UInt8) (n : Nat) : ∀ b : Bytes, b.length ≤ n → ∃ (us : List MtapNal) (tail : Bytes), b = us.flatMap (mtapUnit typ) ++ tail ∧
    (∀ u ∈ us, u.nal.size + mtapHdr typ < 65536) ∧ (MtapEnd typ tail ∨ MtapBad typ tail ∨ MtapShort typ tail) := by
  induction n with
  | zero =>
    intro b h
    have hb := mtapHdr_bound typ
    exact ⟨[], b, by simp, by simp, .inl (by unfold MtapEnd; omega)⟩
  | succ n ih =>
    intro b h
    have hb := mtapHdr_bound typ
    by_cases hend : b.length < mtapHdr typ
    · exact ⟨[], b, by simp, by simp, .inl hend⟩
    · match b, h, hend with
      | [], _, hend => simp at hend; omega
      | [x], _, hend => simp at hend; omega
      | x :: y :: rest, h, hend =>
        have hx : x.toNat < 256 := x.toNat_lt
        have hy : y.toNat < 256 := y.toNat_lt
        obtain ⟨sz, hsz⟩ : ∃ sz, sz = x.toNat * 256 + y.toNat := ⟨_, rfl⟩
        have hbe : x :: y :: rest = be16 sz ++ rest := by rw [hsz, be16_of_bytes]; rfl
        have hl : mtapHdr typ ≤ (x :: y :: rest).length := by omega
        by_cases hbad : sz = 0 ∨ sz + mtapHdr typ ≥ 65536
        · exact ⟨[], _, by simp, by simp, .inr (.inl ⟨sz, rest, by omega, hbe, hl, hbad⟩)⟩
        · by_cases hshort : (x :: y :: rest).length < sz + mtapHdr typ
          · exact ⟨[], _, by simp, by simp, .inr (.inr ⟨sz, rest, hbe, hl, by omega, by omega, hshort⟩)⟩
          · obtain ⟨us, tail, h1, h2, h3⟩ := ih ((x :: y :: rest).drop (sz + mtapHdr typ)) (by
              rw [List.length_drop]; omega)
            have hmk : ∃ u : MtapNal, x :: y :: rest = mtapUnit typ u ++ (x :: y :: rest).drop (sz + mtapHdr typ) ∧
                u.nal.size = sz := by
              simp only [List.length_cons] at hshort hl
              rcases hb with ⟨hh, ht⟩ | ⟨hh, ht⟩
              · match rest, hbe, hshort with
                | d :: a :: b :: c :: hd :: rest, hbe, hshort =>
                  simp only [List.length_cons] at hshort
                  refine ⟨⟨⟨hd, rest.take (sz - 1)⟩, d, (a.toNat * 256 + b.toNat) * 256 + c.toNat⟩, ?_, ?_⟩
                  · have ha : a.toNat < 256 := a.toNat_lt
                    have hb : b.toNat < 256 := b.toNat_lt
                    have hc : c.toNat < 256 := c.toNat_lt
                    have e1 : min (sz - 1) rest.length + 1 = sz := by omega
                    have e2 : be24 ((a.toNat * 256 + b.toNat) * 256 + c.toNat) = [a, b, c] := by
                      simp only [be24, List.cons.injEq, and_true]
                      refine ⟨?_, ?_, ?_⟩ <;> apply UInt8.toNat_inj.mp <;> rw [UInt8.toNat_ofNat'] <;> omega
                    simp only [mtapUnit, ht, if_true, mtap24Unit, Nal.size, Nal.bytes, List.length_take, e1, e2]
                    rw [hbe, hh, show sz + 6 = (sz - 1) + 7 by omega]
                    have e3 : be16 sz = [x, y] := by rw [hsz, be16_of_bytes]
                    simp [e3]
                  · simp [Nal.size]; omega
                | [], _, hshort => simp at hshort; omega
                | [_], _, hshort => simp at hshort; omega
                | [_, _], _, hshort => simp at hshort; omega
                | [_, _, _], _, hshort => simp at hshort; omega
                | [_, _, _, _], _, hshort => simp at hshort; omega
              · match rest, hbe, hshort with
                | d :: a :: b :: hd :: rest, hbe, hshort =>
                  simp only [List.length_cons] at hshort
                  refine ⟨⟨⟨hd, rest.take (sz - 1)⟩, d, a.toNat * 256 + b.toNat⟩, ?_, ?_⟩
                  · have e1 : min (sz - 1) rest.length + 1 = sz := by omega
                    simp only [mtapUnit, ht, Bool.false_eq_true, if_false, mtap16Unit, Nal.size, Nal.bytes,
                      List.length_take, e1, be16_of_bytes]
                    rw [hbe, hh, show sz + 5 = (sz - 1) + 6 by omega]
                    have e3 : be16 sz = [x, y] := by rw [hsz, be16_of_bytes]
                    simp [e3]
                  · simp [Nal.size]; omega
                | [], _, hshort => simp at hshort; omega
                | [_], _, hshort => simp at hshort; omega
                | [_, _], _, hshort => simp at hshort; omega
                | [_, _, _], _, hshort => simp at hshort; omega
            obtain ⟨u, hu1, hu2⟩ := hmk
            refine ⟨u :: us, tail, ?_, ?_, h3⟩
            · rw [List.flatMap_cons, List.append_assoc, ← h1]; exact hu1
            · intro v hv
              rw [List.mem_cons] at hv
              rcases hv with rfl | hv
              · omega
              · exact h2 v hv

/-- Result of the MTAP loop for every body. -/
theorem mtapLoop_all (typ : UInt8) (us : List MtapNal) (tail : Bytes)
    (hus : ∀ u ∈ us, u.nal.size + mtapHdr typ < 65536) (s : NALSink) (hs : s.don < 65536) (ts : Nat) :
    let r := mtapLoop ((us.flatMap (mtapUnit typ) ++ tail).length + 1) typ (mtapHdr typ) s
      (us.flatMap (mtapUnit typ) ++ tail) ts
    (MtapEnd typ tail → r = .ok (none, addMtap typ s ts us)) ∧
    (MtapShort typ tail → r = .ok (some .packetTooShort, addMtap typ s ts us)) ∧
    (MtapBad typ tail → Panics r) := by
  have hl := flatMap_mtap_length typ us
  obtain ⟨f, hf⟩ : ∃ f, (us.flatMap (mtapUnit typ) ++ tail).length + 1 = us.length + (f + 1) :=
    ⟨(us.flatMap (mtapUnit typ) ++ tail).length - us.length, by rw [List.length_append]; omega⟩
  intro r
  have hr : r = mtapLoop (f + 1) typ (mtapHdr typ) (addMtap typ s ts us) tail ts := by
    show mtapLoop _ _ _ _ _ _ = _
    rw [hf, mtapLoop_units typ us _ _ _ _ hs hus]
  rw [hr]
  exact ⟨fun h => mtapLoop_end h _ _ _, fun h => mtapLoop_short h _ _ _, fun h => mtapLoop_bad h _ _ _⟩

end Ouro
