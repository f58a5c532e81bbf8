import Verif.Spec.Distance
import Verif.Props.Join
import Verif.Lemmas.MainTrace
/-! # C142: decoding order numbers for a receiver that joins late -/
namespace Ouro
open Spec

/-- The numbers in a sink: those of its units and the next one. -/
def numR (f : Nat → Nat) (r : Go (Option H264Err × NALSink)) : Go (Option H264Err × List Nat × Nat) :=
  match r with
  | .error p => .error p
  | .ok (e, s) => .ok (e, s.units.map (fun u => f u.don), f s.don)

/-- The two sinks have the same numbers, but for `f`. -/
structure Offset (f : Nat → Nat) (s s' : NALSink) : Prop where
  units : s.units.map (fun u => f u.don) = s'.units.map (fun u => u.don)
  don : f s.don = s'.don

theorem Offset.ok {f : Nat → Nat} {s s' : NALSink} (h : Offset f s s') (e : Option H264Err) : numR f (.ok (e, s)) = numR id (.ok (e, s')) := by
  show Except.ok _ = Except.ok _
  rw [h.units, h.don]; rfl

theorem Offset.unit {f : Nat → Nat} {s s' : NALSink} (h : Offset f s s') (u u' : NALUnit) (hu : f u.don = u'.don) (n n' : Nat) (hn : f n = n') :
    Offset f { s with units := s.units ++ [u], don := n } { s' with units := s'.units ++ [u'], don := n' } := by
  refine ⟨?_, hn⟩
  show (s.units ++ _).map _ = (s'.units ++ _).map _
  rw [List.map_append, List.map_append, h.units, List.map_singleton, List.map_singleton, hu]

section
variable {f : Nat → Nat}

theorem stapLoop_off (hf : ∀ x, f (u16 (x + 1)) = u16 (f x + 1)) (ts : Nat) (fuel : Nat) : ∀ (s s' : NALSink) (buf : Bytes), Offset f s s' →
    numR f (stapLoop fuel s buf ts) = numR id (stapLoop fuel s' buf ts) := by
  induction fuel with
  | zero => intro s s' buf h; rfl
  | succ fuel ih =>
    intro s s' buf h
    rw [stapLoop, stapLoop]
    by_cases h0 : buf.length < 2
    · rw [if_pos h0, if_pos h0]; exact h.ok _
    rw [if_neg h0, if_neg h0]
    cases beU16 buf with
    | error p => rfl
    | ok size =>
      dsimp only
      by_cases h1 : buf.length < u16 (size + 2)
      · rw [if_pos h1, if_pos h1]; exact h.ok _
      rw [if_neg h1, if_neg h1]
      cases idx buf 2 with
      | error p => rfl
      | ok hd =>
        dsimp only
        cases slice buf 3 (u16 (size + 2)) with
        | error p => rfl
        | ok d =>
          dsimp only
          cases sliceFrom buf (u16 (size + 2)) with
          | error p => rfl
          | ok rest => exact ih _ _ rest (h.unit _ _ h.don _ _ (by rw [hf, h.don]))

theorem mtapLoop_off (typ : UInt8) (off : Nat) (ts : Nat) (fuel : Nat) : ∀ (s s' : NALSink) (buf : Bytes), Offset id s s' →
    numR id (mtapLoop fuel typ off s buf ts) = numR id (mtapLoop fuel typ off s' buf ts) := by
  induction fuel with
  | zero => intro s s' buf h; rfl
  | succ fuel ih =>
    intro s s' buf h
    have h3 : s.don = s'.don := h.don
    rw [mtapLoop, mtapLoop]
    by_cases h0 : buf.length < off
    · rw [if_pos h0, if_pos h0]; exact h.ok _
    rw [if_neg h0, if_neg h0]
    cases beU16 buf with
    | error p => rfl
    | ok size =>
    cases idx buf 2 with
    | error p => rfl
    | ok dond =>
    cases idx buf 3 with
    | error p => rfl
    | ok t1 =>
    cases idx buf 4 with
    | error p => rfl
    | ok t2 =>
      dsimp only
      generalize (if (typ == 27) = true then
            match idx buf 5 with
            | .error p => .error p
            | .ok t3 => .ok (u32 (u32 (ts <<< 8) + t3.toNat))
          else .ok (u32 (t1.toNat <<< 8 + t2.toNat)) : Go Nat) = o
      cases o with
      | error p => rfl
      | ok o =>
        dsimp only
        by_cases h1 : buf.length < u16 (size + off)
        · rw [if_pos h1, if_pos h1]; exact h.ok _
        rw [if_neg h1, if_neg h1]
        cases idx buf off with
        | error p => rfl
        | ok hd =>
          dsimp only
          cases slice buf (u16 (off + 1)) (u16 (size + off)) with
          | error p => rfl
          | ok d =>
            dsimp only
            cases sliceFrom buf (u16 (size + off)) with
            | error p => rfl
            | ok rest => exact ih _ _ rest (h.unit _ _ (by show u16 _ = u16 _; rw [h3]) _ _ (by show u16 _ = u16 _; rw [h3]))

theorem parseMTAP_off (typ : UInt8) (ts : Nat) (s s' : NALSink) (buf : Bytes) (hu : s.units = []) (hu' : s'.units = []) (h : Offset id s s' ∨ 2 ≤ buf.length) :
    numR id (parseMTAP typ s buf ts) = numR id (parseMTAP typ s' buf ts) := by
  unfold parseMTAP
  by_cases h0 : buf.length < 2
  · rw [if_pos h0, if_pos h0]
    rcases h with h | h
    · exact h.ok _
    · omega
  rw [if_neg h0, if_neg h0]
  cases beU16 buf with
  | error p => rfl
  | ok don =>
    dsimp only
    cases sliceFrom buf 2 with
    | error p => rfl
    | ok rest => exact mtapLoop_off typ _ _ _ _ _ _ ⟨by show s.units.map _ = s'.units.map _; rw [hu, hu']; rfl, rfl⟩

theorem parseSTAPB_off (ts : Nat) (s s' : NALSink) (buf : Bytes) (hu : s.units = []) (hu' : s'.units = []) (h : Offset id s s' ∨ 2 ≤ buf.length) :
    numR id (parseSTAP 25 s buf ts) = numR id (parseSTAP 25 s' buf ts) := by
  unfold parseSTAP
  rw [if_pos (by decide : ((25 : UInt8) == 25) = true), if_pos (by decide : ((25 : UInt8) == 25) = true)]
  by_cases h0 : buf.length < 2
  · rw [if_pos h0, if_pos h0]
    rcases h with h | h
    · exact h.ok _
    · omega
  rw [if_neg h0, if_neg h0]
  cases beU16 buf with
  | error p => rfl
  | ok don =>
    dsimp only
    cases sliceFrom buf 2 with
    | error p => rfl
    | ok rest => exact stapLoop_off (fun _ => rfl) _ _ _ _ _ ⟨by show s.units.map _ = s'.units.map _; rw [hu, hu']; rfl, rfl⟩

theorem addFragment_off (s s' : NALSink) (h : Offset f s s') (i hd : UInt8) (don don' ts : Nat) (hdon : f don = don') (d : Bytes) :
    Offset f (addFragment s i hd don ts d) (addFragment s' i hd don' ts d) := by
  unfold addFragment
  by_cases he : (hd &&& 0x40 != 0) = true
  · simp only [if_pos he]
    refine ⟨?_, h.don⟩
    show (s.units ++ _).map _ = (s'.units ++ _).map _
    rw [List.map_append, List.map_append, h.units, List.map_singleton, List.map_singleton, hdon]
  · simp only [if_neg he]
    exact ⟨h.units, h.don⟩

theorem parseNAL_off (hf : ∀ x, f (u16 (x + 1)) = u16 (f x + 1)) (s s' : NALSink) (buf : Bytes) (ts : Nat) (hn : carriesNumber buf = false ∨ f = id)
    (h : f s.don = s'.don) : numR f (parseNAL s buf ts) = numR id (parseNAL s' buf ts) := by
  have h0 : Offset f { s with units := [] } { s' with units := [] } := ⟨rfl, h⟩
  unfold parseNAL
  dsimp only
  cases buf with
  | nil => exact h0.ok _
  | cons b0 rest =>
    have num : (b0 &&& 0x1F == 25 || b0 &&& 0x1F == 26 || b0 &&& 0x1F == 27 || b0 &&& 0x1F == 29) = true → f = id := fun e => by
      rcases hn with hn | hn
      · rw [carriesNumber, e] at hn; cases hn
      · exact hn
    dsimp only
    by_cases h24 : (b0 &&& 0x1F == 24) = true
    · rw [if_pos h24, if_pos h24]
      have e : b0 &&& 0x1F = 24 := by simpa using h24
      rw [e]
      exact stapLoop_off hf _ _ _ _ _ h0
    rw [if_neg h24, if_neg h24]
    by_cases h25 : (b0 &&& 0x1F == 25) = true
    · rw [if_pos h25, if_pos h25]
      obtain rfl := num (by rw [h25]; rfl)
      have e : b0 &&& 0x1F = 25 := by simpa using h25
      rw [e]
      exact parseSTAPB_off _ _ _ _ rfl rfl (.inl h0)
    rw [if_neg h25, if_neg h25]
    by_cases h26 : (b0 &&& 0x1F == 26) = true
    · rw [if_pos h26, if_pos h26]
      obtain rfl := num (by rw [h26]; simp)
      exact parseMTAP_off _ _ _ _ _ rfl rfl (.inl h0)
    rw [if_neg h26, if_neg h26]
    by_cases h27 : (b0 &&& 0x1F == 27) = true
    · rw [if_pos h27, if_pos h27]
      obtain rfl := num (by rw [h27]; simp)
      exact parseMTAP_off _ _ _ _ _ rfl rfl (.inl h0)
    rw [if_neg h27, if_neg h27]
    by_cases h28 : (b0 &&& 0x1F == 28) = true
    · rw [if_pos h28, if_pos h28]
      split
      · exact h0.ok _
      · cases idx (b0 :: rest) 1 with
        | error p => rfl
        | ok b1 =>
          cases sliceFrom (b0 :: rest) 2 with
          | error p => rfl
          | ok d => exact (addFragment_off _ _ h0 _ _ _ _ _ h _).ok _
    rw [if_neg h28, if_neg h28]
    by_cases h29 : (b0 &&& 0x1F == 29) = true
    · rw [if_pos h29, if_pos h29]
      obtain rfl := num (by rw [h29]; simp)
      split
      · exact h0.ok _
      · cases idx (b0 :: rest) 1 with
        | error p => rfl
        | ok b1 =>
          cases sliceFrom (b0 :: rest) 2 with
          | error p => rfl
          | ok d2 =>
            cases sliceFrom (b0 :: rest) 4 with
            | error p => rfl
            | ok d =>
              dsimp only
              cases beU16 d2 with
              | error p => rfl
              | ok don => exact (addFragment_off _ _ h0 _ _ _ _ _ rfl _).ok _
    rw [if_neg h29, if_neg h29]
    exact (h0.unit _ _ h _ _ (by rw [hf]; show u16 (f s.don + 1) = _; rw [h])).ok _

theorem numR_inv {r r' : Go (Option H264Err × NALSink)} (h : numR f r = numR id r') :
    (∃ p, r = .error p ∧ r' = .error p) ∨ ∃ e s s', r = .ok (e, s) ∧ r' = .ok (e, s') ∧ Offset f s s' := by
  rcases r with p | ⟨e, s⟩ <;> rcases r' with p' | ⟨e', s'⟩
  · injection h with h; exact .inl ⟨p, rfl, by rw [h]⟩
  · cases h
  · cases h
  · injection h with h; injection h with he h; injection h with h1 h2
    exact .inr ⟨e, s, s', rfl, by rw [he], h1, h2⟩

theorem pushLoop_off (hf : ∀ x, f (u16 (x + 1)) = u16 (f x + 1)) (ts : Nat) (nals : List Bytes) (hn : (∀ n ∈ nals, carriesNumber n = false) ∨ f = id) :
    ∀ s s' : NALSink, Offset f s s' → numR f (pushLoop s ts nals) = numR id (pushLoop s' ts nals) := by
  induction nals with
  | nil => intro s s' h; exact h.ok _
  | cons n nals ih =>
    intro s s' h
    rw [pushLoop, pushLoop]
    rcases numR_inv (parseNAL_off hf s s' n ts (hn.imp_left fun hn => hn n (List.mem_cons_self ..)) h.don) with ⟨p, e1, e2⟩ | ⟨e, t, t', e1, e2, ht⟩
    · rw [e1, e2]; rfl
    · rw [e1, e2]
      cases e with
      | some e => exact ht.ok _
      | none => exact ih (hn.imp_left fun hn m hm => hn m (List.mem_cons_of_mem _ hm)) _ _ ht

/-- Payloads: the numbers of one sink are those of the other, but for `f`. -/
theorem numbers_off (hf : ∀ x, f (u16 (x + 1)) = u16 (f x + 1)) (ps : List (Bytes × Nat)) (hn : (∀ p ∈ ps, NoNumbers p.1) ∨ f = id) :
    ∀ s s' : NALSink, f s.don = s'.don → (numbersOf s ps).map f = numbersOf s' ps := by
  induction ps with
  | nil => intro s s' _; rfl
  | cons p ps ih =>
    obtain ⟨b, ts⟩ := p
    intro s s' h
    have hp : numR f (push s b ts) = numR id (push s' b ts) := by
      unfold push
      obtain ⟨nals, hb, hne, -⟩ := C14_split_sane b
      rw [hb]
      dsimp only
      have hn' : (∀ n ∈ nals, carriesNumber n = false) ∨ f = id := hn.imp_left fun hn => hn _ (List.mem_cons_self ..) nals hb
      cases nals with
      | nil => exact absurd rfl hne
      | cons n nals =>
        rw [pushLoop, pushLoop]
        rcases numR_inv (parseNAL_off hf s s' n ts (hn'.imp_left fun hn => hn n (List.mem_cons_self ..)) h) with ⟨p, e1, e2⟩ | ⟨e, t, t', e1, e2, ht⟩
        · rw [e1, e2]; rfl
        · rw [e1, e2]
          cases e with
          | some e => exact ht.ok _
          | none => exact pushLoop_off hf ts nals (hn'.imp_left fun hn m hm => hn m (List.mem_cons_of_mem _ hm)) _ _ ht
    unfold numbersOf
    rw [reports, reports]
    rcases numR_inv hp with ⟨p, e1, e2⟩ | ⟨e, t, t', e1, e2, ht⟩
    · rw [e1, e2]; rfl
    · rw [e1, e2]
      dsimp only
      rw [List.flatMap_cons, List.flatMap_cons, List.map_append]
      have := ih (hn.imp_left fun hn q hq => hn q (List.mem_cons_of_mem _ hq)) t t' ht.don
      unfold numbersOf at this
      rw [this]
      congr 1
      show (t.units.map _).map f = t'.units.map _
      rw [← ht.units, List.map_map]; rfl

end

/-! ## Numbers are below 65536 -/

theorem having_don (ps : List (Bytes × Nat)) : ∀ {s t : NALSink}, s.don < 65536 → having s ps = .ok t → t.don < 65536 := by
  induction ps with
  | nil => intro s t hs h; injection h with h; subst h; exact hs
  | cons p ps ih =>
    intro s t hs h
    rw [having] at h
    cases hp : push s p.1 p.2 with
    | error q => rw [hp] at h; cases h
    | ok r => rw [hp] at h; exact ih (push_don hs hp) h

theorem numbers_below {s : NALSink} (hs : s.don < 65536) {ps : List (Bytes × Nat)} (hn : ∀ p ∈ ps, NoNumbers p.1) : ∀ n ∈ numbersOf s ps, n < 65536 := by
  intro n hm
  have := numbers_off (f := fun x => x % 65536) (fun x => by unfold u16; omega) ps (.inl hn) s s (by show s.don % 65536 = _; omega)
  rw [← this, List.mem_map] at hm
  obtain ⟨m, -, rfl⟩ := hm
  show m % 65536 < 65536
  omega

theorem shift_any {s s' : NALSink} (hs : s.don < 65536) (hs' : s'.don < 65536) {ps : List (Bytes × Nat)} (hn : ∀ p ∈ ps, NoNumbers p.1) :
    numbersOf s' ps = (numbersOf s ps).map fun n => (n + (s'.don + 65536 - s.don)) % 65536 :=
  (numbers_off (f := fun n => (n + (s'.don + 65536 - s.don)) % 65536) (fun x => by unfold u16; omega) ps (.inl hn) s s'
    (by show (s.don + (s'.don + 65536 - s.don)) % 65536 = _; omega)).symm

/-! ## The property -/

/-- **C142**, where packets carry no numbers: the numbers of two receivers that joined at different times differ by a constant. -/
theorem C142_shift_partial {hist hist' ps : List (Bytes × Nat)} {s s' : NALSink} (h : having newNALSink hist = .ok s) (h' : having newNALSink hist' = .ok s')
    (hn : ∀ p ∈ ps, NoNumbers p.1) : ∃ d, numbersOf s' ps = (numbersOf s ps).map fun n => (n + d) % 65536 :=
  ⟨_, shift_any (having_don _ (by decide) h) (having_don _ (by decide) h') hn⟩

/-- There, the distance of two units is the same for both, but if it is half of the range. -/
theorem C142_distance_partial {hist hist' ps : List (Bytes × Nat)} {s s' : NALSink} (h : having newNALSink hist = .ok s) (h' : having newNALSink hist' = .ok s')
    (hn : ∀ p ∈ ps, NoNumbers p.1) {i j a b a' b' : Nat} (ha : (numbersOf s ps)[i]? = some a) (hb : (numbersOf s ps)[j]? = some b)
    (ha' : (numbersOf s' ps)[i]? = some a') (hb' : (numbersOf s' ps)[j]? = some b') (hd : (b + 65536 - a) % 65536 ≠ 32768) : donDiff a' b' = donDiff a b := by
  have la : a < 65536 := numbers_below (having_don _ (by decide) h) hn a (List.mem_of_getElem? ha)
  have lb : b < 65536 := numbers_below (having_don _ (by decide) h) hn b (List.mem_of_getElem? hb)
  obtain ⟨d, e⟩ := C142_shift_partial h h' hn
  rw [e, List.getElem?_map, ha] at ha'
  rw [e, List.getElem?_map, hb] at hb'
  injection ha' with ha'; injection hb' with hb'
  subst ha'; subst hb'
  unfold donDiff
  dsimp only
  split <;> split <;> (try split) <;> (try split) <;> omega

/-- A STAP-B or MTAP packet makes all receivers agree, whatever came before. -/
theorem C142_reset (s s' : NALSink) {b : Bytes} (hb : SetsNumber b) (ts : Nat) (ps : List (Bytes × Nat)) :
    numbersOf s ((b, ts) :: ps) = numbersOf s' ((b, ts) :: ps) := by
  obtain ⟨hd, x, y, t, hb, ht⟩ := hb
  have hN : numR id (parseNAL s (hd :: x :: y :: t) ts) = numR id (parseNAL s' (hd :: x :: y :: t) ts) := by
    have hl : 2 ≤ (x :: y :: t).length := by simp
    unfold parseNAL
    dsimp only
    rcases ht with e | e | e <;> rw [e]
    · exact parseSTAPB_off _ _ _ _ rfl rfl (.inr hl)
    · exact parseMTAP_off _ _ _ _ _ rfl rfl (.inr hl)
    · exact parseMTAP_off _ _ _ _ _ rfl rfl (.inr hl)
  have hp : numR id (push s b ts) = numR id (push s' b ts) := by
    unfold push
    rw [hb]
    dsimp only
    rw [pushLoop, pushLoop]
    rcases numR_inv hN with ⟨p, e1, e2⟩ | ⟨e, t, t', e1, e2, ht⟩
    · rw [e1, e2]
    · rw [e1, e2]
      cases e with
      | some e => exact ht.ok _
      | none => exact ht.ok _
  unfold numbersOf
  rw [reports, reports]
  rcases numR_inv hp with ⟨p, e1, e2⟩ | ⟨e, t, t', e1, e2, ht⟩
  · rw [e1, e2]
  · rw [e1, e2]
    dsimp only
    rw [List.flatMap_cons, List.flatMap_cons]
    have := numbers_off (f := id) (fun _ => rfl) ps (.inr rfl) t t' ht.don
    unfold numbersOf at this
    rw [List.map_id] at this
    rw [this]
    congr 1
    exact ht.units

/-- A single unit of one byte. -/
def loneUnit : Bytes := [0x01]

/-- A STAP-B packet with the number 39999 and one unit. -/
def setTo39999 : Bytes := [0x19, 0x9C, 0x3F, 0x00, 0x01, 0x01]

theorem numbers_lone (k : Nat) : ∀ s : NALSink, s.don < 65536 → numbersOf s (List.replicate k (loneUnit, 0)) = (List.range k).map fun i => (s.don + i) % 65536 := by
  induction k with
  | zero => intro s _; rfl
  | succ k ih =>
    intro s hs
    have hp : push s loneUnit 0 = .ok (none, { s with units := [{ header := 0x01, don := s.don, ts := 0, data := [] }], don := u16 (s.don + 1) }) := by
      unfold push
      rw [show splitAnnexB loneUnit = .ok [loneUnit] by decide +kernel]
      rfl
    rw [List.replicate_succ, numbersOf, reports, hp]
    dsimp only
    rw [List.flatMap_cons]
    have := ih { s with units := [{ header := 0x01, don := s.don, ts := 0, data := [] }], don := u16 (s.don + 1) } (by show u16 _ < _; unfold u16; omega)
    rw [numbersOf] at this
    rw [this, List.range_succ_eq_map, List.map_cons, List.map_map]
    show s.don :: _ = _ :: _
    congr 1
    · omega
    · refine List.map_congr_left fun i _ => ?_
      show (u16 (s.don + 1) + i) % 65536 = (s.don + (i + 1)) % 65536
      unfold u16; omega

theorem numbers_lone_get {k i : Nat} (hi : i < k) (s : NALSink) (hs : s.don < 65536) :
    (numbersOf s (List.replicate k (loneUnit, 0)))[i]? = some ((s.don + i) % 65536) := by
  rw [numbers_lone _ _ hs, List.getElem?_map, List.getElem?_range hi]; rfl

/-- A sink after that packet. -/
def after39999 : NALSink := { newNALSink with units := [{ header := 0x01, don := 39999, ts := 0, data := [] }], don := 40000 }

theorem having_39999 : having newNALSink [(setTo39999, 0)] = .ok after39999 := by
  rw [having, push, show splitAnnexB setTo39999 = .ok [setTo39999] by decide +kernel]; rfl

theorem noNumbers_lone : NoNumbers loneUnit := fun nals hs n hn => by
  rw [show splitAnnexB loneUnit = .ok [loneUnit] by decide +kernel] at hs
  injection hs with hs; subst hs
  obtain rfl := List.mem_singleton.1 hn
  decide

/-- At half of the range the distance has the other sign for a receiver that joined at another time. -/
theorem C142_half_refuted : ∃ (hist ps : List (Bytes × Nat)) (s' : NALSink) (i j a b a' b' : Nat), having newNALSink hist = .ok s' ∧ (∀ p ∈ ps, NoNumbers p.1) ∧
    (numbersOf newNALSink ps)[i]? = some a ∧ (numbersOf newNALSink ps)[j]? = some b ∧ (numbersOf s' ps)[i]? = some a' ∧ (numbersOf s' ps)[j]? = some b' ∧
    donDiff a b = -32768 ∧ donDiff a' b' = 32768 := by
  refine ⟨[(setTo39999, 0)], List.replicate 32769 (loneUnit, 0), after39999, 0, 32768, (0 + 0) % 65536, (0 + 32768) % 65536, (40000 + 0) % 65536, (40000 + 32768) % 65536,
    having_39999, ?_, numbers_lone_get (by omega) _ (by decide), numbers_lone_get (by omega) _ (by decide), numbers_lone_get (by omega) _ (by decide),
    numbers_lone_get (by omega) _ (by decide), by decide, by decide⟩
  intro p hp
  obtain rfl := List.eq_of_mem_replicate hp
  exact noNumbers_lone

theorem numbers_pair (s : NALSink) : numbersOf s [(loneUnit, 0), (setTo39999, 0)] = [s.don, 39999] := by
  rw [numbersOf, reports, push, show splitAnnexB loneUnit = .ok [loneUnit] by decide +kernel]
  dsimp only
  rw [show pushLoop s 0 [loneUnit] = .ok (none, { s with units := [{ header := 0x01, don := s.don, ts := 0, data := [] }], don := u16 (s.don + 1) }) from rfl]
  dsimp only
  rw [reports, push, show splitAnnexB setTo39999 = .ok [setTo39999] by decide +kernel]; rfl

/-- Where a packet carries a number, distances depend on when the receiver joined: a unit before a STAP-B packet is far before it, or one after it. -/
theorem C142_refuted : ∃ (hist ps : List (Bytes × Nat)) (s' : NALSink), having newNALSink hist = .ok s' ∧ numbersOf newNALSink ps = [0, 39999] ∧
    numbersOf s' ps = [40000, 39999] ∧ donDiff 0 39999 = -25537 ∧ donDiff 40000 39999 = -1 :=
  ⟨[(setTo39999, 0)], [(loneUnit, 0), (setTo39999, 0)], after39999, having_39999, numbers_pair _, numbers_pair _, by decide, by decide⟩

example : SetsNumber setTo39999 := ⟨0x19, 0x9C, 0x3F, [0x00, 0x01, 0x01], by decide +kernel, .inl (by decide)⟩

example : NoNumbers loneUnit := noNumbers_lone

/-- Two receivers of the same three units: the numbers wrap for the second, the distances do not change. -/
example : numbersOf newNALSink (List.replicate 3 (loneUnit, 0)) = [0, 1, 2] ∧ numbersOf { newNALSink with don := 65535 } (List.replicate 3 (loneUnit, 0)) = [65535, 0, 1] :=
  ⟨numbers_lone 3 _ (by decide), numbers_lone 3 _ (by decide)⟩

end Ouro
