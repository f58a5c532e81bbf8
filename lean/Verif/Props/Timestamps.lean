import Verif.Spec.Timestamps
import Verif.Props.Nal
/-! # C132, C133: timestamps of pushed payloads -/
namespace Ouro
open Spec

/-- The sink with other timestamps in everything it keeps. -/
def restamp (f : Nat → Nat) (s : NALSink) : NALSink :=
  { units := s.units.map (stamp f), fragments := s.fragments.map (fun x => { x with unit := stamp f x.unit }), don := s.don }

def restampR (f : Nat → Nat) (r : Go (Option H264Err × NALSink)) : Go (Option H264Err × NALSink) :=
  match r with
  | .error p => .error p
  | .ok (e, s) => .ok (e, restamp f s)

section
variable {k j : Nat → Nat} {ts ts' : Nat}

theorem restamp_inv {s s' : NALSink} (h : restamp k s = restamp j s') : s.units.map (stamp k) = s'.units.map (stamp j) ∧
    s.fragments.map (fun x => { x with unit := stamp k x.unit }) = s'.fragments.map (fun x => { x with unit := stamp j x.unit }) ∧ s.don = s'.don := by
  injection h with h1 h2 h3
  exact ⟨h1, h2, h3⟩

theorem restamp_intro {s s' : NALSink} (h1 : s.units.map (stamp k) = s'.units.map (stamp j))
    (h2 : s.fragments.map (fun x => { x with unit := stamp k x.unit }) = s'.fragments.map (fun x => { x with unit := stamp j x.unit })) (h3 : s.don = s'.don) :
    restamp k s = restamp j s' := by
  unfold restamp; rw [h1, h2, h3]

theorem restamp_unit {s s' : NALSink} (h : restamp k s = restamp j s') (hd : UInt8) (don don' t t' : Nat) (hdon : don = don') (data : Bytes) (ht : k t = j t') (n n' : Nat)
    (hn : n = n') : restamp k { s with units := s.units ++ [{ header := hd, don := don, ts := t, data := data }], don := n } =
      restamp j { s' with units := s'.units ++ [{ header := hd, don := don', ts := t', data := data }], don := n' } := by
  obtain ⟨h1, h2, h3⟩ := restamp_inv h
  refine restamp_intro ?_ h2 hn
  show (s.units ++ _).map _ = (s'.units ++ _).map _
  rw [List.map_append, List.map_append, h1]
  simp [stamp, ht, hdon]

theorem stapLoop_stamp (ht : k ts = j ts') (fuel : Nat) : ∀ (s s' : NALSink) (buf : Bytes), restamp k s = restamp j s' →
    restampR k (stapLoop fuel s buf ts) = restampR j (stapLoop fuel s' buf ts') := by
  induction fuel with
  | zero => intro s s' buf h; rfl
  | succ fuel ih =>
    intro s s' buf h
    rw [stapLoop, stapLoop]
    have hok : ∀ e : Option H264Err, restampR k (.ok (e, s)) = restampR j (.ok (e, s')) := fun e => by show Except.ok _ = Except.ok _; rw [h]
    by_cases h0 : buf.length < 2
    · rw [if_pos h0, if_pos h0]; exact hok _
    rw [if_neg h0, if_neg h0]
    cases beU16 buf with
    | error p => rfl
    | ok size =>
      dsimp only
      by_cases h1 : buf.length < u16 (size + 2)
      · rw [if_pos h1, if_pos h1]; exact hok _
      rw [if_neg h1, if_neg h1]
      cases idx buf 2 with
      | error p => rfl
      | ok hd =>
        dsimp only
        cases slice buf 3 (u16 (size + 2)) with
        | error p => rfl
        | ok d =>
          dsimp only
          cases sliceFrom buf (u16 (size + 2)) with
          | error p => rfl
          | ok rest =>
            have h3 := (restamp_inv h).2.2
            exact ih _ _ rest (restamp_unit h hd _ _ _ _ h3 d ht _ _ (by rw [h3]))

theorem parseSTAP_stamp (ht : k ts = j ts') (typ : UInt8) (s s' : NALSink) (buf : Bytes) (h : restamp k s = restamp j s') :
    restampR k (parseSTAP typ s buf ts) = restampR j (parseSTAP typ s' buf ts') := by
  unfold parseSTAP
  have hok : ∀ e : Option H264Err, restampR k (.ok (e, s)) = restampR j (.ok (e, s')) := fun e => by show Except.ok _ = Except.ok _; rw [h]
  split
  · by_cases h0 : buf.length < 2
    · rw [if_pos h0, if_pos h0]; exact hok _
    rw [if_neg h0, if_neg h0]
    cases beU16 buf with
    | error p => rfl
    | ok don =>
      dsimp only
      cases sliceFrom buf 2 with
      | error p => rfl
      | ok rest =>
        obtain ⟨h1, h2, _⟩ := restamp_inv h
        exact stapLoop_stamp ht _ _ _ _ (restamp_intro h1 h2 rfl)
  · exact stapLoop_stamp ht _ _ _ _ h

theorem mtapLoop_stamp (typ : UInt8) (off : Nat) (ht : ∀ o, k (u32 (ts + o)) = j (u32 (ts' + o)))
    (ht' : typ = 27 → ∀ o, k (u32 (ts + u32 (u32 (ts <<< 8) + o))) = j (u32 (ts' + u32 (u32 (ts' <<< 8) + o)))) (fuel : Nat) : ∀ (s s' : NALSink) (buf : Bytes),
    restamp k s = restamp j s' → restampR k (mtapLoop fuel typ off s buf ts) = restampR j (mtapLoop fuel typ off s' buf ts') := by
  induction fuel with
  | zero => intro s s' buf h; rfl
  | succ fuel ih =>
    intro s s' buf h
    rw [mtapLoop, mtapLoop]
    have hok : ∀ e : Option H264Err, restampR k (.ok (e, s)) = restampR j (.ok (e, s')) := fun e => by show Except.ok _ = Except.ok _; rw [h]
    have h3 := (restamp_inv h).2.2
    by_cases h0 : buf.length < off
    · rw [if_pos h0, if_pos h0]; exact hok _
    rw [if_neg h0, if_neg h0]
    cases beU16 buf with
    | error p => rfl
    | ok size =>
    cases idx buf 2 with
    | error p => rfl
    | ok dond =>
    cases idx buf 3 with
    | error p => rfl
    | ok t1 =>
    cases idx buf 4 with
    | error p => rfl
    | ok t2 =>
      dsimp only
      have go : ∀ o o', k (u32 (ts + o)) = j (u32 (ts' + o')) → restampR k (if buf.length < u16 (size + off) then .ok (some .packetTooShort, s)
          else match idx buf off with
            | .error p => .error p
            | .ok h =>
              match slice buf (u16 (off + 1)) (u16 (size + off)) with
              | .error p => .error p
              | .ok d =>
                match sliceFrom buf (u16 (size + off)) with
                | .error p => .error p
                | .ok rest => mtapLoop fuel typ off { s with units := s.units ++ [{ header := h, don := u16 (s.don + dond.toNat), ts := u32 (ts + o), data := d }]
                                                             don := u16 (s.don + 1) } rest ts) =
          restampR j (if buf.length < u16 (size + off) then .ok (some .packetTooShort, s')
          else match idx buf off with
            | .error p => .error p
            | .ok h =>
              match slice buf (u16 (off + 1)) (u16 (size + off)) with
              | .error p => .error p
              | .ok d =>
                match sliceFrom buf (u16 (size + off)) with
                | .error p => .error p
                | .ok rest => mtapLoop fuel typ off { s' with units := s'.units ++ [{ header := h, don := u16 (s'.don + dond.toNat), ts := u32 (ts' + o'), data := d }]
                                                              don := u16 (s'.don + 1) } rest ts') := by
        intro o o' hoo
        by_cases h1 : buf.length < u16 (size + off)
        · rw [if_pos h1, if_pos h1]; exact hok _
        rw [if_neg h1, if_neg h1]
        cases idx buf off with
        | error p => rfl
        | ok hd =>
          dsimp only
          cases slice buf (u16 (off + 1)) (u16 (size + off)) with
          | error p => rfl
          | ok d =>
            dsimp only
            cases sliceFrom buf (u16 (size + off)) with
            | error p => rfl
            | ok rest => exact ih _ _ rest (restamp_unit h hd _ _ _ _ (by rw [h3]) d hoo _ _ (by rw [h3]))
      by_cases h27 : (typ == 27) = true
      · rw [if_pos h27, if_pos h27]
        cases idx buf 5 with
        | error p => rfl
        | ok t3 => exact go _ _ (ht' (by simpa using h27) _)
      · rw [if_neg h27, if_neg h27]
        exact go _ _ (ht _)

theorem parseMTAP_stamp (typ : UInt8) (ht : ∀ o, k (u32 (ts + o)) = j (u32 (ts' + o)))
    (ht' : typ = 27 → ∀ o, k (u32 (ts + u32 (u32 (ts <<< 8) + o))) = j (u32 (ts' + u32 (u32 (ts' <<< 8) + o)))) (s s' : NALSink) (buf : Bytes)
    (h : restamp k s = restamp j s') : restampR k (parseMTAP typ s buf ts) = restampR j (parseMTAP typ s' buf ts') := by
  unfold parseMTAP
  by_cases h0 : buf.length < 2
  · rw [if_pos h0, if_pos h0]; show Except.ok _ = Except.ok _; rw [h]
  rw [if_neg h0, if_neg h0]
  cases beU16 buf with
  | error p => rfl
  | ok don =>
    dsimp only
    cases sliceFrom buf 2 with
    | error p => rfl
    | ok rest =>
      obtain ⟨h1, h2, _⟩ := restamp_inv h
      exact mtapLoop_stamp typ _ ht ht' _ _ _ _ (restamp_intro h1 h2 rfl)

theorem addFragment_stamp (ht : k ts = j ts') (s s' : NALSink) (h : restamp k s = restamp j s') (i hd : UInt8) (don don' : Nat) (hdon : don = don') (d : Bytes) :
    restamp k (addFragment s i hd don ts d) = restamp j (addFragment s' i hd don' ts' d) := by
  subst hdon
  obtain ⟨h1, h2, h3⟩ := restamp_inv h
  have hd2 : s.fragments.flatMap (·.unit.data) = s'.fragments.flatMap (·.unit.data) := by
    have := congrArg (fun l => l.flatMap (fun x : NALFragment => x.unit.data)) h2
    simp only [List.flatMap_map] at this
    exact this
  unfold addFragment
  by_cases hs : (hd &&& 0x80 != 0) = true
  · by_cases he : (hd &&& 0x40 != 0) = true
    · simp only [if_pos hs, if_pos he]
      exact restamp_intro (by simp [h1, stamp, ht]) (by simp [stamp, ht]) h3
    · simp only [if_pos hs, if_neg he]
      exact restamp_intro h1 (by simp [stamp, ht]) h3
  · by_cases he : (hd &&& 0x40 != 0) = true
    · simp only [if_neg hs, if_pos he]
      exact restamp_intro (by simp [h1, stamp, ht, hd2]) (by simp only [List.map_append, h2]; simp [stamp, ht]) h3
    · simp only [if_neg hs, if_neg he]
      exact restamp_intro h1 (by simp only [List.map_append, h2]; simp [stamp, ht]) h3

theorem parseNAL_stamp (ht0 : k ts = j ts') (ht : ∀ o, k (u32 (ts + o)) = j (u32 (ts' + o))) (s s' : NALSink) (buf : Bytes)
    (ht' : (∃ h t, buf = h :: t ∧ h &&& 0x1F = 27) → ∀ o, k (u32 (ts + u32 (u32 (ts <<< 8) + o))) = j (u32 (ts' + u32 (u32 (ts' <<< 8) + o))))
    (h : restamp k s = restamp j s') : restampR k (parseNAL s buf ts) = restampR j (parseNAL s' buf ts') := by
  obtain ⟨h1, h2, h3⟩ := restamp_inv h
  have h0 : restamp k { s with units := [] } = restamp j { s' with units := [] } := restamp_intro rfl h2 h3
  have hok : ∀ e : Option H264Err, restampR k (.ok (e, { s with units := [] })) = restampR j (.ok (e, { s' with units := [] })) := fun e => by
    show Except.ok _ = Except.ok _; rw [h0]
  unfold parseNAL
  dsimp only
  cases buf with
  | nil => exact hok _
  | cons b0 rest =>
    dsimp only
    split
    · exact parseSTAP_stamp ht0 _ _ _ _ h0
    split
    · exact parseSTAP_stamp ht0 _ _ _ _ h0
    split
    · rename_i h26
      refine parseMTAP_stamp _ ht (fun h27 => ?_) _ _ _ h0
      rw [h27] at h26; exact absurd h26 (by decide)
    split
    · exact parseMTAP_stamp _ ht (fun h27 => ht' ⟨b0, rest, rfl, h27⟩) _ _ _ h0
    split
    · split
      · exact hok _
      · cases idx (b0 :: rest) 1 with
        | error p => rfl
        | ok b1 =>
          cases sliceFrom (b0 :: rest) 2 with
          | error p => rfl
          | ok d =>
            show Except.ok _ = Except.ok _
            rw [addFragment_stamp ht0 _ _ h0 _ _ _ _ h3]
    split
    · split
      · exact hok _
      · cases idx (b0 :: rest) 1 with
        | error p => rfl
        | ok b1 =>
          cases sliceFrom (b0 :: rest) 2 with
          | error p => rfl
          | ok d2 =>
            cases sliceFrom (b0 :: rest) 4 with
            | error p => rfl
            | ok d =>
              dsimp only
              cases beU16 d2 with
              | error p => rfl
              | ok don =>
                show Except.ok _ = Except.ok _
                rw [addFragment_stamp ht0 _ _ h0 _ _ _ _ rfl]
    · show Except.ok _ = Except.ok _
      rw [restamp_unit h0 b0 _ _ _ _ h3 rest ht0 _ _ (by rw [show ({ s with units := [] } : NALSink).don = ({ s' with units := [] } : NALSink).don from h3])]

theorem pushLoop_stamp (ht0 : k ts = j ts') (ht : ∀ o, k (u32 (ts + o)) = j (u32 (ts' + o))) (nals : List Bytes)
    (ht' : (∃ h t, h :: t ∈ nals ∧ h &&& 0x1F = 27) → ∀ o, k (u32 (ts + u32 (u32 (ts <<< 8) + o))) = j (u32 (ts' + u32 (u32 (ts' <<< 8) + o)))) : ∀ s s' : NALSink,
    restamp k s = restamp j s' → restampR k (pushLoop s ts nals) = restampR j (pushLoop s' ts' nals) := by
  induction nals with
  | nil => intro s s' h; show Except.ok _ = Except.ok _; rw [h]
  | cons n nals ih =>
    intro s s' h
    have hn := parseNAL_stamp ht0 ht s s' n (fun ⟨x, t, hx, h27⟩ => ht' ⟨x, t, by rw [hx]; exact List.mem_cons_self .., h27⟩) h
    rw [pushLoop, pushLoop]
    rcases h1 : parseNAL s n ts with p | ⟨e, t⟩ <;> rcases h2 : parseNAL s' n ts' with p' | ⟨e', t'⟩ <;> rw [h1, h2] at hn
    · exact hn
    · cases hn
    · cases hn
    · injection hn with hn
      injection hn with he hs
      subst he
      cases e with
      | some e => show Except.ok _ = Except.ok _; rw [hs]
      | none => exact ih (fun ⟨x, t, hx, h27⟩ => ht' ⟨x, t, List.mem_cons_of_mem _ hx, h27⟩) _ _ hs

theorem push_stamp (ht0 : k ts = j ts') (ht : ∀ o, k (u32 (ts + o)) = j (u32 (ts' + o))) (s s' : NALSink) (b : Bytes)
    (ht' : NoMtap24 b ∨ ∀ o, k (u32 (ts + u32 (u32 (ts <<< 8) + o))) = j (u32 (ts' + u32 (u32 (ts' <<< 8) + o)))) (h : restamp k s = restamp j s') :
    restampR k (push s b ts) = restampR j (push s' b ts') := by
  unfold push
  cases hb : splitAnnexB b with
  | error p => rfl
  | ok nals =>
    refine pushLoop_stamp ht0 ht nals (fun ⟨x, t, hx, h27⟩ => ?_) _ _ h
    rcases ht' with ht' | ht'
    · exact absurd h27 (ht' nals hb x t hx)
    · exact ht'

theorem reports_step (s s' : NALSink) (b : Bytes) (hp : restampR k (push s b ts) = restampR j (push s' b ts')) (ps qs : List (Bytes × Nat))
    (ih : ∀ t t', restamp k t = restamp j t' → (reports t ps).map (stampAll k) = (reports t' qs).map (stampAll j)) :
    (reports s ((b, ts) :: ps)).map (stampAll k) = (reports s' ((b, ts') :: qs)).map (stampAll j) := by
  rw [reports, reports]
  rcases h1 : push s b ts with p | ⟨e, t⟩ <;> rcases h2 : push s' b ts' with p' | ⟨e', t'⟩ <;> rw [h1, h2] at hp
  · injection hp with hp; subst hp; rfl
  · cases hp
  · cases hp
  · injection hp with hp
    injection hp with he hs
    subst he
    dsimp only
    rw [List.map_cons, List.map_cons, ih _ _ hs]
    congr 1
    show Except.ok _ = Except.ok _
    rw [(restamp_inv hs).1]

end

/-- C132: whatever payloads are pushed, with whatever timestamps: the errors, and the headers, numbers and contents of the units are the same with any others. -/
theorem C132_labels (ps : List (Bytes × Nat)) : ∀ (qs : List (Bytes × Nat)), ps.map (·.1) = qs.map (·.1) →
    (reports newNALSink ps).map (stampAll fun _ => 0) = (reports newNALSink qs).map (stampAll fun _ => 0) := by
  have gen : ∀ (qs : List (Bytes × Nat)), ps.map (·.1) = qs.map (·.1) → ∀ s s' : NALSink, restamp (fun _ => 0) s = restamp (fun _ => 0) s' →
      (reports s ps).map (stampAll fun _ => 0) = (reports s' qs).map (stampAll fun _ => 0) := by
    induction ps with
    | nil =>
      intro qs h s s' _
      have : qs = [] := List.map_eq_nil_iff.1 h.symm
      subst this; rfl
    | cons p ps ih =>
      intro qs h s s' hs
      cases qs with
      | nil => cases h
      | cons q qs =>
        obtain ⟨b, ts⟩ := p
        obtain ⟨b', ts'⟩ := q
        rw [List.map_cons, List.map_cons] at h
        injection h with h1 h2
        have h1 : b = b' := h1
        subst h1
        exact reports_step (k := fun _ => 0) (j := fun _ => 0) (ts := ts) (ts' := ts') s s' b (push_stamp (k := fun _ => 0) (j := fun _ => 0) (ts := ts) (ts' := ts') rfl (fun _ => rfl) s s' b (.inr fun _ => rfl) hs) ps qs (ih qs h2)
  intro qs h
  exact gen qs h _ _ rfl

theorem ahead_u32 (d ts o : Nat) : ahead d (u32 (ts + o)) = id (u32 (ahead d ts + o)) := by
  unfold ahead u32 id; omega

/-- C133: a clock that is ahead by `d` gives the same units with timestamps that are ahead by `d`, for all payloads without MTAP24 packets. -/
theorem C133_clock_partial (d : Nat) (ps : List (Bytes × Nat)) (hn : ∀ p ∈ ps, NoMtap24 p.1) :
    reports newNALSink (ps.map fun p => (p.1, ahead d p.2)) = (reports newNALSink ps).map (stampAll (ahead d)) := by
  have stampId : ∀ l : List (Except Panic (Option H264Err × List NALUnit)), l.map (stampAll id) = l := fun l => by
    have : stampAll id = id := by
      funext r
      rcases r with p | ⟨e, us⟩
      · rfl
      · have : us.map (stamp id) = us := by rw [show stamp id = id from rfl, List.map_id]
        show Except.ok (e, us.map (stamp id)) = _
        rw [this]; rfl
    rw [this, List.map_id]
  have gen : ∀ s s' : NALSink, restamp (ahead d) s = restamp id s' →
      (reports s ps).map (stampAll (ahead d)) = (reports s' (ps.map fun p => (p.1, ahead d p.2))).map (stampAll id) := by
    induction ps with
    | nil => intro s s' _; rfl
    | cons p ps ih =>
      intro s s' hs
      exact reports_step (k := ahead d) (j := id) (ts := p.2) (ts' := ahead d p.2) s s' p.1 (push_stamp (k := ahead d) (j := id) (ts := p.2) (ts' := ahead d p.2) rfl (ahead_u32 d p.2) s s' p.1 (.inl (hn p (List.mem_cons_self ..))) hs) ps _
        (ih fun q hq => hn q (List.mem_cons_of_mem _ hq))
  rw [gen newNALSink newNALSink rfl, stampId]

/-- An MTAP24 packet with one unit. -/
def mtap24 : Bytes := [27, 0, 1, 0, 2, 0, 0, 0, 5, 0x65, 9]

theorem mtap24_reports (ts : Nat) : reports newNALSink [(mtap24, ts)] = [.ok (none, [⟨0x65, 1, (257 * ts + 5) % 2 ^ 32, [9]⟩])] := by
  have h : splitAnnexB mtap24 = .ok [mtap24] := by decide +kernel
  have e : u32 (ts + u32 (u32 (ts <<< 8) + 5)) = (257 * ts + 5) % 2 ^ 32 := by
    unfold u32; rw [Nat.shiftLeft_eq]; omega
  rw [← e]
  unfold reports push
  rw [h]
  rfl

/-- C133, exactly, for a payload that is an MTAP24 packet with one unit: it is right for no other differences than the multiples of 2^24. -/
theorem C133_mtap24_iff (ts d : Nat) :
    reports newNALSink [(mtap24, ahead d ts)] = (reports newNALSink [(mtap24, ts)]).map (stampAll (ahead d)) ↔ d % 2 ^ 24 = 0 := by
  rw [mtap24_reports, mtap24_reports]
  have e : [(Except.ok (none, [⟨0x65, 1, (257 * ts + 5) % 2 ^ 32, [9]⟩]) : Except Panic (Option H264Err × List NALUnit))].map (stampAll (ahead d)) =
      [.ok (none, [⟨0x65, 1, ahead d ((257 * ts + 5) % 2 ^ 32), [9]⟩])] := rfl
  rw [e]
  constructor
  · intro h
    injection h with h; injection h with h; injection h with _ h; injection h with h; injection h with _ _ h
    unfold ahead at h
    omega
  · intro h
    have : (257 * ahead d ts + 5) % 2 ^ 32 = ahead d ((257 * ts + 5) % 2 ^ 32) := by unfold ahead; omega
    rw [this]

/-- C133 fails for MTAP24 packets: the timestamp of the unit is ahead by 257 times as much, which is right only for multiples of 2^24. -/
theorem C133_mtap24_refuted : reports newNALSink [(mtap24, 10)] = [.ok (none, [⟨0x65, 1, 2575, [9]⟩])] ∧
    reports newNALSink [(mtap24, ahead 1 10)] = [.ok (none, [⟨0x65, 1, 2832, [9]⟩])] ∧ ahead 1 2575 = 2576 ∧ ¬ NoMtap24 mtap24 := by
  refine ⟨by decide +kernel, by decide +kernel, by decide, fun h => ?_⟩
  exact h [mtap24] (by decide +kernel) 27 [0, 1, 0, 2, 0, 0, 0, 5, 0x65, 9] (by decide) (by decide)

/-- Payloads with a unit, an aggregate and two fragments. -/
example : ∃ ps : List (Bytes × Nat), (∀ p ∈ ps, NoMtap24 p.1) ∧ ((reports newNALSink ps).map fun r => (r.toOption.map (·.2.length))) = [some 1, some 2, some 0, some 1] := by
  refine ⟨[([0x65, 1], 7), ([24, 0, 2, 0x67, 1, 0, 2, 0x68, 1], 9), ([28, 0x85, 1], 11), ([28, 0x45, 2], 11)], ?_, by decide +kernel⟩
  intro p hp
  simp only [List.mem_cons, List.not_mem_nil, or_false] at hp
  rcases hp with rfl | rfl | rfl | rfl
  · intro nals h; rw [show splitAnnexB [0x65, 1] = .ok [[0x65, 1]] from by decide +kernel] at h; injection h with h; subst h; intro x t hx; simp at hx; rw [hx.1]; decide
  · intro nals h; rw [show splitAnnexB [24, 0, 2, 0x67, 1, 0, 2, 0x68, 1] = .ok [[24, 0, 2, 0x67, 1, 0, 2, 0x68, 1]] from by decide +kernel] at h; injection h with h; subst h; intro x t hx; simp at hx; rw [hx.1]; decide
  · intro nals h; rw [show splitAnnexB [28, 0x85, 1] = .ok [[28, 0x85, 1]] from by decide +kernel] at h; injection h with h; subst h; intro x t hx; simp at hx; rw [hx.1]; decide
  · intro nals h; rw [show splitAnnexB [28, 0x45, 2] = .ok [[28, 0x45, 2]] from by decide +kernel] at h; injection h with h; subst h; intro x t hx; simp at hx; rw [hx.1]; decide

end Ouro
