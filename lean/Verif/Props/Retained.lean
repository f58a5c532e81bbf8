import Verif.Lemmas.NalHeap
/-! # C81, C82, C83: units and payloads keep their content -/
namespace Ouro
open Spec

theorem pushes_snoc (ps : List (Bytes × Nat)) (p : Bytes) (ts : Nat) : ∀ (s : NALSink) (s' : NALSink), pushes s ps = .ok s' → pushes s (ps ++ [(p, ts)]) = pushes s' [(p, ts)] := by
  induction ps with
  | nil => intro s s' h; cases h; rfl
  | cons q ps ih =>
    intro s s' h
    rw [List.cons_append, pushes]
    rw [pushes] at h
    cases hp : push s q.1 q.2 with
    | error e => rw [hp] at h; cases h
    | ok r => rw [hp] at h; exact ih _ _ h

/-- What holds throughout. -/
structure LifeInv (l : Life) : Prop where
  scratch : ∀ a ∈ l.scratch, a < l.m.b.length
  ok : SinkOk (· ∉ l.scratch) l.m l.s
  units : ∀ u ∈ l.units, u.1.data.WF l.m.b ∧ u.1.data.Own (· ∉ l.scratch) ∧ viewUnit l.m.b u.1 = u.2
  payloads : ∀ p ∈ l.payloads, p.1.WF l.m.b ∧ p.1.Own (· ∉ l.scratch) ∧ p.1.view l.m.b = p.2
  pushed : pushes newNALSink l.pushed = .ok (viewSink l.m l.s)

theorem wf_in {h : Heap UInt8} {s : Sl} (w : s.WF h) : s.cap = 0 ∨ s.arr < h.length := by
  by_cases hl : s.arr < h.length
  · exact .inr hl
  · have := w.cap
    rw [List.getD_eq_getElem?_getD, List.getElem?_eq_none (by omega)] at this
    simp at this
    exact .inl (by omega)

theorem view_write {h : Heap UInt8} {s : Sl} {a i : Nat} {xs : Bytes} (w : s.WF h) (hs : s.cap = 0 ∨ s.arr ≠ a) (hi : i + xs.length ≤ (h.getD a []).length) :
    s.view (h.write a i xs) = s.view h ∧ s.WF (h.write a i xs) := by
  have hlen : ∀ b, ((h.write a i xs).getD b []).length = (h.getD b []).length := by
    intro b
    rw [getD_write]
    split
    · next hb => rw [overwrite_length hi, hb.1]
    · rfl
  refine ⟨?_, ⟨by rw [hlen]; exact w.cap, w.len⟩⟩
  rcases hs with hs | hs
  · have : s.len = 0 := by have := w.len; omega
    rw [view_empty this, view_empty this]
  · unfold Sl.view
    rw [getD_write, if_neg (by omega)]

theorem life_inv {g : Nat → Nat} {l : Life} (h : Life.Reach g l) : LifeInv l := by
  induction h with
  | start =>
    have mu := make_spec (α := HUnit) [] 20
    have mf := make_spec (α := HFrag) [] 20
    refine ⟨(fun _ h => by cases h), ⟨mu.2.1, mf.2.1, ?_, ?_⟩, (fun _ h => by cases h), (fun _ h => by cases h), ?_⟩
    · intro u hu
      rw [show Life.start.s.units.view Life.start.m.u = [] from mu.2.2.1] at hu
      cases hu
    · intro u hu
      rw [show Life.start.s.fragments.view Life.start.m.f = [] from mf.2.2.1] at hu
      cases hu
    · rfl
  | step l l' _ st ih =>
    cases st with
    | alloc xs =>
      have hp : l.m.b <+: l.m.b ++ [xs] := List.prefix_append _ _
      have own : ∀ s : Sl, s.WF l.m.b → s.Own (· ∉ l.scratch) → s.Own (· ∉ l.m.b.length :: l.scratch) := by
        intro s w o
        rcases wf_in w with c | c
        · exact .inl c
        · rcases o with o | o
          · exact .inl o
          · exact .inr (by simp only [List.mem_cons, not_or]; exact ⟨by omega, o⟩)
      obtain ⟨g1, g2⟩ := ih.ok.grow hp
      refine ⟨?_, ⟨g1.units, g1.frags, ?_, ?_⟩, ?_, ?_, ?_⟩
      · intro a ha
        show a < (l.m.b ++ [xs]).length
        rw [List.length_append]
        rcases List.mem_cons.1 ha with rfl | ha
        · simp
        · have := ih.scratch a ha; omega
      · exact fun u hu => ⟨(g1.udata u hu).1, own _ (ih.ok.udata u hu).1 (ih.ok.udata u hu).2⟩
      · exact fun u hu => ⟨(g1.fdata u hu).1, own _ (ih.ok.fdata u hu).1 (ih.ok.fdata u hu).2⟩
      · intro u hu
        obtain ⟨a, b, c⟩ := ih.units u hu
        exact ⟨wf_prefix hp a, own _ a b, (viewUnit_prefix hp a).trans c⟩
      · intro u hu
        obtain ⟨a, b, c⟩ := ih.payloads u hu
        exact ⟨wf_prefix hp a, own _ a b, (view_prefix hp a).trans c⟩
      · show pushes newNALSink l.pushed = .ok (viewSink ⟨l.m.b ++ [xs], l.m.u, l.m.f⟩ l.s)
        rw [g2]; exact ih.pushed
    | write a i xs ha hi =>
      have same : ∀ s : Sl, s.WF l.m.b → s.Own (· ∉ l.scratch) → s.view (l.m.b.write a i xs) = s.view l.m.b ∧ s.WF (l.m.b.write a i xs) := by
        intro s w o
        refine view_write w ?_ hi
        rcases o with o | o
        · exact .inl o
        · exact .inr fun e => o (e ▸ ha)
      refine ⟨?_, ⟨ih.ok.units, ih.ok.frags, ?_, ?_⟩, ?_, ?_, ?_⟩
      · intro c hc
        show c < (l.m.b.set a _).length
        rw [List.length_set]
        exact ih.scratch c hc
      · exact fun u hu => ⟨(same _ (ih.ok.udata u hu).1 (ih.ok.udata u hu).2).2, (ih.ok.udata u hu).2⟩
      · exact fun u hu => ⟨(same _ (ih.ok.fdata u hu).1 (ih.ok.fdata u hu).2).2, (ih.ok.fdata u hu).2⟩
      · intro u hu
        obtain ⟨a1, b1, c1⟩ := ih.units u hu
        obtain ⟨d1, d2⟩ := same _ a1 b1
        refine ⟨d2, b1, ?_⟩
        rw [← c1]; unfold viewUnit; dsimp only; rw [d1]
      · intro u hu
        obtain ⟨a1, b1, c1⟩ := ih.payloads u hu
        obtain ⟨d1, d2⟩ := same _ a1 b1
        exact ⟨d2, b1, d1.trans c1⟩
      · rw [ih.pushed]
        congr 1
        unfold viewSink
        dsimp only
        congr 1
        · refine List.map_congr_left fun u hu => ?_
          unfold viewUnit; rw [(same _ (ih.ok.udata u hu).1 (ih.ok.udata u hu).2).1]
        · refine List.map_congr_left fun u hu => ?_
          unfold viewFrag viewUnit; rw [(same _ (ih.ok.fdata u hu).1 (ih.ok.fdata u hu).2).1]
    | deliver buf hb =>
      have we : emptySl.WF l.m.b := ⟨Nat.zero_le _, Nat.le_refl _⟩
      have ap := append_spec g we (buf.view l.m.b)
      obtain ⟨hp, own⟩ := ap.above (List.prefix_refl _) (.inl rfl)
      have hv := ap.view
      rw [show emptySl.view l.m.b = [] from view_empty rfl, List.nil_append] at hv
      obtain ⟨g1, g2⟩ := ih.ok.grow hp
      refine ⟨fun a ha => Nat.lt_of_lt_of_le (ih.scratch a ha) hp.length_le, ⟨g1.units, g1.frags, g1.udata, g1.fdata⟩, ?_, ?_, ?_⟩
      · intro u hu
        obtain ⟨a, b, c⟩ := ih.units u hu
        exact ⟨wf_prefix hp a, b, (viewUnit_prefix hp a).trans c⟩
      · intro u hu
        rcases List.mem_cons.1 hu with rfl | hu
        · refine ⟨ap.wf, own.mono fun a ha hs => ?_, hv⟩
          have := ih.scratch a hs; omega
        · obtain ⟨a, b, c⟩ := ih.payloads u hu
          exact ⟨wf_prefix hp a, b, (view_prefix hp a).trans c⟩
      · show pushes newNALSink l.pushed = .ok (viewSink ⟨(l.m.b.append g emptySl (buf.view l.m.b)).1, l.m.u, l.m.f⟩ l.s)
        rw [g2]; exact ih.pushed
    | push buf ts hb e m s h =>
      have sm := hPush_same g (Q := (· ∉ l.scratch)) ts ih.ok (fun a ha hs => by have := ih.scratch a hs; omega) hb
      rw [h] at sm
      rcases sm.cases with ⟨p, e1, _⟩ | ⟨r, ⟨e', v⟩, e1, e2, r1, mv⟩
      · cases e1
      cases e1
      have hp : l.m.b <+: m.b := mv.old
      refine ⟨fun a ha => Nat.lt_of_lt_of_le (ih.scratch a ha) hp.length_le, mv.ok, ?_, ?_, ?_⟩
      · intro u hu
        rcases List.mem_append.1 hu with hu | hu
        · obtain ⟨x, hx, rfl⟩ := List.mem_map.1 hu
          exact ⟨(mv.ok.udata x hx).1, (mv.ok.udata x hx).2, rfl⟩
        · obtain ⟨a, b, c⟩ := ih.units u hu
          exact ⟨wf_prefix hp a, b, (viewUnit_prefix hp a).trans c⟩
      · intro u hu
        obtain ⟨a, b, c⟩ := ih.payloads u hu
        exact ⟨wf_prefix hp a, b, (view_prefix hp a).trans c⟩
      · show pushes newNALSink (l.pushed ++ [(buf.view l.m.b, ts)]) = .ok (viewSink m s)
        rw [pushes_snoc _ _ _ _ _ ih.pushed, pushes, e2]
        have hv : viewSink m s = v := mv.view
        rw [hv]
        rfl

/-- C81: whatever buffers the payloads came from and however these are reused afterwards, every unit that was ever reported still holds what it
held when it was reported, -/
theorem C81_units_keep {g : Nat → Nat} {l : Life} (h : Life.Reach g l) : ∀ u ∈ l.units, viewUnit l.m.b u.1 = u.2 :=
  fun u hu => ((life_inv h).units u hu).2.2

/-- and the sink holds what follows from the contents the payloads had when they were pushed. -/
theorem C81_sink_keeps {g : Nat → Nat} {l : Life} (h : Life.Reach g l) : pushes newNALSink l.pushed = .ok (viewSink l.m l.s) :=
  (life_inv h).pushed

/-- A push reports an error or panics just as if slices were values, reports the same units, and changes no bytes that were there before. -/
theorem C81_push {g : Nat → Nat} {l : Life} (h : Life.Reach g l) {buf : Sl} (hb : buf.WF l.m.b) (ts : Nat) :
    match push (viewSink l.m l.s) (buf.view l.m.b) ts with
    | .error p => hPush g l.m l.s buf ts = .error p
    | .ok (e, v) => ∃ (m : Mem) (s : HSink), hPush g l.m l.s buf ts = .ok (e, m, s) ∧ viewSink m s = v ∧ l.m.b <+: m.b := by
  have i := life_inv h
  rcases (hPush_same g (Q := (· ∉ l.scratch)) ts i.ok (fun a ha hs => by have := i.scratch a hs; omega) hb).cases with ⟨p, e1, e2⟩ | ⟨⟨e, m, s⟩, ⟨e', v⟩, e1, e2, r1, mv⟩
  · rw [e2]; exact e1
  · rw [e2]
    have r1 : e = e' := r1
    subst r1
    exact ⟨m, s, e1, mv.view, mv.old⟩

theorem overwritten {α : Type} [Inhabited α] (g : Nat → Nat) (h : Heap α) (s : Sl) (w : s.WF h) (hl : 0 < s.len) (x : α) :
    s.view (h.append g { s with len := 0 } [x]).1 = x :: (s.view h).tail := by
  have wc := w.cap
  have wl := w.len
  have hin : s.arr < h.length := by
    by_cases hin : s.arr < h.length
    · exact hin
    · rw [List.getD_eq_getElem?_getD, List.getElem?_eq_none (by omega)] at wc
      simp at wc
      omega
  unfold Heap.append
  rw [if_pos (by simp; omega)]
  dsimp only
  unfold Sl.view
  rw [getD_write, if_pos ⟨rfl, hin⟩]
  unfold overwrite
  generalize h.getD s.arr [] = a at wc
  have h1 : (List.take (s.off + 0) a ++ [x] ++ List.drop (s.off + 0 + [x].length) a).drop s.off = x :: a.drop (s.off + 1) := by
    rw [List.append_assoc, List.drop_append, List.drop_eq_nil_of_le (by simp; omega)]
    simp
    rw [Nat.min_eq_left (by omega), Nat.sub_self]
    rfl
  rw [h1]
  obtain ⟨n, hn⟩ : ∃ n, s.len = n + 1 := ⟨s.len - 1, by omega⟩
  rw [hn, List.take_succ_cons, ← List.drop_one, List.drop_take, List.drop_drop, Nat.add_sub_cancel]

/-- C83: but a list of units that was kept is overwritten by the next push: if the payload is a single unit that is not a fragment or an
aggregate, this unit is now the first of the list. -/
theorem C83_list_overwritten {g : Nat → Nat} {l : Life} (h : Life.Reach g l) {buf : Sl} (hb : buf.WF l.m.b) (ts : Nat) {b0 : UInt8} {rest : Bytes}
    (hs : splitAnnexB (buf.view l.m.b) = .ok [b0 :: rest]) (ht : (b0 &&& 0x1F) < 24 ∨ 29 < (b0 &&& 0x1F)) (hl : 0 < l.s.units.len)
    {e : Option H264Err} {m : Mem} {s : HSink} (hp : hPush g l.m l.s buf ts = .ok (e, m, s)) :
    (l.s.units.view m.u).map (viewUnit m.b) = ⟨b0, l.s.don, ts, rest⟩ :: (viewSink l.m l.s).units.tail := by
  have i := life_inv h
  unfold hPush at hp
  have sp := hSplit_same g hb
  rw [hs] at sp
  rcases sp.cases with ⟨p, _, e2⟩ | ⟨⟨b, nals⟩, v, e1, e2, un⟩
  · cases e2
  injection e2 with e2
  subst e2
  have hv : nals.map (·.view b) = [b0 :: rest] := un.view
  have hold : l.m.b <+: b := un.old
  rw [e1] at hp
  cases nals with
  | nil => cases hv
  | cons n ns =>
    cases ns with
    | cons _ _ => simp at hv
    | nil =>
      have wn : n.WF b := un.wf n (by simp)
      have hn : n.view b = b0 :: rest := by injection hv
      have hln : rest.length + 1 = n.len := by
        have := view_length wn
        rw [hn] at this
        simpa using this
      have hf := from_view wn (lo := 1)
      rw [hn, show sliceFrom (b0 :: rest) 1 = .ok rest by unfold sliceFrom; rw [if_pos (by simp)]; rfl] at hf
      rcases hf.cases with ⟨p, _, e4⟩ | ⟨d, w, e3, e4, pd⟩
      · cases e4
      injection e4 with e4
      subst e4
      dsimp only at hp
      have hne : ∀ k : UInt8, 24 ≤ k → k ≤ 29 → ¬ ((b0 &&& 0x1F) == k) = true := by
        intro k h1 h2 hk
        have hk : (b0 &&& 0x1F) = k := by simpa using hk
        rw [hk] at ht
        rcases ht with ht | ht
        · exact absurd (UInt8.lt_of_lt_of_le ht h1) (UInt8.lt_irrefl _)
        · exact absurd (UInt8.lt_of_lt_of_le ht h2) (UInt8.lt_irrefl _)
      rw [hPushLoop] at hp
      unfold hParseNAL at hp
      dsimp only at hp
      rw [if_neg (by omega), hn, e3, show idx (b0 :: rest) 0 = .ok b0 from rfl] at hp
      dsimp only at hp
      rw [if_neg (hne 24 (by decide) (by decide)), if_neg (hne 25 (by decide) (by decide)), if_neg (hne 26 (by decide) (by decide)), if_neg (hne 27 (by decide) (by decide)),
        if_neg (hne 28 (by decide) (by decide)), if_neg (hne 29 (by decide) (by decide))] at hp
      unfold hAddUnit at hp
      dsimp only [hPushLoop] at hp
      injection hp with hp
      injection hp with _ hp
      injection hp with hm _
      subst hm
      dsimp only
      rw [overwritten g l.m.u l.s.units i.ok.units hl, List.map_cons]
      congr 1
      · unfold viewUnit; rw [pd.view]
      · unfold viewSink
        rw [← List.map_tail]
        exact List.map_congr_left fun u hu => viewUnit_prefix hold (i.ok.udata u (List.mem_of_mem_tail hu)).1

/-- C82: the payload of every packet that was ever handed over still holds what was received. -/
theorem C82_payloads_keep {g : Nat → Nat} {l : Life} (h : Life.Reach g l) : ∀ p ∈ l.payloads, p.1.view l.m.b = p.2 :=
  fun p hp => ((life_inv h).payloads p hp).2.2

/-! ## Examples -/

/-- A payload with two units in one aggregate, in a buffer that is then used for the next payload. -/
def demoPay1 : Bytes := [0x78, 0, 2, 0x65, 1, 0, 2, 0x41, 2]
def demoPay2 : Bytes := [0x41, 7, 7, 7, 7, 7, 7, 7, 7]

/-- The state after a push. -/
def afterPush (l : Life) (buf : Sl) (ts : Nat) : Life :=
  match hPush (fun n => n) l.m l.s buf ts with
  | .ok (_, m, s) => { l with m := m, s := s, units := (s.units.view m.u).map (fun u => (u, viewUnit m.b u)) ++ l.units, pushed := l.pushed ++ [(buf.view l.m.b, ts)] }
  | .error _ => l

theorem afterPush_reach {l : Life} (h : Life.Reach (fun n => n) l) {buf : Sl} (hb : buf.WF l.m.b) (ts : Nat) : Life.Reach (fun n => n) (afterPush l buf ts) := by
  unfold afterPush
  cases hp : hPush (fun n => n) l.m l.s buf ts with
  | error p => exact h
  | ok r => exact .step _ _ h (.push l buf ts hb r.1 r.2.1 r.2.2 hp)

/-- A buffer with the first payload. -/
def demoLife0 : Life := { Life.start with m := { Life.start.m with b := Life.start.m.b ++ [demoPay1] }, scratch := Life.start.m.b.length :: Life.start.scratch }
/-- It is pushed. -/
def demoLife1 : Life := afterPush demoLife0 ⟨0, 0, 9, 9⟩ 10
/-- The second payload is read into the buffer, -/
def demoLife2 : Life := { demoLife1 with m := { demoLife1.m with b := demoLife1.m.b.write 0 0 demoPay2 } }
/-- and pushed. -/
def demoLife3 : Life := afterPush demoLife2 ⟨0, 0, 9, 9⟩ 20

theorem demoLife1_reach : Life.Reach (fun n => n) demoLife1 :=
  afterPush_reach (.step _ _ .start (.alloc _ demoPay1)) ⟨by decide +kernel, by decide +kernel⟩ 10
theorem demoLife2_reach : Life.Reach (fun n => n) demoLife2 :=
  .step _ _ demoLife1_reach (.write demoLife1 0 0 demoPay2 (by decide +kernel) (by decide +kernel))
theorem demoLife3_reach : Life.Reach (fun n => n) demoLife3 :=
  afterPush_reach demoLife2_reach ⟨by decide +kernel, by decide +kernel⟩ 20

/-- The three units that were reported, and what they hold in the end. -/
example : demoLife3.units.map (fun u => viewUnit demoLife3.m.b u.1) = [⟨0x41, 2, 20, [7, 7, 7, 7, 7, 7, 7, 7]⟩, ⟨0x65, 0, 10, [1]⟩, ⟨0x41, 1, 10, [2]⟩] := by
  decide +kernel

example : ∀ u ∈ demoLife3.units, viewUnit demoLife3.m.b u.1 = u.2 := C81_units_keep demoLife3_reach

/-- The hypotheses of `C83_list_overwritten`. -/
example : splitAnnexB (Sl.view ⟨0, 0, 9, 9⟩ demoLife2.m.b) = .ok [0x41 :: [7, 7, 7, 7, 7, 7, 7, 7]] ∧ ((0x41 : UInt8) &&& 0x1F) < 24 ∧ 0 < demoLife2.s.units.len := by
  decide +kernel

/-- The list `sink.Units` as it was after the first push, when it was reported and after the second push. -/
theorem C83_list_refuted : ∃ (g : Nat → Nat) (l l' : Life), Life.Reach g l ∧ Life.Reach g l' ∧
    (∃ (buf : Sl) (ts : Nat) (e : Option H264Err), buf.WF l.m.b ∧ hPush g l.m l.s buf ts = .ok (e, l'.m, l'.s)) ∧
    (l.s.units.view l'.m.u).map (viewUnit l'.m.b) ≠ (l.s.units.view l.m.u).map (viewUnit l.m.b) := by
  refine ⟨fun n => n, demoLife2, demoLife3, demoLife2_reach, demoLife3_reach, ⟨⟨0, 0, 9, 9⟩, 20, none, ⟨by decide +kernel, by decide +kernel⟩, ?_⟩, by decide +kernel⟩
  unfold demoLife3 afterPush
  have h : (match hPush (fun n => n) demoLife2.m demoLife2.s ⟨0, 0, 9, 9⟩ 20 with | .ok (e, _, _) => e == none | .error _ => false) = true := by decide +kernel
  cases hp : hPush (fun n => n) demoLife2.m demoLife2.s ⟨0, 0, 9, 9⟩ 20 with
  | error p => rw [hp] at h; cases h
  | ok r =>
    obtain ⟨e, m, s⟩ := r
    rw [hp] at h
    have h : e = none := by simpa using h
    rw [h]

/-- Appending to the data of a unit of an aggregate overwrites the data of the unit after it: these share an array. -/
theorem C83_append_refuted : ∃ (g : Nat → Nat) (l : Life) (u w : HUnit) (xs : Bytes), Life.Reach g l ∧
    l.s.units.view l.m.u = [u, w] ∧ viewUnit (l.m.b.append g u.data xs).1 w ≠ viewUnit l.m.b w :=
  ⟨fun n => n, demoLife1, (demoLife1.s.units.view demoLife1.m.u).getD 0 default, (demoLife1.s.units.view demoLife1.m.u).getD 1 default, [9, 9, 9, 9], demoLife1_reach,
    by decide +kernel, by decide +kernel⟩

/-- A packet is handed over from the buffer before this is overwritten. -/
example : ∃ l : Life, Life.Reach (fun n => n) l ∧ Sl.view ⟨0, 0, 9, 9⟩ l.m.b = demoPay2 ∧ l.payloads.map (fun p => p.1.view l.m.b) = [demoPay1] := by
  have h0 : Life.Reach (fun n => n) demoLife0 := .step _ _ .start (.alloc _ demoPay1)
  have h1 := Life.Reach.step _ _ h0 (.deliver demoLife0 ⟨0, 0, 9, 9⟩ ⟨by decide +kernel, by decide +kernel⟩)
  exact ⟨_, .step _ _ h1 (.write _ 0 0 demoPay2 (by decide +kernel) (by decide +kernel)), by decide +kernel, by decide +kernel⟩

end Ouro
