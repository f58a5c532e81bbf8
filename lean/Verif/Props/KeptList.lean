import Verif.Props.Retained
/-! # C83: what a kept list of units shows after the next push -/
namespace Ouro
open Spec

section Closed
variable {P : Heap HUnit → Sl → Prop} (g : Nat → Nat) (hP : ∀ h s x, P h s → P (Heap.append g h s [x]).1 (Heap.append g h s [x]).2)
include hP

theorem stapLoop_closed (ts : Nat) : ∀ (fuel : Nat) (m : Mem) (s : HSink) (buf : Sl) (e : Option H264Err) (m' : Mem) (s' : HSink),
    hStapLoop g fuel m s buf ts = .ok (e, m', s') → P m.u s.units → P m'.u s'.units := by
  intro fuel
  induction fuel with
  | zero => intro m s buf e m' s' h; cases h
  | succ n ih =>
    intro m s buf e m' s' h hp
    unfold hStapLoop at h
    split at h
    · cases h; exact hp
    · split at h
      · cases h
      · split at h
        · cases h; exact hp
        · split at h
          · cases h
          · split at h
            · cases h
            · split at h
              · cases h
              · exact ih _ _ _ _ _ _ h (hP _ _ _ hp)

theorem parseSTAP_closed {typ : UInt8} {ts : Nat} {m : Mem} {s : HSink} {buf : Sl} {e : Option H264Err} {m' : Mem} {s' : HSink}
    (h : hParseSTAP g typ m s buf ts = .ok (e, m', s')) (hp : P m.u s.units) : P m'.u s'.units := by
  unfold hParseSTAP at h
  split at h
  · split at h
    · cases h; exact hp
    · split at h
      · cases h
      · split at h
        · cases h
        · exact stapLoop_closed g hP ts _ _ _ _ _ _ _ h hp
  · exact stapLoop_closed g hP ts _ _ _ _ _ _ _ h hp

theorem mtapLoop_closed (typ : UInt8) (off ts : Nat) : ∀ (fuel : Nat) (m : Mem) (s : HSink) (buf : Sl) (e : Option H264Err) (m' : Mem) (s' : HSink),
    hMtapLoop g fuel typ off m s buf ts = .ok (e, m', s') → P m.u s.units → P m'.u s'.units := by
  intro fuel
  induction fuel with
  | zero => intro m s buf e m' s' h; cases h
  | succ n ih =>
    intro m s buf e m' s' h hp
    unfold hMtapLoop at h
    split at h
    · cases h; exact hp
    · split at h
      · split at h
        · cases h
        · split at h
          · cases h; exact hp
          · split at h
            · cases h
            · split at h
              · cases h
              · split at h
                · cases h
                · exact ih _ _ _ _ _ _ h (hP _ _ _ hp)
      · cases h
      · cases h
      · cases h
      · cases h

theorem parseMTAP_closed {typ : UInt8} {ts : Nat} {m : Mem} {s : HSink} {buf : Sl} {e : Option H264Err} {m' : Mem} {s' : HSink}
    (h : hParseMTAP g typ m s buf ts = .ok (e, m', s')) (hp : P m.u s.units) : P m'.u s'.units := by
  unfold hParseMTAP at h
  split at h
  · cases h; exact hp
  · split at h
    · cases h
    · split at h
      · cases h
      · exact mtapLoop_closed g hP _ _ _ _ _ _ _ _ _ _ h hp

theorem addFragment_closed {m : Mem} {s : HSink} {i hd : UInt8} {don ts : Nat} {d : Sl} (hp : P m.u s.units) :
    P (hAddFragment g m s i hd don ts d).1.u (hAddFragment g m s i hd don ts d).2.units := by
  have hu : (if (hd &&& 0x80) != 0 then { s with fragments := { s.fragments with len := 0 } } else s : HSink).units = s.units := by split <;> rfl
  unfold hAddFragment
  dsimp only
  split
  · unfold hAddUnit
    dsimp only
    rw [hu]
    exact hP _ _ _ hp
  · dsimp only
    rw [hu]
    exact hp

/-- What every `append` to the units keeps, `parseNAL` keeps, from the emptied list on. -/
theorem parseNAL_closed {ts : Nat} {m : Mem} {s : HSink} {buf : Sl} {e : Option H264Err} {m' : Mem} {s' : HSink}
    (h : hParseNAL g m s buf ts = .ok (e, m', s')) (hp : P m.u { s.units with len := 0 }) : P m'.u s'.units := by
  unfold hParseNAL at h
  dsimp only at h
  split at h
  · cases h; exact hp
  · split at h
    · cases h
    · cases h
    · split at h
      · exact parseSTAP_closed g hP h hp
      · split at h
        · exact parseSTAP_closed g hP h hp
        · split at h
          · exact parseMTAP_closed g hP h hp
          · split at h
            · exact parseMTAP_closed g hP h hp
            · split at h
              · split at h
                · cases h; exact hp
                · split at h
                  · cases h; exact addFragment_closed g hP hp
                  · cases h
                  · cases h
              · split at h
                · split at h
                  · cases h; exact hp
                  · split at h
                    · split at h
                      · cases h; exact addFragment_closed g hP hp
                      · cases h
                    · cases h
                    · cases h
                    · cases h
                · cases h
                  exact hP _ _ _ hp
end Closed

/-- What a kept slice `k` shows while the list `u` grows from its beginning: the new elements, and the old ones behind them. -/
structure Shows (h0 : Heap HUnit) (k : Sl) (h : Heap HUnit) (u : Sl) : Prop where
  wf : u.WF h
  kwf : k.WF h
  shows : k.view h = (u.view h).take k.len ++ (k.view h0).drop u.len
  where_ : (u.arr = k.arr ∧ u.off = k.off ∧ u.cap = k.cap) ∨ (u.arr ≠ k.arr ∧ k.len ≤ u.len)

theorem take_insert {α : Type} (A old : List α) (n len : Nat) (x : α) (hlen : len < A.length) (hn : old.length = n)
    (h : A.take n = (A.take len).take n ++ old.drop len) :
    (A.take len ++ [x] ++ A.drop (len + 1)).take n = (A.take len ++ [x]).take n ++ old.drop (len + 1) := by
  by_cases hc : n ≤ len
  · have hl : n ≤ (A.take len).length := by rw [List.length_take]; omega
    rw [List.drop_eq_nil_of_le (as := old) (by omega), List.append_nil, List.append_assoc, List.take_append_of_le_length hl,
      List.take_append_of_le_length hl]
  · have h1 : (A.take n).drop len = old.drop len := by
      rw [h, List.drop_append, List.drop_eq_nil_of_le (by simp; omega), List.nil_append]
      rw [show len - (List.take n (List.take len A)).length = 0 by simp; omega, List.drop_zero]
    have h2 : (A.drop (len + 1)).take (n - (len + 1)) = old.drop (len + 1) := by
      have := congrArg (List.drop 1) h1
      rw [List.drop_drop, List.drop_drop, List.drop_take] at this
      exact this
    rw [List.take_append, List.take_of_length_le (by simp; omega), ← h2]
    congr 2
    simp
    omega

theorem shows_append (g : Nat → Nat) {h0 : Heap HUnit} {k : Sl} (hk : 0 < k.len) (h0l : (k.view h0).length = k.len) :
    ∀ h u x, Shows h0 k h u → Shows h0 k (Heap.append g h u [x]).1 (Heap.append g h u [x]).2 := by
  intro h u x sh
  have ap := append_spec g sh.wf [x]
  have wc := sh.wf.cap
  have wl := sh.wf.len
  have kc := sh.kwf.cap
  have kl := sh.kwf.len
  have kin : k.arr < h.length := (WF.inside sh.kwf).resolve_left (by omega)
  have far : u.arr ≠ k.arr → k.len ≤ u.len → (Heap.append g h u [x]).2.arr ≠ k.arr →
      Shows h0 k (Heap.append g h u [x]).1 (Heap.append g h u [x]).2 := by
    intro h1 h2 h3
    have same := ap.others k.arr kin (fun e => absurd e.symm h1)
    refine ⟨ap.wf, ⟨by rw [same]; exact kc, kl⟩, ?_, .inr ⟨h3, by rw [ap.len]; exact Nat.le_add_right_of_le h2⟩⟩
    have hv : k.view (Heap.append g h u [x]).1 = k.view h := by unfold Sl.view; rw [same]
    rw [hv, sh.shows, ap.view, ap.len, List.drop_eq_nil_of_le (by omega), List.drop_eq_nil_of_le (by simp; omega), List.append_nil, List.append_nil,
      List.take_append_of_le_length (by rw [view_length sh.wf]; exact h2)]
  by_cases hc : u.len + [x].length ≤ u.cap
  · have e : Heap.append g h u [x] = (h.write u.arr (u.off + u.len) [x], { u with len := u.len + [x].length }) := by
      unfold Heap.append; rw [if_pos hc]
    rcases sh.where_ with ⟨a1, a2, a3⟩ | ⟨a1, a2⟩
    · have hg : (Heap.append g h u [x]).1.getD k.arr [] = overwrite (h.getD k.arr []) (k.off + u.len) [x] := by
        rw [e]
        dsimp only
        rw [getD_write, if_pos ⟨a1.symm, a1 ▸ kin⟩, a1, a2]
      have hx : k.off + u.len + 1 ≤ (h.getD k.arr []).length := by
        simp only [List.length_singleton] at hc
        omega
      refine ⟨ap.wf, ⟨by rw [hg, overwrite_length hx]; exact kc, kl⟩, ?_, .inl (by rw [e]; exact ⟨a1, a2, a3⟩)⟩
      rw [ap.view, ap.len]
      have hs := sh.shows
      unfold Sl.view at hs ⊢
      rw [hg]
      rw [a1, a2] at hs ⊢
      have hd : (overwrite (h.getD k.arr []) (k.off + u.len) [x]).drop k.off =
          ((h.getD k.arr []).drop k.off).take u.len ++ [x] ++ ((h.getD k.arr []).drop k.off).drop (u.len + 1) := by
        unfold overwrite
        have hl : k.off ≤ ((h.getD k.arr []).take (k.off + u.len)).length := by rw [List.length_take]; omega
        rw [List.append_assoc, List.drop_append_of_le_length hl, List.drop_take, List.append_assoc, List.drop_drop,
          Nat.add_sub_cancel_left]
        simp [Nat.add_assoc]
      rw [hd]
      exact take_insert _ _ _ _ _ (by rw [List.length_drop]; omega) h0l hs
    · exact far a1 a2 (by rw [e]; exact a1)
  · have e : (Heap.append g h u [x]).2.arr = h.length := by
      unfold Heap.append; rw [if_neg hc]
    rcases sh.where_ with ⟨a1, a2, a3⟩ | ⟨a1, a2⟩
    · have hl : k.len ≤ u.len := by
        simp only [List.length_singleton] at hc
        omega
      have same : (Heap.append g h u [x]).1.getD k.arr [] = h.getD k.arr [] := by
        unfold Heap.append
        rw [if_neg hc]
        exact getD_append_left _ _ kin
      refine ⟨ap.wf, ⟨by rw [same]; exact kc, kl⟩, ?_, .inr ⟨by rw [e]; omega, by rw [ap.len]; exact Nat.le_add_right_of_le hl⟩⟩
      have hv : k.view (Heap.append g h u [x]).1 = k.view h := by unfold Sl.view; rw [same]
      rw [hv, sh.shows, ap.view, ap.len, List.drop_eq_nil_of_le (by omega), List.drop_eq_nil_of_le (by simp; omega), List.append_nil, List.append_nil,
        List.take_append_of_le_length (by rw [view_length sh.wf]; exact hl)]
    · exact far a1 a2 (by rw [e]; omega)

/-- **C83**, exact: what a list of units kept from the sink shows after the next push, whatever one NAL unit the payload is (single, aggregate or
fragment, accepted or not) and however `append` makes room: the units just reported, as far as they fit, and the old ones behind them. -/
theorem C83_list_exact {g : Nat → Nat} {l : Life} (h : Life.Reach g l) {buf : Sl} (hb : buf.WF l.m.b) (ts : Nat) {nal : Bytes}
    (hs : splitAnnexB (buf.view l.m.b) = .ok [nal]) {e : Option H264Err} {m : Mem} {s : HSink} (hp : hPush g l.m l.s buf ts = .ok (e, m, s)) :
    (l.s.units.view m.u).map (viewUnit m.b) =
      (viewSink m s).units.take (viewSink l.m l.s).units.length ++ (viewSink l.m l.s).units.drop (viewSink m s).units.length := by
  have i := life_inv h
  have hlen : (viewSink l.m l.s).units.length = l.s.units.len := by
    unfold viewSink; dsimp only; rw [List.length_map, view_length i.ok.units]
  have mv : l.m.b <+: m.b ∧ SinkOk (· ∉ l.scratch) m s := by
    rcases (hPush_same g (Q := (· ∉ l.scratch)) ts i.ok (fun a ha hs => by have := i.scratch a hs; omega) hb).cases with ⟨p, e1, e2⟩ | ⟨⟨e', m', s'⟩, v, e1, e2, r1, mv⟩
    · rw [hp] at e1; cases e1
    · rw [hp] at e1; cases e1; exact ⟨mv.old, mv.ok⟩
  have hold : ((l.s.units.view l.m.u).map (viewUnit m.b)) = (viewSink l.m l.s).units := by
    unfold viewSink
    exact List.map_congr_left fun u hu => viewUnit_prefix mv.1 (i.ok.udata u hu).1
  by_cases h0 : l.s.units.len = 0
  · rw [view_empty h0, hlen, h0, List.take_zero, List.drop_eq_nil_of_le (by omega)]
    rfl
  · have sh : Shows l.m.u l.s.units m.u s.units := by
      unfold hPush at hp
      rcases (hSplit_same g hb).cases with ⟨p, _, e2⟩ | ⟨⟨b, nals⟩, v, e1, e2, un⟩
      · rw [hs] at e2; cases e2
      · rw [hs] at e2
        injection e2 with e2
        subst e2
        have hv : nals.map (·.view b) = [nal] := un.view
        rw [e1] at hp
        cases nals with
        | nil => cases hv
        | cons n ns =>
          cases ns with
          | cons _ _ => simp at hv
          | nil =>
            dsimp only at hp
            unfold hPushLoop at hp
            have start : Shows l.m.u l.s.units l.m.u { l.s.units with len := 0 } := by
              refine ⟨⟨i.ok.units.cap, Nat.zero_le _⟩, i.ok.units, ?_, .inl ⟨rfl, rfl, rfl⟩⟩
              rw [show Sl.view { l.s.units with len := 0 } l.m.u = [] from view_empty rfl, List.take_nil, List.nil_append]
              rfl
            have closed := fun {m' s' e'} (hq : hParseNAL g { l.m with b := b } l.s n ts = .ok (e', m', s')) =>
              parseNAL_closed (P := Shows l.m.u l.s.units) g (shows_append g (by omega) (view_length i.ok.units)) hq start
            split at hp
            · cases hp
            · rename_i hq; cases hp; exact closed hq
            · rename_i hq
              unfold hPushLoop at hp
              cases hp
              exact closed hq
    rw [sh.shows, List.map_append, List.map_take, List.map_drop, hold, hlen]
    have hn : (viewSink m s).units.length = s.units.len := by
      unfold viewSink; dsimp only; rw [List.length_map, view_length mv.2.units]
    rw [hn]
    rfl

/-- **C83**, exact: the kept list shows what it showed before if and only if the units just reported are, as far as they fit, those that were there. -/
theorem C83_list_iff {g : Nat → Nat} {l : Life} (h : Life.Reach g l) {buf : Sl} (hb : buf.WF l.m.b) (ts : Nat) {nal : Bytes}
    (hs : splitAnnexB (buf.view l.m.b) = .ok [nal]) {e : Option H264Err} {m : Mem} {s : HSink} (hp : hPush g l.m l.s buf ts = .ok (e, m, s)) :
    (l.s.units.view m.u).map (viewUnit m.b) = (viewSink l.m l.s).units ↔
      (viewSink m s).units.take (viewSink l.m l.s).units.length = (viewSink l.m l.s).units.take (viewSink m s).units.length := by
  rw [C83_list_exact h hb ts hs hp]
  generalize (viewSink m s).units = new
  generalize (viewSink l.m l.s).units = old
  constructor
  · intro he
    have he2 : List.take old.length new ++ old.drop new.length = old.take new.length ++ old.drop new.length := by
      rw [List.take_append_drop]; exact he
    exact List.append_cancel_right he2
  · intro he
    rw [he, List.take_append_drop]

/-- The hypotheses of `C83_list_exact`: two units are kept, and a single unit comes next. -/
example : Life.Reach (fun n => n) demoLife2 ∧ Sl.WF ⟨0, 0, 9, 9⟩ demoLife2.m.b ∧ (∃ nal, splitAnnexB (Sl.view ⟨0, 0, 9, 9⟩ demoLife2.m.b) = .ok [nal]) ∧
    demoLife2.s.units.len = 2 ∧ ∃ r, hPush (fun n => n) demoLife2.m demoLife2.s ⟨0, 0, 9, 9⟩ 20 = .ok r := by
  refine ⟨demoLife2_reach, ⟨by decide +kernel, by decide +kernel⟩, ⟨demoPay2, by decide +kernel⟩, by decide +kernel, ?_⟩
  have h : (match hPush (fun n => n) demoLife2.m demoLife2.s ⟨0, 0, 9, 9⟩ 20 with | .ok _ => true | .error _ => false) = true := by decide +kernel
  cases hp : hPush (fun n => n) demoLife2.m demoLife2.s ⟨0, 0, 9, 9⟩ 20 with
  | error p => rw [hp] at h; cases h
  | ok r => exact ⟨r, rfl⟩

/-- What the kept list then shows: the new unit, and the second of the old ones. -/
example : (demoLife2.s.units.view demoLife3.m.u).map (viewUnit demoLife3.m.b) = [⟨0x41, 2, 20, [7, 7, 7, 7, 7, 7, 7, 7]⟩, ⟨0x41, 1, 10, [2]⟩] := by
  decide +kernel

end Ouro
