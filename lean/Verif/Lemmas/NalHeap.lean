import Verif.Lemmas.Slices
import Verif.Spec.Retained
/-! # The model with shared arrays does what the model with values does -/
namespace Ouro
open Spec

/-- A new slice with these contents, above the old heap. -/
structure Fresh (h0 : Heap UInt8) (r : Heap UInt8 × Sl) (v : Bytes) : Prop where
  view : r.2.view r.1 = v
  wf : r.2.WF r.1
  old : h0 <+: r.1
  own : r.2.Own (h0.length ≤ ·)

theorem hEbspLoop_same (g : Nat → Nat) {h0 : Heap UInt8} {buf : Sl} (wb : buf.WF h0) : ∀ (n off : Nat) (h : Heap UInt8) (rbsp : Sl), buf.len - off = n →
    Fresh h0 (h, rbsp) (rbsp.view h) →
    Same (Fresh h0) (hEbspLoop g h buf off rbsp) (ebspLoop (buf.view h0) off (rbsp.view h)) := by
  intro n
  induction n using Nat.strongRecOn with
  | ind n ih =>
    intro off h rbsp hn fr
    have hv := view_length wb
    have hbv : buf.view h = buf.view h0 := view_prefix fr.old wb
    have ap : ∀ xs : Bytes, Fresh h0 (h.append g rbsp xs) (rbsp.view h ++ xs) := by
      intro xs
      have a := append_spec g fr.wf xs
      obtain ⟨a1, a2⟩ := a.above fr.old fr.own
      exact ⟨a.view, a.wf, a1, a2⟩
    have go : ∀ (xs : Bytes) (k : Nat), off < buf.len → 0 < k →
        Same (Fresh h0) (hEbspLoop g (h.append g rbsp xs).1 buf (off + k) (h.append g rbsp xs).2) (ebspLoop (buf.view h0) (off + k) (rbsp.view h ++ xs)) := by
      intro xs k hk hk'
      have f := ap xs
      have := ih (buf.len - (off + k)) (by omega) (off + k) (h.append g rbsp xs).1 (h.append g rbsp xs).2 rfl ⟨rfl, f.wf, f.old, f.own⟩
      rw [f.view] at this
      exact this
    rw [hEbspLoop, ebspLoop]
    rw [hv, hbv]
    by_cases hoff : off < buf.len
    · rw [dif_pos hoff, dif_pos hoff]
      generalize andGo (.ok (decide (buf.len - off ≥ 3))) _ = t
      rcases t with p | _ | _
      · rfl
      · dsimp only
        cases idx (buf.view h0) off with
        | error p => rfl
        | ok b => exact go [b] 1 hoff (by decide)
      · exact go [0, 0] 3 hoff (by decide)
    · rw [dif_neg hoff, dif_neg hoff]
      exact fr

theorem hEbspToRaw_same (g : Nat → Nat) {h : Heap UInt8} {buf : Sl} (wb : buf.WF h) : Same (Fresh h) (hEbspToRaw g h buf) (ebspToRaw (buf.view h)) := by
  obtain ⟨m1, m2, m3, m4⟩ := make_spec h buf.len
  have := hEbspLoop_same g wb buf.len 0 (h.make buf.len).1 (h.make buf.len).2 rfl ⟨rfl, m2, m1, m4⟩
  rw [m3] at this
  exact this

/-- New slices with these contents. -/
structure Units (h0 : Heap UInt8) (r : Heap UInt8 × List Sl) (v : List Bytes) : Prop where
  view : r.2.map (·.view r.1) = v
  wf : ∀ s ∈ r.2, s.WF r.1
  old : h0 <+: r.1
  own : ∀ s ∈ r.2, s.Own (h0.length ≤ ·)

theorem hAppendUnit_same (g : Nat → Nat) {h0 h : Heap UInt8} {buf : Sl} {units : List Sl} {v : List Bytes} (un : Units h0 (h, units) v) {x : Go Sl} {y : Go Bytes}
    (hs : Same (Part h0 buf) x y) : Same (Units h0) (hAppendUnit g h units x) (appendUnit v y) := by
  unfold hAppendUnit appendUnit
  rcases hs.cases with ⟨p, rfl, rfl⟩ | ⟨s, w, rfl, rfl, hp⟩
  · rfl
  · dsimp only
    have ws := wf_prefix un.old hp.wf
    have e := hEbspToRaw_same g ws
    rw [view_prefix un.old hp.wf, hp.view] at e
    rcases e.cases with ⟨p, e1, e2⟩ | ⟨⟨h', u⟩, z, e1, e2, fr⟩
    · rw [e1, e2]; rfl
    · rw [e1, e2]
      have fo : h <+: h' := fr.old
      have hle : h0.length ≤ h.length := un.old.length_le
      refine ⟨?_, ?_, un.old.trans fo, ?_⟩
      · show (units ++ [u]).map (·.view h') = v ++ [z]
        have fv : u.view h' = z := fr.view
        rw [List.map_append, List.map_cons, List.map_nil, fv, ← un.view]
        congr 1
        apply List.map_congr_left
        intro s hs
        exact view_prefix fo (un.wf s hs)
      · intro s hs
        rcases List.mem_append.1 hs with hs | hs
        · exact wf_prefix fo (un.wf s hs)
        · rw [List.mem_singleton] at hs; subst hs; exact fr.wf
      · intro s hs
        rcases List.mem_append.1 hs with hs | hs
        · exact un.own s hs
        · rw [List.mem_singleton] at hs; subst hs
          rcases fr.own with o | o
          · exact .inl o
          · exact .inr (Nat.le_trans hle o)

theorem hSplitEmit_same (g : Nat → Nat) {h0 h : Heap UInt8} {buf : Sl} (wb : buf.WF h0) {off prev : Nat} (ho : off ≤ buf.len) {units : List Sl} {v : List Bytes}
    (un : Units h0 (h, units) v) : Same (Units h0) (hSplitEmit g h buf off prev units) (splitEmit (buf.view h0) off prev v) := by
  unfold hSplitEmit splitEmit
  rw [view_prefix un.old wb]
  generalize andGo (.ok (decide (off > 0))) _ = t
  rcases t with p | _ | _
  · rfl
  · dsimp only
    by_cases hp : off > prev
    · rw [if_pos hp, if_pos hp]
      exact hAppendUnit_same g un (sub_view wb ho)
    · rw [if_neg hp, if_neg hp]
      exact un
  · dsimp only
    by_cases hp : off > prev + 1
    · rw [if_pos hp, if_pos hp]
      exact hAppendUnit_same g un (sub_view wb (by omega))
    · rw [if_neg hp, if_neg hp]
      exact un

theorem hSplitLoop_same (g : Nat → Nat) {h0 : Heap UInt8} {buf : Sl} (wb : buf.WF h0) : ∀ (n off prev : Nat) (h : Heap UInt8) (units : List Sl) (v : List Bytes), buf.len - off = n →
    Units h0 (h, units) v → Same (Units h0) (hSplitLoop g h buf off prev units) (splitLoop (buf.view h0) off prev v) := by
  intro n
  induction n using Nat.strongRecOn with
  | ind n ih =>
    intro off prev h units v hn un
    rw [hSplitLoop, splitLoop, view_length wb, view_prefix un.old wb]
    by_cases hoff : off + 3 < buf.len
    · rw [dif_pos hoff, dif_pos hoff]
      generalize testAt (buf.view h0) (off + 2) (fun b => decide (b > 1)) = t
      rcases t with p | _ | _
      · rfl
      · dsimp only
        generalize andGo (testAt (buf.view h0) (off + 2) (· == 1)) _ = t
        rcases t with p | _ | _
        · rfl
        · exact ih (buf.len - (off + 1)) (by omega) _ _ _ _ _ rfl un
        · dsimp only
          rcases (hSplitEmit_same g wb (off := off) (prev := prev) (by omega) un).cases with ⟨p, e1, e2⟩ | ⟨⟨h', us⟩, z, e1, e2, un'⟩
          · rw [e1, e2]; rfl
          · rw [e1, e2]
            exact ih (buf.len - (off + 3)) (by omega) _ _ _ _ _ rfl un'
      · exact ih (buf.len - (off + 3)) (by omega) _ _ _ _ _ rfl un
    · rw [dif_neg hoff, dif_neg hoff]
      exact hAppendUnit_same g un (from_view wb)

theorem hSplit_same (g : Nat → Nat) {h : Heap UInt8} {buf : Sl} (wb : buf.WF h) : Same (Units h) (hSplitAnnexB g h buf) (splitAnnexB (buf.view h)) :=
  hSplitLoop_same g wb _ 0 0 h [] [] rfl ⟨rfl, (fun _ hs => by cases hs), List.prefix_refl _, (fun _ hs => by cases hs)⟩

/-- All slices of the sink are inside their arrays, those of bytes in arrays with `Q`. -/
structure SinkOk (Q : Nat → Prop) (m : Mem) (s : HSink) : Prop where
  units : s.units.WF m.u
  frags : s.fragments.WF m.f
  udata : ∀ u ∈ s.units.view m.u, u.data.WF m.b ∧ u.data.Own Q
  fdata : ∀ f ∈ s.fragments.view m.f, f.unit.data.WF m.b ∧ f.unit.data.Own Q

/-- The sink now shows `v`, and no bytes that were there have changed. -/
structure Moved (Q : Nat → Prop) (m : Mem) (r : Mem × HSink) (v : NALSink) : Prop where
  view : viewSink r.1 r.2 = v
  ok : SinkOk Q r.1 r.2
  old : m.b <+: r.1.b

theorem viewUnit_prefix {h h' : Heap UInt8} (hp : h <+: h') {u : HUnit} (w : u.data.WF h) : viewUnit h' u = viewUnit h u := by
  unfold viewUnit
  rw [view_prefix hp w]

/-- More bytes do not change the sink. -/
theorem SinkOk.grow {Q : Nat → Prop} {m : Mem} {s : HSink} {h' : Heap UInt8} (ok : SinkOk Q m s) (hp : m.b <+: h') :
    SinkOk Q ⟨h', m.u, m.f⟩ s ∧ viewSink ⟨h', m.u, m.f⟩ s = viewSink m s := by
  refine ⟨⟨ok.units, ok.frags, fun u hu => ⟨wf_prefix hp (ok.udata u hu).1, (ok.udata u hu).2⟩, fun f hf => ⟨wf_prefix hp (ok.fdata f hf).1, (ok.fdata f hf).2⟩⟩, ?_⟩
  unfold viewSink
  congr 1
  · exact List.map_congr_left fun u hu => viewUnit_prefix hp (ok.udata u hu).1
  · refine List.map_congr_left fun f hf => ?_
    unfold viewFrag
    rw [viewUnit_prefix hp (ok.fdata f hf).1]

theorem hAddUnit_moved (g : Nat → Nat) {Q : Nat → Prop} {m : Mem} {s : HSink} (ok : SinkOk Q m s) {u : HUnit} (wu : u.data.WF m.b) (ou : u.data.Own Q) :
    Moved Q m (hAddUnit g m s u) { viewSink m s with units := (viewSink m s).units ++ [viewUnit m.b u] } := by
  have a := append_spec g ok.units [u]
  refine ⟨?_, ⟨a.wf, ok.frags, ?_, ok.fdata⟩, List.prefix_refl _⟩
  · unfold viewSink hAddUnit
    dsimp only
    rw [a.view, List.map_append]
    rfl
  · intro x hx
    have hx : x ∈ (m.u.append g s.units [u]).2.view (m.u.append g s.units [u]).1 := hx
    rw [a.view] at hx
    rcases List.mem_append.1 hx with hx | hx
    · exact ok.udata x hx
    · rw [List.mem_singleton] at hx; subst hx; exact ⟨wu, ou⟩

theorem hCombine_fresh (g : Nat → Nat) {h0 : Heap UInt8} : ∀ (fs : List HFrag) (h : Heap UInt8) (d : Sl) (v : Bytes),
    (∀ f ∈ fs, f.unit.data.WF h0) → Fresh h0 (h, d) v → Fresh h0 (hCombine g h d fs) (v ++ fs.flatMap (·.unit.data.view h0)) := by
  intro fs
  induction fs with
  | nil => intro h d v _ fr; simpa [hCombine] using fr
  | cons f fs ih =>
    intro h d v hw fr
    rw [hCombine]
    have wf : d.WF h := fr.wf
    have hv : d.view h = v := fr.view
    have a := append_spec g wf (f.unit.data.view h)
    obtain ⟨a1, a2⟩ := a.above fr.old fr.own
    have a3 := a.view
    rw [hv, view_prefix fr.old (hw f (by simp))] at a3
    have := ih (h.append g d (f.unit.data.view h)).1 (h.append g d (f.unit.data.view h)).2 (v ++ f.unit.data.view h0) (fun x hx => hw x (by simp [hx])) ⟨(by rw [← view_prefix fr.old (hw f (by simp))] at a3 ⊢; exact a3), a.wf, a1, a2⟩
    rw [List.append_assoc] at this
    rw [List.flatMap_cons]
    exact this

theorem Sl.Own.mono {Q R : Nat → Prop} {s : Sl} (o : s.Own Q) (h : ∀ a, Q a → R a) : s.Own R := by
  rcases o with o | o
  · exact .inl o
  · exact .inr (h _ o)

theorem hAddFragment_moved (g : Nat → Nat) {Q : Nat → Prop} {m : Mem} {s : HSink} (ok : SinkOk Q m s) (hQ : ∀ a, m.b.length ≤ a → Q a)
    (indicator header : UInt8) (don ts : Nat) {data : Sl} (wd : data.WF m.b) (od : data.Own Q) :
    Moved Q m (hAddFragment g m s indicator header don ts data) (addFragment (viewSink m s) indicator header don ts (data.view m.b)) := by
  unfold hAddFragment addFragment
  have key : ∀ s1 : HSink, SinkOk Q m s1 →
      SinkOk Q ⟨m.b, m.u, (m.f.append g s1.fragments [⟨⟨indicator, don, ts, data⟩, header⟩]).1⟩ { s1 with fragments := (m.f.append g s1.fragments [⟨⟨indicator, don, ts, data⟩, header⟩]).2 } ∧
      (m.f.append g s1.fragments [⟨⟨indicator, don, ts, data⟩, header⟩]).2.view (m.f.append g s1.fragments [⟨⟨indicator, don, ts, data⟩, header⟩]).1 =
        s1.fragments.view m.f ++ [⟨⟨indicator, don, ts, data⟩, header⟩] := by
    intro s1 ok1
    have a := append_spec g ok1.frags [⟨⟨indicator, don, ts, data⟩, header⟩]
    refine ⟨⟨ok1.units, a.wf, ok1.udata, ?_⟩, a.view⟩
    intro f hf
    have hf : f ∈ (m.f.append g s1.fragments [⟨⟨indicator, don, ts, data⟩, header⟩]).2.view (m.f.append g s1.fragments [⟨⟨indicator, don, ts, data⟩, header⟩]).1 := hf
    rw [a.view] at hf
    rcases List.mem_append.1 hf with hf | hf
    · exact ok1.fdata f hf
    · rw [List.mem_singleton] at hf; subst hf; exact ⟨wd, od⟩
  have main : ∀ (s1 : HSink) (frs : List NALFragment), SinkOk Q m s1 → viewSink m s1 = { viewSink m s with fragments := frs } → s1.units = s.units → s1.don = s.don →
      Moved Q m
        (if (header &&& 0x40) != 0 then
          hAddUnit g { ({ m with f := (m.f.append g s1.fragments [⟨⟨indicator, don, ts, data⟩, header⟩]).1 } : Mem) with
              b := (hCombine g m.b emptySl ((m.f.append g s1.fragments [⟨⟨indicator, don, ts, data⟩, header⟩]).2.view (m.f.append g s1.fragments [⟨⟨indicator, don, ts, data⟩, header⟩]).1)).1 }
            { s1 with fragments := (m.f.append g s1.fragments [⟨⟨indicator, don, ts, data⟩, header⟩]).2 }
            ⟨indicator, don, ts, (hCombine g m.b emptySl ((m.f.append g s1.fragments [⟨⟨indicator, don, ts, data⟩, header⟩]).2.view (m.f.append g s1.fragments [⟨⟨indicator, don, ts, data⟩, header⟩]).1)).2⟩
        else ({ m with f := (m.f.append g s1.fragments [⟨⟨indicator, don, ts, data⟩, header⟩]).1 }, { s1 with fragments := (m.f.append g s1.fragments [⟨⟨indicator, don, ts, data⟩, header⟩]).2 }))
        (if (header &&& 0x40) != 0 then
          { viewSink m s with
            fragments := frs ++ [⟨⟨indicator, don, ts, data.view m.b⟩, header⟩]
            units := (viewSink m s).units ++ [⟨indicator, don, ts, (frs ++ [(⟨⟨indicator, don, ts, data.view m.b⟩, header⟩ : NALFragment)]).flatMap (·.unit.data)⟩] }
        else { viewSink m s with fragments := frs ++ [⟨⟨indicator, don, ts, data.view m.b⟩, header⟩] }) := by
    intro s1 frs ok1 hv hu hd
    obtain ⟨k1, k2⟩ := key s1 ok1
    have hfr : (s1.fragments.view m.f).map (viewFrag m.b) = frs := congrArg NALSink.fragments hv
    have hvs : viewSink ⟨m.b, m.u, (m.f.append g s1.fragments [⟨⟨indicator, don, ts, data⟩, header⟩]).1⟩ { s1 with fragments := (m.f.append g s1.fragments [⟨⟨indicator, don, ts, data⟩, header⟩]).2 } =
        { viewSink m s with fragments := frs ++ [⟨⟨indicator, don, ts, data.view m.b⟩, header⟩] } := by
      unfold viewSink
      dsimp only
      rw [k2, hu, hd, List.map_append, hfr]
      rfl
    generalize m.f.append g s1.fragments [⟨⟨indicator, don, ts, data⟩, header⟩] = fr at k1 k2 hvs ⊢
    by_cases he : (header &&& 0x40) != 0
    · rw [if_pos he, if_pos he, k2]
      have hw : ∀ f ∈ s1.fragments.view m.f ++ [⟨⟨indicator, don, ts, data⟩, header⟩], f.unit.data.WF m.b := by
        intro f hf
        rw [← k2] at hf
        exact (k1.fdata f hf).1
      have c := hCombine_fresh g (h0 := m.b) (s1.fragments.view m.f ++ [⟨⟨indicator, don, ts, data⟩, header⟩]) m.b emptySl [] hw
        ⟨view_empty rfl, ⟨Nat.zero_le _, Nat.le_refl _⟩, List.prefix_refl _, .inl rfl⟩
      generalize hCombine g m.b emptySl (s1.fragments.view m.f ++ [⟨⟨indicator, don, ts, data⟩, header⟩]) = d at c
      obtain ⟨g1, g2⟩ := k1.grow c.old
      have r := hAddUnit_moved g g1 (u := ⟨indicator, don, ts, d.2⟩) c.wf (c.own.mono hQ)
      refine ⟨r.view.trans ?_, r.ok, c.old.trans r.old⟩
      rw [g2, hvs]
      dsimp only
      congr 1
      congr 1
      congr 1
      show viewUnit d.1 _ = _
      unfold viewUnit
      dsimp only
      rw [c.view, List.nil_append, ← hfr, List.flatMap_append, List.flatMap_append, List.flatMap_map]
      rfl
    · rw [if_neg he, if_neg he]
      exact ⟨hvs, k1, List.prefix_refl _⟩
  by_cases hs : (header &&& 0x80) != 0
  · simp only [hs, if_true]
    refine main { s with fragments := { s.fragments with len := 0 } } [] ⟨ok.units, ⟨ok.frags.cap, Nat.zero_le _⟩, ok.udata, ?_⟩ ?_ rfl rfl
    · intro f hf
      rw [show Sl.view (α := HFrag) { s.fragments with len := 0 } m.f = [] from view_empty rfl] at hf
      cases hf
    · unfold viewSink
      dsimp only
      rw [show Sl.view (α := HFrag) { s.fragments with len := 0 } m.f = [] from view_empty rfl]
      rfl
  · simp only [hs]
    exact main s _ ok rfl rfl rfl

/-- The same, with the error that is returned. -/
def Ended (Q : Nat → Prop) (m : Mem) (r : Option H264Err × Mem × HSink) (v : Option H264Err × NALSink) : Prop :=
  r.1 = v.1 ∧ Moved Q m r.2 v.2

theorem Moved.refl {Q : Nat → Prop} {m : Mem} {s : HSink} (ok : SinkOk Q m s) : Moved Q m (m, s) (viewSink m s) := ⟨rfl, ok, List.prefix_refl _⟩

theorem Moved.don {Q : Nat → Prop} {m : Mem} {r : Mem × HSink} {v : NALSink} (mv : Moved Q m r v) (d : Nat) : Moved Q m (r.1, { r.2 with don := d }) { v with don := d } :=
  ⟨by rw [← mv.view]; rfl, ⟨mv.ok.units, mv.ok.frags, mv.ok.udata, mv.ok.fdata⟩, mv.old⟩

theorem Ended.after {Q : Nat → Prop} {m m' : Mem} {r : Option H264Err × Mem × HSink} {v : Option H264Err × NALSink} (e : Ended Q m' r v) (h : m.b <+: m'.b) : Ended Q m r v :=
  ⟨e.1, ⟨e.2.view, e.2.ok, h.trans e.2.old⟩⟩

theorem hStapLoop_same (g : Nat → Nat) {Q : Nat → Prop} (ts : Nat) : ∀ (fuel : Nat) (m : Mem) (s : HSink) (buf : Sl), SinkOk Q m s → buf.WF m.b → buf.Own Q →
    Same (Ended Q m) (hStapLoop g fuel m s buf ts) (stapLoop fuel (viewSink m s) (buf.view m.b) ts) := by
  intro fuel
  induction fuel with
  | zero => intro m s buf _ _ _; rfl
  | succ fuel ih =>
    intro m s buf ok wb ob
    rw [hStapLoop, stapLoop, view_length wb]
    by_cases h1 : buf.len < 2
    · rw [if_pos h1, if_pos h1]; exact ⟨rfl, .refl ok⟩
    · rw [if_neg h1, if_neg h1]
      cases beU16 (buf.view m.b) with
      | error p => rfl
      | ok size =>
        dsimp only
        by_cases h2 : buf.len < u16 (size + 2)
        · rw [if_pos h2, if_pos h2]; exact ⟨rfl, .refl ok⟩
        · rw [if_neg h2, if_neg h2]
          cases idx (buf.view m.b) 2 with
          | error p => rfl
          | ok h =>
            dsimp only
            rcases (sub_view wb (lo := 3) (hi := u16 (size + 2)) (by omega)).cases with ⟨p, e1, e2⟩ | ⟨d, v, e1, e2, pd⟩
            · rw [e1, e2]; rfl
            · rw [e1, e2]
              dsimp only
              rcases (from_view wb (lo := u16 (size + 2))).cases with ⟨p, e3, e4⟩ | ⟨rest, w, e3, e4, pr⟩
              · rw [e3, e4]; rfl
              · rw [e3, e4]
                dsimp only
                have mv := (hAddUnit_moved g ok (u := ⟨h, s.don, ts, d⟩) pd.wf (pd.own ob)).don (u16 (s.don + 1))
                have r := ih _ _ rest mv.ok (wf_prefix mv.old pr.wf) (pr.own ob)
                rw [mv.view, view_prefix mv.old pr.wf, pr.view] at r
                have hu : viewUnit m.b ⟨h, s.don, ts, d⟩ = ⟨h, s.don, ts, v⟩ := by unfold viewUnit; rw [pd.view]
                rw [hu] at r
                exact r.mono fun a b e => e.after mv.old

theorem hParseSTAP_same (g : Nat → Nat) {Q : Nat → Prop} (typ : UInt8) (ts : Nat) {m : Mem} {s : HSink} {buf : Sl} (ok : SinkOk Q m s) (wb : buf.WF m.b) (ob : buf.Own Q) :
    Same (Ended Q m) (hParseSTAP g typ m s buf ts) (parseSTAP typ (viewSink m s) (buf.view m.b) ts) := by
  unfold hParseSTAP parseSTAP
  rw [view_length wb]
  by_cases ht : typ == 25
  · rw [if_pos ht, if_pos ht]
    by_cases h1 : buf.len < 2
    · rw [if_pos h1, if_pos h1]; exact ⟨rfl, .refl ok⟩
    · rw [if_neg h1, if_neg h1]
      cases beU16 (buf.view m.b) with
      | error p => rfl
      | ok don =>
        dsimp only
        rcases (from_view wb (lo := 2)).cases with ⟨p, e3, e4⟩ | ⟨rest, w, e3, e4, pr⟩
        · rw [e3, e4]; rfl
        · rw [e3, e4]
          dsimp only
          have mv := (Moved.refl ok).don don
          have r := hStapLoop_same g ts (rest.len + 1) m { s with don := don } rest mv.ok pr.wf (pr.own ob)
          have hl := view_length pr.wf
          rw [pr.view] at r hl
          rw [hl]
          exact r
  · rw [if_neg ht, if_neg ht]
    exact hStapLoop_same g ts _ m s buf ok wb ob

theorem hMtapLoop_same (g : Nat → Nat) {Q : Nat → Prop} (typ : UInt8) (off ts : Nat) : ∀ (fuel : Nat) (m : Mem) (s : HSink) (buf : Sl), SinkOk Q m s → buf.WF m.b → buf.Own Q →
    Same (Ended Q m) (hMtapLoop g fuel typ off m s buf ts) (mtapLoop fuel typ off (viewSink m s) (buf.view m.b) ts) := by
  intro fuel
  induction fuel with
  | zero => intro m s buf _ _ _; rfl
  | succ fuel ih =>
    intro m s buf ok wb ob
    rw [hMtapLoop, mtapLoop, view_length wb]
    by_cases h1 : buf.len < off
    · rw [if_pos h1, if_pos h1]; exact ⟨rfl, .refl ok⟩
    · rw [if_neg h1, if_neg h1]
      generalize beU16 (buf.view m.b) = x1
      generalize idx (buf.view m.b) 2 = x2
      generalize idx (buf.view m.b) 3 = x3
      generalize idx (buf.view m.b) 4 = x4
      generalize idx (buf.view m.b) 5 = x5
      generalize idx (buf.view m.b) off = x6
      rcases x1 with p | size
      · rfl
      rcases x2 with p | dond
      · rfl
      rcases x3 with p | t1
      · rfl
      rcases x4 with p | t2
      · rfl
      dsimp only
      generalize (if (typ == 27) = true then
            match x5 with
            | .error p => .error p
            | .ok t3 => .ok (u32 (u32 (ts <<< 8) + t3.toNat))
          else .ok (u32 (t1.toNat <<< 8 + t2.toNat)) : Go Nat) = x7
      rcases x7 with p | tsoff
      · rfl
      dsimp only
      by_cases h2 : buf.len < u16 (size + off)
      · rw [if_pos h2, if_pos h2]; exact ⟨rfl, .refl ok⟩
      · rw [if_neg h2, if_neg h2]
        rcases x6 with p | h
        · rfl
        dsimp only
        rcases (sub_view wb (lo := u16 (off + 1)) (hi := u16 (size + off)) (by omega)).cases with ⟨p, e1, e2⟩ | ⟨d, v, e1, e2, pd⟩
        · rw [e1, e2]; rfl
        · rw [e1, e2]
          dsimp only
          rcases (from_view wb (lo := u16 (size + off))).cases with ⟨p, e3, e4⟩ | ⟨rest, w, e3, e4, pr⟩
          · rw [e3, e4]; rfl
          · rw [e3, e4]
            dsimp only
            have mv := (hAddUnit_moved g ok (u := ⟨h, u16 (s.don + dond.toNat), u32 (ts + tsoff), d⟩) pd.wf (pd.own ob)).don (u16 (s.don + 1))
            have r := ih _ _ rest mv.ok (wf_prefix mv.old pr.wf) (pr.own ob)
            rw [mv.view, view_prefix mv.old pr.wf, pr.view] at r
            have hu : viewUnit m.b ⟨h, u16 (s.don + dond.toNat), u32 (ts + tsoff), d⟩ = ⟨h, u16 (s.don + dond.toNat), u32 (ts + tsoff), v⟩ := by unfold viewUnit; rw [pd.view]
            rw [hu] at r
            exact r.mono fun a b e => e.after mv.old

theorem hParseMTAP_same (g : Nat → Nat) {Q : Nat → Prop} (typ : UInt8) (ts : Nat) {m : Mem} {s : HSink} {buf : Sl} (ok : SinkOk Q m s) (wb : buf.WF m.b) (ob : buf.Own Q) :
    Same (Ended Q m) (hParseMTAP g typ m s buf ts) (parseMTAP typ (viewSink m s) (buf.view m.b) ts) := by
  unfold hParseMTAP parseMTAP
  rw [view_length wb]
  by_cases h1 : buf.len < 2
  · rw [if_pos h1, if_pos h1]; exact ⟨rfl, .refl ok⟩
  · rw [if_neg h1, if_neg h1]
    cases beU16 (buf.view m.b) with
    | error p => rfl
    | ok don =>
      dsimp only
      rcases (from_view wb (lo := 2)).cases with ⟨p, e3, e4⟩ | ⟨rest, w, e3, e4, pr⟩
      · rw [e3, e4]; rfl
      · rw [e3, e4]
        dsimp only
        have mv := (Moved.refl ok).don don
        have r := hMtapLoop_same g typ (if typ == 27 then 2 + 1 + 2 + 1 else 2 + 1 + 2) ts (rest.len + 1) m { s with don := don } rest mv.ok pr.wf (pr.own ob)
        have hl := view_length pr.wf
        rw [pr.view] at r hl
        rw [hl]
        exact r

theorem hParseNAL_same (g : Nat → Nat) {Q : Nat → Prop} (ts : Nat) {m : Mem} {s : HSink} {buf : Sl} (ok : SinkOk Q m s) (hQ : ∀ a, m.b.length ≤ a → Q a) (wb : buf.WF m.b) (ob : buf.Own Q) :
    Same (Ended Q m) (hParseNAL g m s buf ts) (parseNAL (viewSink m s) (buf.view m.b) ts) := by
  unfold hParseNAL parseNAL
  have ok1 : SinkOk Q m { s with units := { s.units with len := 0 } } := by
    refine ⟨⟨ok.units.cap, Nat.zero_le _⟩, ok.frags, ?_, ok.fdata⟩
    intro f hf
    rw [show Sl.view (α := HUnit) { s.units with len := 0 } m.u = [] from view_empty rfl] at hf
    cases hf
  have hv1 : viewSink m { s with units := { s.units with len := 0 } } = { viewSink m s with units := [] } := by
    unfold viewSink
    dsimp only
    rw [show Sl.view (α := HUnit) { s.units with len := 0 } m.u = [] from view_empty rfl]
    rfl
  dsimp only
  have hl := view_length wb
  have hp := from_view wb (lo := 1)
  have hp2 := from_view wb (lo := 2)
  have hp4 := from_view wb (lo := 4)
  obtain ⟨s1, hs1⟩ : ∃ x : HSink, x = { s with units := { s.units with len := 0 } } := ⟨_, rfl⟩
  have hd1 : s.don = s1.don := by rw [hs1]
  have hd2 : (viewSink m s).don = s1.don := hd1
  rw [← hs1] at ok1 hv1
  rw [← hv1, ← hs1, hd1, hd2]
  cases hb : buf.view m.b with
  | nil =>
    rw [hb] at hl
    rw [if_pos (by simp at hl; omega)]
    exact ⟨rfl, .refl ok1⟩
  | cons b0 tl =>
    rw [hb] at hl hp hp2 hp4
    have hl' : tl.length + 1 = buf.len := by simpa using hl
    have hsf : sliceFrom (b0 :: tl) 1 = .ok tl := by
      unfold sliceFrom
      rw [if_pos (by simp)]
      rfl
    rw [hsf] at hp
    rw [if_neg (by omega)]
    rcases hp.cases with ⟨p, _, e⟩ | ⟨rest, w, e1, e2, pr⟩
    · cases e
    injection e2 with e2
    subst e2
    rw [e1, show idx (b0 :: tl) 0 = .ok b0 from rfl]
    dsimp only
    have orest := pr.own ob
    have hs := hParseSTAP_same g (b0 &&& 0x1F) ts ok1 pr.wf orest
    have hm := hParseMTAP_same g (b0 &&& 0x1F) ts ok1 pr.wf orest
    rw [pr.view] at hs hm
    by_cases t1 : (b0 &&& 0x1F) == 24
    · rw [if_pos t1, if_pos t1]; exact hs
    rw [if_neg t1, if_neg t1]
    by_cases t2 : (b0 &&& 0x1F) == 25
    · rw [if_pos t2, if_pos t2]; exact hs
    rw [if_neg t2, if_neg t2]
    by_cases t3 : (b0 &&& 0x1F) == 26
    · rw [if_pos t3, if_pos t3]; exact hm
    rw [if_neg t3, if_neg t3]
    by_cases t4 : (b0 &&& 0x1F) == 27
    · rw [if_pos t4, if_pos t4]; exact hm
    rw [if_neg t4, if_neg t4]
    rw [hl]
    by_cases t5 : (b0 &&& 0x1F) == 28
    · rw [if_pos t5, if_pos t5]
      by_cases h2 : buf.len < 2
      · rw [if_pos h2, if_pos h2]; exact ⟨rfl, .refl ok1⟩
      rw [if_neg h2, if_neg h2]
      generalize idx (b0 :: tl) 1 = x1
      rcases hp2.cases with ⟨p, e3, e4⟩ | ⟨d, w, e3, e4, pd⟩
      · rw [e3, e4]
        rcases x1 with p1 | b1 <;> rfl
      · rw [e3, e4]
        rcases x1 with p1 | b1
        · rfl
        · have := hAddFragment_moved g ok1 hQ ((b0 &&& 0x60) + (b1 &&& 0x1F)) b1 s1.don ts pd.wf (pd.own ob)
          rw [pd.view] at this
          exact ⟨rfl, this⟩
    rw [if_neg t5, if_neg t5]
    by_cases t6 : (b0 &&& 0x1F) == 29
    · rw [if_pos t6, if_pos t6]
      by_cases h2 : buf.len < 4
      · rw [if_pos h2, if_pos h2]; exact ⟨rfl, .refl ok1⟩
      rw [if_neg h2, if_neg h2]
      generalize idx (b0 :: tl) 1 = x1
      rcases hp2.cases with ⟨p, e3, e4⟩ | ⟨d2, w2, e3, e4, pd2⟩
      · rw [e3, e4]
        rcases x1 with p1 | b1 <;> rfl
      · rw [e3, e4]
        rcases hp4.cases with ⟨p, e5, e6⟩ | ⟨d, w, e5, e6, pd⟩
        · rw [e5, e6]
          rcases x1 with p1 | b1 <;> rfl
        · rw [e5, e6]
          rcases x1 with p1 | b1
          · rfl
          dsimp only
          rw [pd2.view]
          cases beU16 w2 with
          | error p => rfl
          | ok don =>
            have := hAddFragment_moved g ok1 hQ ((b0 &&& 0x60) + (b1 &&& 0x1F)) b1 don ts pd.wf (pd.own ob)
            rw [pd.view] at this
            exact ⟨rfl, this⟩
    rw [if_neg t6, if_neg t6]
    have mv := (hAddUnit_moved g ok1 (u := ⟨b0, s1.don, ts, rest⟩) pr.wf orest).don (u16 (s1.don + 1))
    have hu : viewUnit m.b ⟨b0, s1.don, ts, rest⟩ = ⟨b0, s1.don, ts, tl⟩ := by unfold viewUnit; rw [pr.view]
    rw [hu, hv1] at mv
    exact ⟨rfl, mv⟩

theorem hPushLoop_same (g : Nat → Nat) {Q : Nat → Prop} (ts : Nat) : ∀ (nals : List Sl) (m : Mem) (s : HSink), SinkOk Q m s → (∀ a, m.b.length ≤ a → Q a) →
    (∀ n ∈ nals, n.WF m.b ∧ n.Own Q) → Same (Ended Q m) (hPushLoop g m s ts nals) (pushLoop (viewSink m s) ts (nals.map (·.view m.b))) := by
  intro nals
  induction nals with
  | nil => intro m s ok _ _; exact ⟨rfl, .refl ok⟩
  | cons n nals ih =>
    intro m s ok hQ hn
    rw [hPushLoop, List.map_cons, pushLoop]
    rcases (hParseNAL_same g ts ok hQ (hn n (by simp)).1 (hn n (by simp)).2).cases with ⟨p, e1, e2⟩ | ⟨⟨er, m', s'⟩, ⟨er', v⟩, e1, e2, r1, r2⟩
    · rw [e1, e2]; rfl
    · rw [e1, e2]
      have r1 : er = er' := r1
      subst r1
      cases er with
      | some e => exact ⟨rfl, r2⟩
      | none =>
        have hold : m.b <+: m'.b := r2.old
        have := ih m' s' r2.ok (fun a ha => hQ a (Nat.le_trans hold.length_le ha)) fun x hx => ⟨wf_prefix hold (hn x (by simp [hx])).1, (hn x (by simp [hx])).2⟩
        have hm : nals.map (·.view m'.b) = nals.map (·.view m.b) := List.map_congr_left fun x hx => view_prefix hold (hn x (by simp [hx])).1
        have hvw : viewSink m' s' = v := r2.view
        rw [hm, hvw] at this
        exact this.mono fun a b e => e.after hold

theorem hPush_same (g : Nat → Nat) {Q : Nat → Prop} (ts : Nat) {m : Mem} {s : HSink} {buf : Sl} (ok : SinkOk Q m s) (hQ : ∀ a, m.b.length ≤ a → Q a) (wb : buf.WF m.b) :
    Same (Ended Q m) (hPush g m s buf ts) (push (viewSink m s) (buf.view m.b) ts) := by
  unfold hPush push
  rcases (hSplit_same g wb).cases with ⟨p, e1, e2⟩ | ⟨⟨b, nals⟩, v, e1, e2, un⟩
  · rw [e1, e2]; rfl
  · rw [e1, e2]
    have hold : m.b <+: b := un.old
    obtain ⟨g1, g2⟩ := ok.grow hold
    have := hPushLoop_same g ts nals ⟨b, m.u, m.f⟩ s g1 (fun a ha => hQ a (Nat.le_trans hold.length_le ha)) fun n hn => ⟨un.wf n hn, (un.own n hn).mono hQ⟩
    rw [g2] at this
    have hv : nals.map (·.view b) = v := un.view
    rw [← hv]
    exact this.mono fun a b e => e.after hold

end Ouro
