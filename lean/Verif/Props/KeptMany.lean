import Verif.Props.KeptList
import Verif.Spec.Covered
/-! # C83: what a kept list of units shows after a payload of any number of NAL units -/
namespace Ouro
open Spec

/-- The units reported for the NAL units of a payload, a list for each, up to and including the first that is refused. -/
def reportedBy (s : NALSink) (ts : Nat) : List Bytes → List (List NALUnit)
  | [] => []
  | nal :: nals =>
    match parseNAL s nal ts with
    | .error _ => []
    | .ok (some _, s') => [s'.units]
    | .ok (none, s') => s'.units :: reportedBy s' ts nals

/-- `Shows`, and the list has left the array of the kept slice only if it has outgrown it. -/
def ShowsFit (h0 : Heap HUnit) (k : Sl) (h : Heap HUnit) (u : Sl) : Prop :=
  Shows h0 k h u ∧ (u.arr ≠ k.arr → k.cap < u.len)

theorem showsFit_append (g : Nat → Nat) {h0 : Heap HUnit} {k : Sl} (hk : 0 < k.len) (h0l : (k.view h0).length = k.len) :
    ∀ h u x, ShowsFit h0 k h u → ShowsFit h0 k (Heap.append g h u [x]).1 (Heap.append g h u [x]).2 := by
  intro h u x sh
  refine ⟨shows_append g hk h0l h u x sh.1, fun hne => ?_⟩
  have ap := append_spec g sh.1.wf [x]
  rw [ap.len]
  by_cases ha : u.arr = k.arr
  · by_cases hc : u.len + [x].length ≤ u.cap
    · exfalso
      apply hne
      unfold Heap.append
      rw [if_pos hc]
      exact ha
    · rcases sh.1.where_ with ⟨_, _, a3⟩ | ⟨a1, _⟩
      · omega
      · exact absurd ha a1
  · have := sh.2 ha
    omega

/-- The list is in an array other than that of the kept slice, which shows what it showed. -/
def Elsewhere (h0 : Heap HUnit) (k : Sl) (h : Heap HUnit) (u : Sl) : Prop :=
  u.WF h ∧ k.WF h ∧ k.view h = k.view h0 ∧ u.arr ≠ k.arr

theorem elsewhere_append (g : Nat → Nat) {h0 : Heap HUnit} {k : Sl} (hk : 0 < k.len) :
    ∀ h u x, Elsewhere h0 k h u → Elsewhere h0 k (Heap.append g h u [x]).1 (Heap.append g h u [x]).2 := by
  rintro h u x ⟨w, kw, hv, hne⟩
  have ap := append_spec g w [x]
  have kin : k.arr < h.length := (WF.inside kw).resolve_left (by have := kw.len; omega)
  have same := ap.others k.arr kin (fun e => absurd e.symm hne)
  refine ⟨ap.wf, ⟨by rw [same]; exact kw.cap, kw.len⟩, ?_, ?_⟩
  · rw [← hv]; unfold Sl.view; rw [same]
  · by_cases hc : u.len + [x].length ≤ u.cap
    · unfold Heap.append; rw [if_pos hc]; exact hne
    · unfold Heap.append; rw [if_neg hc]; dsimp only; omega

theorem loop_elsewhere (g : Nat → Nat) (ts : Nat) {k : Sl} (hk : 0 < k.len) : ∀ (nals : List Sl) (m : Mem) (s : HSink) (e : Option H264Err) (m' : Mem)
    (s' : HSink), s.units.WF m.u → k.WF m.u → s.units.arr ≠ k.arr → hPushLoop g m s ts nals = .ok (e, m', s') → k.view m'.u = k.view m.u := by
  intro nals
  induction nals with
  | nil => intro m s e m' s' _ _ _ h; unfold hPushLoop at h; cases h; rfl
  | cons n nals ih =>
    intro m s e m' s' w kw hne h
    unfold hPushLoop at h
    have closed := fun {m1 s1 e1} (hq : hParseNAL g m s n ts = .ok (e1, m1, s1)) =>
      parseNAL_closed (P := Elsewhere m.u k) g (elsewhere_append g hk) hq ⟨⟨w.cap, Nat.zero_le _⟩, kw, rfl, hne⟩
    split at h
    · cases h
    · rename_i hq; cases h; exact (closed hq).2.2.1
    · rename_i hq
      obtain ⟨c1, c2, c3, c4⟩ := closed hq
      rw [ih _ _ _ _ _ c1 c2 c4 h, c3]

theorem loop_covered (g : Nat → Nat) {Q : Nat → Prop} (ts : Nat) {k : Sl} (hk : 0 < k.len) : ∀ (nals : List Sl) (m : Mem) (s : HSink) (e : Option H264Err)
    (m' : Mem) (s' : HSink), SinkOk Q m s → (∀ a, m.b.length ≤ a → Q a) → (∀ n ∈ nals, n.WF m.b ∧ n.Own Q) → k.WF m.u →
    (∀ u ∈ k.view m.u, u.data.WF m.b) → (s.units.arr = k.arr ∧ s.units.off = k.off ∧ s.units.cap = k.cap) →
    hPushLoop g m s ts nals = .ok (e, m', s') →
    (k.view m'.u).map (viewUnit m'.b) =
      coveredBy k.cap ((k.view m.u).map (viewUnit m.b)) (reportedBy (viewSink m s) ts (nals.map (·.view m.b))) := by
  intro nals
  induction nals with
  | nil => intro m s e m' s' _ _ _ _ _ _ h; unfold hPushLoop at h; cases h; rfl
  | cons n nals ih =>
    intro m s e m' s' ok hQ hn kw kd hat h
    unfold hPushLoop at h
    rw [List.map_cons, reportedBy]
    rcases (hParseNAL_same g ts ok hQ (hn n (by simp)).1 (hn n (by simp)).2).cases with ⟨p, e1, e2⟩ | ⟨⟨er, m1, s1⟩, ⟨er', v⟩, e1, e2, r1, r2⟩
    · rw [e1] at h; cases h
    · have r1 : er = er' := r1
      subst r1
      have hold : m.b <+: m1.b := r2.old
      have hvw : viewSink m1 s1 = v := r2.view
      have start : ShowsFit m.u k m.u { s.units with len := 0 } := by
        refine ⟨⟨⟨ok.units.cap, Nat.zero_le _⟩, kw, ?_, .inl hat⟩, fun hne => absurd hat.1 hne⟩
        rw [show Sl.view { s.units with len := 0 } m.u = [] from view_empty rfl, List.take_nil, List.nil_append]
        rfl
      have sh : ShowsFit m.u k m1.u s1.units := parseNAL_closed (P := ShowsFit m.u k) g (showsFit_append g hk (view_length kw)) e1 start
      have hlen : v.units.length = s1.units.len := by
        rw [← hvw]; unfold viewSink; dsimp only; rw [List.length_map, view_length r2.ok.units]
      have step : (k.view m1.u).map (viewUnit m1.b) = covered ((k.view m.u).map (viewUnit m.b)) v.units := by
        unfold covered
        rw [hlen, List.length_map, view_length kw, sh.1.shows, List.map_append, List.map_take, List.map_drop,
          List.map_congr_left (l := k.view m.u) fun u hu => viewUnit_prefix hold (kd u hu), ← hvw]
        rfl
      have kd1 : ∀ u ∈ k.view m1.u, u.data.WF m1.b := by
        intro u hu
        rw [sh.1.shows, List.mem_append] at hu
        rcases hu with hu | hu
        · exact (r2.ok.udata u (List.mem_of_mem_take hu)).1
        · exact wf_prefix hold (kd u (List.mem_of_mem_drop hu))
      rw [e1] at h
      rw [e2]
      cases er with
      | some er =>
        cases h
        dsimp only
        rw [step]
        unfold coveredBy
        split
        · rfl
        · rfl
      | none =>
        dsimp only at h ⊢
        unfold coveredBy
        rcases sh.1.where_ with hw | ⟨hw, _⟩
        · have hfit : v.units.length ≤ k.cap := by rw [hlen, ← hw.2.2]; exact sh.1.wf.len
          have := ih m1 s1 e m' s' r2.ok (fun a ha => hQ a (Nat.le_trans hold.length_le ha))
            (fun x hx => ⟨wf_prefix hold (hn x (by simp [hx])).1, (hn x (by simp [hx])).2⟩) sh.1.kwf kd1 hw h
          rw [if_pos hfit, this, step, hvw, List.map_congr_left (l := nals) fun x hx => view_prefix hold (hn x (by simp [hx])).1]
        · have hbig := sh.2 hw
          rw [if_neg (by omega), ← step, loop_elsewhere g ts hk nals m1 s1 e m' s' r2.ok.units sh.1.kwf hw h]
          have mv : m1.b <+: m'.b := by
            rcases (hPushLoop_same g ts nals m1 s1 r2.ok (fun a ha => hQ a (Nat.le_trans hold.length_le ha))
              (fun x hx => ⟨wf_prefix hold (hn x (by simp [hx])).1, (hn x (by simp [hx])).2⟩)).cases with ⟨p, f1, _⟩ | ⟨⟨e', m2, s2⟩, w, f1, _, _, f2⟩
            · rw [h] at f1; cases f1
            · rw [h] at f1; cases f1; exact f2.old
          exact List.map_congr_left fun u hu => viewUnit_prefix mv (kd1 u hu)

/-- **C83**, exact, for every payload: what a list of units kept from the sink shows after the next push, whatever the NAL units of the payload are, whether
accepted or not, and however `append` makes room. The units reported for each NAL unit of the payload are written over it one list after another, up to and
including the first list for which the room of the kept one (Go's `cap`) does not suffice. -/
theorem C83_list_many {g : Nat → Nat} {l : Life} (h : Life.Reach g l) {buf : Sl} (hb : buf.WF l.m.b) (ts : Nat) {nals : List Bytes}
    (hs : splitAnnexB (buf.view l.m.b) = .ok nals) {e : Option H264Err} {m : Mem} {s : HSink} (hp : hPush g l.m l.s buf ts = .ok (e, m, s)) :
    (l.s.units.view m.u).map (viewUnit m.b) =
      coveredBy l.s.units.cap (viewSink l.m l.s).units (reportedBy (viewSink l.m l.s) ts nals) := by
  have i := life_inv h
  by_cases h0 : l.s.units.len = 0
  · have hnil : (viewSink l.m l.s).units = [] := by unfold viewSink; dsimp only; rw [view_empty h0]; rfl
    rw [view_empty h0, hnil]
    generalize reportedBy _ _ _ = ls
    induction ls with
    | nil => rfl
    | cons a ls ih =>
      unfold coveredBy
      have : covered ([] : List NALUnit) a = [] := by unfold covered; simp
      rw [this]
      split
      · exact ih
      · rfl
  · unfold hPush at hp
    rcases (hSplit_same g hb).cases with ⟨p, _, e2⟩ | ⟨⟨b, ns⟩, v, e1, e2, un⟩
    · rw [hs] at e2; cases e2
    · rw [hs] at e2
      injection e2 with e2
      subst e2
      rw [e1] at hp
      have hold : l.m.b <+: b := un.old
      obtain ⟨g1, g2⟩ := i.ok.grow hold
      have hQ : ∀ a, l.m.b.length ≤ a → a ∉ l.scratch := fun a ha hs => by have := i.scratch a hs; omega
      have := loop_covered g ts (k := l.s.units) (by omega) ns ⟨b, l.m.u, l.m.f⟩ l.s e m s g1 (fun a ha => hQ a (Nat.le_trans hold.length_le ha))
        (fun n hn => ⟨un.wf n hn, (un.own n hn).mono hQ⟩) i.ok.units (fun u hu => wf_prefix hold (i.ok.udata u hu).1) ⟨rfl, rfl, rfl⟩ hp
      rw [this, g2, show ns.map (·.view b) = nals from un.view]
      congr 1
      rw [← g2]
      rfl

/-- Three NAL units: a single one, an aggregate of two and another single one. -/
def payThree : Bytes := [0, 0, 0, 1, 0x41, 4, 4, 0, 0, 0, 1, 0x18, 0, 2, 0x65, 6, 0, 2, 0x65, 7, 0, 0, 0, 1, 0x41, 8]
/-- An aggregate of 21 units, for which the 20 places of a new sink do not suffice, and a single unit. -/
def payMany : Bytes := [0, 0, 0, 1, 0x18] ++ (List.replicate 21 [0, 2, 0x65, 3]).flatten ++ [0, 0, 0, 1, 0x41, 6]

/-- Two units are in the sink, and a buffer holds another payload. -/
def lifeWith (pay : Bytes) : Life :=
  { demoLife1 with m := { demoLife1.m with b := demoLife1.m.b ++ [pay] }, scratch := demoLife1.m.b.length :: demoLife1.scratch }
/-- That buffer. -/
def bufOf (pay : Bytes) : Sl := ⟨demoLife1.m.b.length, 0, pay.length, pay.length⟩

theorem lifeWith_reach (pay : Bytes) : Life.Reach (fun n => n) (lifeWith pay) := .step _ _ demoLife1_reach (.alloc _ pay)

/-- The hypotheses of `C83_list_many`: two units are kept, and three NAL units come next. -/
example : Life.Reach (fun n => n) (lifeWith payThree) ∧ (bufOf payThree).WF (lifeWith payThree).m.b ∧
    splitAnnexB ((bufOf payThree).view (lifeWith payThree).m.b) = .ok [[0x41, 4, 4], [0x18, 0, 2, 0x65, 6, 0, 2, 0x65, 7], [0x41, 8]] ∧
    (lifeWith payThree).s.units.len = 2 ∧ ∃ r, hPush (fun n => n) (lifeWith payThree).m (lifeWith payThree).s (bufOf payThree) 20 = .ok r := by
  refine ⟨lifeWith_reach _, ⟨by decide +kernel, by decide +kernel⟩, by decide +kernel, by decide +kernel, ?_⟩
  have h : (match hPush (fun n => n) (lifeWith payThree).m (lifeWith payThree).s (bufOf payThree) 20 with | .ok _ => true | .error _ => false) = true := by
    decide +kernel
  cases hp : hPush (fun n => n) (lifeWith payThree).m (lifeWith payThree).s (bufOf payThree) 20 with
  | error p => rw [hp] at h; cases h
  | ok r => exact ⟨r, rfl⟩

/-- What the kept list then shows: the unit of the last NAL unit, and the second of those before it. -/
example : (demoLife1.s.units.view (afterPush (lifeWith payThree) (bufOf payThree) 20).m.u).map
    (viewUnit (afterPush (lifeWith payThree) (bufOf payThree) 20).m.b) = [⟨0x41, 5, 20, [8]⟩, ⟨0x65, 4, 20, [7]⟩] := by decide +kernel

/-- After 21 units the list is elsewhere: the kept one shows the first two of them, and not the unit that comes last. -/
example : demoLife1.s.units.cap = 20 ∧ (demoLife1.s.units.view (afterPush (lifeWith payMany) (bufOf payMany) 20).m.u).map
    (viewUnit (afterPush (lifeWith payMany) (bufOf payMany) 20).m.b) = [⟨0x65, 2, 20, [3]⟩, ⟨0x65, 3, 20, [3]⟩] := by decide +kernel

end Ouro
