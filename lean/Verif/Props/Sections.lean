import Verif.Props.Ignored
import Verif.Spec.Sections
/-!
# C136: each section of a description speaks for itself
-/
namespace Ouro
open Spec

/-- An `m=` line adds to the streams whatever it adds, or panics, no matter what was before. -/
theorem mLine_form {l : Bytes} (h : isMLine l = true) :
    (∃ x b, (b = true → x ≠ []) ∧ ∀ st, sdpLine st l = .ok ⟨st.feeds ++ x, b⟩) ∨ ∀ st, sdpLine st l = .error .index := by
  by_cases hb : trimSpace l = b!"m=video"
  · exact .inr fun st => sdpLine_bare st l hb
  · cases hv : isVideoLine l with
    | true => exact .inl ⟨[lineMedia l], true, fun _ h => by (cases h), fun st => sdpLine_video st l hv⟩
    | false => exact .inl ⟨[], false, fun h => by (cases h), fun st => by rw [sdpLine_media st l h hv hb, List.append_nil]⟩

theorem modifyLast_behind (f : Media → Media) (fs : List Media) : ∀ gs : List Media, gs ≠ [] → modifyLast f (fs ++ gs) = fs ++ modifyLast f gs := by
  intro gs hg
  obtain ⟨m, hm⟩ : ∃ m, gs = gs.dropLast ++ [m] := ⟨gs.getLast hg, (List.dropLast_concat_getLast hg).symm⟩
  rw [hm, ← List.append_assoc, modifyLast_append, modifyLast_append, List.append_assoc]

theorem modifyLast_some (f : Media → Media) (gs : List Media) (hg : gs ≠ []) : modifyLast f gs ≠ [] := by
  rw [show gs = gs.dropLast ++ [gs.getLast hg] from (List.dropLast_concat_getLast hg).symm, modifyLast_append]
  exact fun e => List.cons_ne_nil _ _ (List.append_eq_nil_iff.1 e).2

/-- Streams before those that lines are about stay as they are. -/
theorem sdpLines_behind (fs : List Media) (ls : List Bytes) : ∀ (gs : List Media) (b : Bool), (b = true → gs ≠ []) →
    sdpLines ⟨fs ++ gs, b⟩ ls = (sdpLines ⟨gs, b⟩ ls).map fun st => ⟨fs ++ st.feeds, st.active⟩ := by
  induction ls with
  | nil => intro gs b _; rfl
  | cons l ls ih =>
    intro gs b hb
    show (sdpLine ⟨fs ++ gs, b⟩ l).bind _ = ((sdpLine ⟨gs, b⟩ l).bind _).map _
    cases hm : isMLine l with
    | true =>
      rcases mLine_form hm with ⟨x, c, hc, e⟩ | e
      · rw [e, e]
        show sdpLines ⟨fs ++ gs ++ x, c⟩ ls = (sdpLines ⟨gs ++ x, c⟩ ls).map _
        rw [List.append_assoc]
        exact ih (gs ++ x) c fun h e => hc h (List.append_eq_nil_iff.1 e).2
      · rw [e, e]; rfl
    | false =>
      rw [sdpLine_other _ l hm, sdpLine_other _ l hm]
      cases b with
      | false => exact ih gs false hb
      | true =>
        show sdpLines ⟨modifyLast (lineFun l) (fs ++ gs), true⟩ ls = (sdpLines ⟨modifyLast (lineFun l) gs, true⟩ ls).map _
        rw [modifyLast_behind _ _ _ (hb rfl)]
        exact ih _ true fun _ => modifyLast_some _ _ (hb rfl)

theorem mLines_after {l : Bytes} (hm : isMLine l = true) (t : List Bytes) (fs : List Media) (b : Bool) :
    sdpLines ⟨fs, b⟩ (l :: t) = (sdpLines ⟨[], false⟩ (l :: t)).map fun st => ⟨fs ++ st.feeds, st.active⟩ := by
  have h := sdpLines_behind fs (l :: t) [] false (fun h => by cases h)
  rw [List.append_nil] at h
  rw [← h]
  show (sdpLine ⟨fs, b⟩ l).bind _ = (sdpLine ⟨fs, false⟩ l).bind _
  rcases mLine_form hm with ⟨x, c, _, e⟩ | e <;> rw [e, e]

/-- Enough for lines to speak for themselves: what they make of any state. -/
theorem speaks_of {b : List Bytes} (hb : ∀ l ∈ b, (10 : UInt8) ∉ l) (h : ∀ fs c, (sdpLines ⟨fs, c⟩ b).map (·.feeds) =
    (sdpLines ⟨[], false⟩ b).map fun st => fs ++ st.feeds) : SpeaksForItself sdpParse b := by
  intro a ha
  rw [sdpParse_unlines _ fun x hx => (List.mem_append.1 hx).elim (ha x) (hb x), sdpParse_unlines _ ha, sdpParse_unlines _ hb, sdpLines_cat]
  cases sdpLines ⟨[], false⟩ a with
  | error p => rfl
  | ok st =>
    show (sdpLines st b).map _ = oneAfterOther (.ok st.feeds) _
    rw [show st = ⟨st.feeds, st.active⟩ from rfl, h]
    cases sdpLines ⟨[], false⟩ b <;> rfl

/-- C136: a section (or several) after any description gives the streams it gives alone, after those of the description, which are as without it; and it panics
exactly if one of the two panics alone. -/
theorem C136_section (b : List Bytes) (hb : ∀ l ∈ b, (10 : UInt8) ∉ l) (h : IsSection b) : SpeaksForItself sdpParse b := by
  obtain ⟨l, t, rfl, hm⟩ := h
  refine speaks_of hb fun fs c => ?_
  rw [mLines_after hm t fs c]
  cases sdpLines ⟨[], false⟩ (l :: t) <;> rfl

/-- C136: a description of a session part without media and then sections gives the streams of the sections, one section after the other, as if
each were alone. So exchanging sections exchanges their streams and nothing else. -/
theorem C136_order (pre : List Bytes) (hpre : ∀ l ∈ pre, (10 : UInt8) ∉ l ∧ isMLine l = false) (ss : List (List Bytes))
    (hs : ∀ s ∈ ss, IsSection s ∧ ∀ l ∈ s, (10 : UInt8) ∉ l) :
    sdpParse (unlines (pre ++ ss.flatten)) = (ss.map fun s => sdpParse (unlines s)).foldl oneAfterOther (.ok []) := by
  have idle : ∀ ls : List Bytes, (∀ l ∈ ls, isMLine l = false) → sdpLines ⟨[], false⟩ ls = .ok ⟨[], false⟩ := by
    intro ls
    induction ls with
    | nil => intro _; rfl
    | cons l ls ih =>
      intro h
      show (sdpLine _ l).bind _ = _
      rw [sdpLine_other _ l (h l (List.mem_cons_self ..))]
      exact ih fun x hx => h x (List.mem_cons_of_mem _ hx)
  have go : ∀ (ss : List (List Bytes)), (∀ s ∈ ss, IsSection s ∧ ∀ l ∈ s, (10 : UInt8) ∉ l) → ∀ a : List Bytes, (∀ l ∈ a, (10 : UInt8) ∉ l) →
      sdpParse (unlines (a ++ ss.flatten)) = (ss.map fun s => sdpParse (unlines s)).foldl oneAfterOther (sdpParse (unlines a)) := by
    intro ss
    induction ss with
    | nil => intro _ a _; rw [List.flatten_nil, List.append_nil]; rfl
    | cons s ss ih =>
      intro h a ha
      have h1 := h s (List.mem_cons_self ..)
      rw [List.flatten_cons, ← List.append_assoc, ih (fun x hx => h x (List.mem_cons_of_mem _ hx)) _
        fun l hl => (List.mem_append.1 hl).elim (ha l) (h1.2 l), C136_section s h1.2 h1.1 a ha]
      rfl
  rw [go ss hs pre fun l hl => (hpre l hl).1, sdpParse_unlines pre fun l hl => (hpre l hl).1, idle pre fun l hl => (hpre l hl).2]
  rfl

theorem leading_split (b : List Bytes) : ∃ r, b = b.takeWhile (fun l => !isMLine l) ++ r ∧ (r = [] ∨ IsSection r) := by
  refine ⟨b.dropWhile (fun l => !isMLine l), List.takeWhile_append_dropWhile.symm, ?_⟩
  induction b with
  | nil => exact .inl rfl
  | cons l t ih =>
    cases hm : isMLine l with
    | true => rw [List.dropWhile_cons_of_neg (by rw [hm]; decide)]; exact .inr ⟨l, t, rfl, hm⟩
    | false => rw [List.dropWhile_cons_of_pos (by rw [hm]; rfl)]; exact ih

theorem leading_not (b : List Bytes) : ∀ l ∈ b.takeWhile (fun l => !isMLine l), isMLine l = false := by
  induction b with
  | nil => intro l hl; cases hl
  | cons x t ih =>
    intro l hl
    cases hm : isMLine x with
    | true => rw [List.takeWhile_cons_of_neg (by rw [hm]; decide)] at hl; cases hl
    | false =>
      rw [List.takeWhile_cons_of_pos (by rw [hm]; rfl)] at hl
      rcases List.mem_cons.1 hl with rfl | hl
      · exact hm
      · exact ih l hl

theorem leading_lines (ls : List Bytes) (h : ∀ l ∈ ls, isMLine l = false) : ∀ (fs : List Media) (m : Media),
    sdpLines ⟨fs ++ [m], true⟩ ls = .ok ⟨fs ++ [ls.foldl (fun m l => lineFun l m) m], true⟩ ∧ sdpLines ⟨fs, false⟩ ls = .ok ⟨fs, false⟩ := by
  induction ls with
  | nil => intro fs m; exact ⟨rfl, rfl⟩
  | cons l ls ih =>
    intro fs m
    have hl := h l (List.mem_cons_self ..)
    obtain ⟨a, b⟩ := ih (fun x hx => h x (List.mem_cons_of_mem _ hx)) fs (lineFun l m)
    constructor
    · show (sdpLine _ l).bind _ = _
      rw [sdpLine_other _ l hl]
      show sdpLines ⟨modifyLast (lineFun l) (fs ++ [m]), true⟩ ls = _
      rw [modifyLast_append, a]; rfl
    · show (sdpLine _ l).bind _ = _
      rw [sdpLine_other _ l hl]
      exact b

/-- The line tells something about a stream. -/
def tells (l : Bytes) : Prop := ∃ v, trimSpace l = b!"a=" ++ v ∧ ∃ f ∈ splitN2 32 v, Informs f

theorem isALine_some {l : Bytes} (h : isALine l = true) : ∃ v, trimSpace l = b!"a=" ++ v := by
  unfold isALine at h
  obtain ⟨v, hv⟩ := List.isPrefixOf_iff_prefix.1 h
  exact ⟨v, hv.symm⟩

theorem line_tells (l : Bytes) : ActsAs (lineFun l) (tells l) := by
  cases ha : isALine l with
  | true =>
    obtain ⟨v, hv⟩ := isALine_some ha
    refine (line_acts hv).congr ⟨fun h => ⟨v, hv, h⟩, ?_⟩
    rintro ⟨v', hv', h⟩
    have : v = v' := List.append_cancel_left (hv.symm.trans hv')
    rw [this]; exact h
  | false =>
    refine ActsAs.unit (lineFun_type ha) ?_
    rintro ⟨v, hv, _⟩
    have : isALine l = true := by unfold isALine; rw [hv]; exact List.isPrefixOf_iff_prefix.2 ⟨v, rfl⟩
    rw [ha] at this; cases this

theorem eff_none {e : SdpEff} (hA : e.apply mediaA = mediaA) (hB : e.apply mediaB = mediaB) : e = {} := by
  obtain ⟨a1, a2, a3, a4, a5, a6, a7, a8⟩ := e
  unfold SdpEff.apply at hA hB
  injection hA with p1 p2 p3 p4 p5 p6 p7 p8 p9
  injection hB with q1 q2 q3 q4 q5 q6 q7 q8 q9
  have r1 : a1 = none := getD_two p1 q1 (by decide)
  have r2 : a2 = none := getD_two p2 q2 (by decide)
  have r3 : a3 = none := getD_two p3 q3 (by decide)
  have r4 : a4 = none := getD_two p4 q4 (by decide)
  have r5 : a5 = none := getD_two p5 q5 (by decide)
  have r6 : a6 = [] := p6
  have r8 : a7 = none := getD_two p8 q8 (by decide)
  have r9 : a8 = none := getD_two p9 q9 (by decide)
  rw [r1, r2, r3, r4, r5, r6, r8, r9]

/-- C136, exactly: lines that are a description (they do not panic) speak for themselves if and only if none of the attributes before the first `m=` line among
them tells anything about a stream (it would be taken for the stream before). -/
theorem C136_iff (b : List Bytes) (hb : ∀ l ∈ b, (10 : UInt8) ∉ l) (ms : List Media) (hok : sdpParse (unlines b) = .ok ms) :
    SpeaksForItself sdpParse b ↔ ∀ l ∈ b.takeWhile (fun l => !isMLine l), ∀ v, trimSpace l = b!"a=" ++ v → ∀ f ∈ splitN2 32 v, ¬ Informs f := by
  obtain ⟨r, hr, hsec⟩ := leading_split b
  have hlead := leading_not b
  generalize b.takeWhile (fun l => !isMLine l) = lead at hr hlead
  have rest : ∀ fs c, (sdpLines ⟨fs, c⟩ r).map (·.feeds) = (sdpLines ⟨[], false⟩ r).map fun st => fs ++ st.feeds := by
    intro fs c
    rcases hsec with rfl | ⟨l, t, rfl, hm⟩
    · show Except.ok fs = Except.ok (fs ++ []); rw [List.append_nil]
    · rw [mLines_after hm t fs c]
      cases sdpLines ⟨[], false⟩ (l :: t) <;> rfl
  obtain ⟨e, e1, e2⟩ := foldl_acts (fun m l => lineFun l m) tells lead fun l _ => line_tells l
  have alone : ∀ fs, sdpLines ⟨fs, false⟩ b = sdpLines ⟨fs, false⟩ r := fun fs => by
    rw [hr, sdpLines_cat, (leading_lines lead hlead fs mediaA).2]; rfl
  have after : ∀ fs m, sdpLines ⟨fs ++ [m], true⟩ b = sdpLines ⟨fs ++ [e.apply m], true⟩ r := fun fs m => by
    rw [hr, sdpLines_cat, (leading_lines lead hlead fs m).1, ← e1]; rfl
  have hrok : (sdpLines ⟨[], false⟩ r).map (·.feeds) = .ok ms := by
    rw [← alone, ← sdpParse_unlines b hb]; exact hok
  obtain ⟨st, hst, hfeeds⟩ : ∃ st, sdpLines ⟨[], false⟩ r = .ok st ∧ st.feeds = ms := by
    cases h : sdpLines ⟨[], false⟩ r with
    | error p => rw [h] at hrok; cases hrok
    | ok st => rw [h] at hrok; injection hrok with hrok; exact ⟨st, rfl, hrok⟩
  have nothing : e = {} ↔ ∀ l ∈ lead, ∀ v, trimSpace l = b!"a=" ++ v → ∀ f ∈ splitN2 32 v, ¬ Informs f := by
    rw [e2]
    exact ⟨fun h l hl v hv f hf hi => h ⟨l, hl, v, hv, f, hf, hi⟩, fun h ⟨l, hl, v, hv, f, hf, hi⟩ => h l hl v hv f hf hi⟩
  rw [← nothing]
  constructor
  · intro h
    have told : ∀ ls m, (∀ x ∈ ls, (10 : UInt8) ∉ x) → sdpLines ⟨[], false⟩ ls = .ok ⟨[m], true⟩ → e.apply m = m := by
      intro ls m hls hm
      have := h ls hls
      rw [sdpParse_unlines _ fun x hx => (List.mem_append.1 hx).elim (hls x) (hb x), sdpParse_unlines _ hls, hok, sdpLines_cat, hm] at this
      change (sdpLines ⟨[] ++ [m], true⟩ b).map _ = .ok ([m] ++ ms) at this
      rw [after, rest, hst] at this
      injection this with this
      change [e.apply m] ++ st.feeds = [m] ++ ms at this
      rw [hfeeds] at this
      injection this
    exact eff_none (told toldA mediaA (by decide) toldA_lines) (told toldB mediaB (by decide) toldB_lines)
  · intro he a ha
    rw [sdpParse_unlines _ fun x hx => (List.mem_append.1 hx).elim (ha x) (hb x), sdpParse_unlines _ ha, hok, sdpLines_cat]
    have key : ∀ fs c, (sdpLines ⟨fs, c⟩ b).map (·.feeds) = .ok (fs ++ ms) := by
      intro fs c
      have fin : ∀ c, (sdpLines ⟨fs, c⟩ r).map (·.feeds) = .ok (fs ++ ms) := fun c => by
        rw [rest, hst, ← hfeeds]; rfl
      cases c with
      | false => rw [alone]; exact fin false
      | true =>
        by_cases hf : fs = []
        · subst hf
          have : ∀ ls : List Bytes, (∀ l ∈ ls, isMLine l = false) → sdpLines ⟨[], true⟩ ls = .ok ⟨[], true⟩ := by
            intro ls
            induction ls with
            | nil => intro _; rfl
            | cons l ls ih =>
              intro h
              show (sdpLine _ l).bind _ = _
              rw [sdpLine_other _ l (h l (List.mem_cons_self ..))]
              exact ih fun x hx => h x (List.mem_cons_of_mem _ hx)
          rw [hr, sdpLines_cat, this lead hlead]
          exact fin true
        · have hx := (List.dropLast_concat_getLast hf).symm
          rw [hx, after, he, SdpEff.unit_apply, ← hx]
          exact fin true
    cases sdpLines ⟨[], false⟩ a with
    | error p => rfl
    | ok st => exact key st.feeds st.active

/-- Two sections; in the other order they give the streams in the other order. -/
example : let a := [b!"m=video 0 RTP/AVP 96", b!"a=control:1"]
    let b := [b!"m=video 0 RTP/AVP 97", b!"a=rtpmap:97 H264/90000"]
    (∀ s ∈ [a, b], IsSection s ∧ ∀ l ∈ s, (10 : UInt8) ∉ l) ∧
    sdpParse (unlines ([b!"v=0"] ++ [a, b].flatten)) = .ok [{ payloadType := 96, control := b!"1" }, { payloadType := 97, rtpmap := 97, type := 96, timeScale := 90000 }] ∧
    sdpParse (unlines ([b!"v=0"] ++ [b, a].flatten)) = .ok [{ payloadType := 97, rtpmap := 97, type := 96, timeScale := 90000 }, { payloadType := 96, control := b!"1" }] := by
  refine ⟨?_, rfl, rfl⟩
  intro s hs
  simp only [List.mem_cons, List.not_mem_nil, or_false] at hs
  rcases hs with rfl | rfl
  · exact ⟨⟨_, _, rfl, rfl⟩, by decide⟩
  · exact ⟨⟨_, _, rfl, rfl⟩, by decide⟩

end Ouro
