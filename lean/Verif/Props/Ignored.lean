import Verif.Spec.Ignored
import Verif.Props.Sdp
import Verif.Model.Session
/-! # C131: lines of a description that are not used -/
namespace Ouro
open Spec

/-- What an attribute does: what it sets, and the parameter sets it adds. -/
structure SdpEff where
  type : Option Nat := none
  timeScale : Option Int := none
  control : Option Bytes := none
  rtpmap : Option Int := none
  config : Option Bytes := none
  sets : List Bytes := []
  sizeLength : Option Int := none
  indexLength : Option Int := none

def SdpEff.apply (e : SdpEff) (m : Media) : Media :=
  ⟨e.type.getD m.type, e.timeScale.getD m.timeScale, e.control.getD m.control, e.rtpmap.getD m.rtpmap, e.config.getD m.config, m.spropParameterSets ++ e.sets,
    m.payloadType, e.sizeLength.getD m.sizeLength, e.indexLength.getD m.indexLength⟩

def SdpEff.comp (e g : SdpEff) : SdpEff :=
  ⟨g.type.or e.type, g.timeScale.or e.timeScale, g.control.or e.control, g.rtpmap.or e.rtpmap, g.config.or e.config, e.sets ++ g.sets, g.sizeLength.or e.sizeLength,
    g.indexLength.or e.indexLength⟩

theorem getD_or {α} (a b : Option α) (d : α) : (a.or b).getD d = a.getD (b.getD d) := by cases a <;> rfl

theorem SdpEff.comp_apply (e g : SdpEff) (m : Media) : (e.comp g).apply m = g.apply (e.apply m) := by
  unfold SdpEff.apply SdpEff.comp
  simp only [getD_or, List.append_assoc]

theorem or_none {α} {a b : Option α} (h : a.or b = none) : b = none ∧ a = none := by cases a <;> cases b <;> simp_all

theorem SdpEff.comp_none {e g : SdpEff} (h : e.comp g = {}) : e = {} ∧ g = {} := by
  obtain ⟨a1, a2, a3, a4, a5, a6, a7, a8⟩ := e
  obtain ⟨b1, b2, b3, b4, b5, b6, b7, b8⟩ := g
  unfold SdpEff.comp at h
  injection h with h1 h2 h3 h4 h5 h6 h7 h8
  obtain ⟨rfl, rfl⟩ := or_none h1
  obtain ⟨rfl, rfl⟩ := or_none h2
  obtain ⟨rfl, rfl⟩ := or_none h3
  obtain ⟨rfl, rfl⟩ := or_none h4
  obtain ⟨rfl, rfl⟩ := or_none h5
  obtain ⟨rfl, rfl⟩ := List.append_eq_nil_iff.1 h6
  obtain ⟨rfl, rfl⟩ := or_none h7
  obtain ⟨rfl, rfl⟩ := or_none h8
  exact ⟨rfl, rfl⟩

theorem SdpEff.unit_apply (m : Media) : ({} : SdpEff).apply m = m := by
  unfold SdpEff.apply; rw [List.append_nil]; rfl

/-- `g` acts as some effect, which is none if and only if `P` does not hold. -/
def ActsAs (g : Media → Media) (P : Prop) : Prop := ∃ e : SdpEff, (∀ m, g m = e.apply m) ∧ (e = {} ↔ ¬ P)

theorem ActsAs.comp {g h : Media → Media} {P Q : Prop} (hg : ActsAs g P) (hh : ActsAs h Q) : ActsAs (fun m => h (g m)) (P ∨ Q) := by
  obtain ⟨e, e1, e2⟩ := hg
  obtain ⟨f, f1, f2⟩ := hh
  refine ⟨e.comp f, fun m => by show h (g m) = _; rw [e1, f1, SdpEff.comp_apply], ?_⟩
  rw [not_or, ← e2, ← f2]
  constructor
  · exact SdpEff.comp_none
  · rintro ⟨rfl, rfl⟩; rfl

theorem ActsAs.unit {g : Media → Media} {P : Prop} (hg : ∀ m, g m = m) (hp : ¬ P) : ActsAs g P :=
  ⟨{}, fun m => by rw [hg, SdpEff.unit_apply], fun _ => hp, fun _ => rfl⟩

theorem ActsAs.of {g : Media → Media} {P : Prop} (e : SdpEff) (hg : ∀ m, g m = e.apply m) (he : e ≠ {}) (hp : P) : ActsAs g P :=
  ⟨e, hg, fun h => absurd h he, fun h => absurd hp h⟩

theorem ActsAs.congr {g : Media → Media} {P Q : Prop} (hg : ActsAs g P) (h : P ↔ Q) : ActsAs g Q := by
  obtain ⟨e, e1, e2⟩ := hg
  exact ⟨e, e1, by rw [e2, h]⟩

theorem foldl_acts {α} (f : Media → α → Media) (P : α → Prop) (xs : List α) (h : ∀ x ∈ xs, ActsAs (fun m => f m x) (P x)) :
    ActsAs (fun m => xs.foldl f m) (∃ x ∈ xs, P x) := by
  induction xs with
  | nil => exact ActsAs.unit (fun _ => rfl) (by rintro ⟨_, h, _⟩; cases h)
  | cons x xs ih =>
    refine ((h x (List.mem_cons_self ..)).comp (ih fun y hy => h y (List.mem_cons_of_mem _ hy))).congr ?_
    simp only [List.mem_cons, exists_eq_or_imp]

theorem colon_acts (f : Bytes) : ActsAs (fun m => sdpColon m f) ((∃ v, f = b!"control:" ++ v) ∨ ∃ v, f = b!"rtpmap:" ++ v) := by
  have key : ∀ (k : Bytes), (58 : UInt8) ∉ k → ∀ v, f = (k ++ [58]) ++ v → cut 58 f = some (k, v) := fun k hk v h => by
    rw [h, List.append_assoc]; exact cut_append _ hk
  cases hc : cut 58 f with
  | none =>
    refine ActsAs.unit (fun m => by unfold sdpColon splitN2; rw [hc]) ?_
    rintro (⟨v, h⟩ | ⟨v, h⟩)
    · rw [key b!"control" (by decide) v h] at hc; cases hc
    · rw [key b!"rtpmap" (by decide) v h] at hc; cases hc
  | some p =>
    obtain ⟨k, v⟩ := p
    have hm : ∀ m, sdpColon m f = sdpColonKey m k v := fun m => by unfold sdpColon splitN2; rw [hc]
    obtain ⟨hf, _⟩ := cut_some hc
    by_cases h1 : k = b!"control"
    · refine ActsAs.of { control := some v } (fun m => ?_) (by intro h; injection h with _ _ h; cases h) (.inl ⟨v, by rw [hf, h1]; rfl⟩)
      show sdpColon m f = _
      rw [hm, sdpColonKey, if_pos h1]; simp [SdpEff.apply]
    by_cases h2 : k = b!"rtpmap"
    · refine ActsAs.of { rtpmap := some (atoi v).1 } (fun m => ?_) (by intro h; injection h with _ _ _ h; cases h) (.inr ⟨v, by rw [hf, h2]; rfl⟩)
      show sdpColon m f = _
      rw [hm, sdpColonKey, if_neg h1, if_pos h2]; simp [SdpEff.apply]
    refine ActsAs.unit (fun m => by rw [hm, sdpColonKey, if_neg h1, if_neg h2]) ?_
    rintro (⟨v, h⟩ | ⟨v, h⟩)
    · rw [key b!"control" (by decide) v h] at hc; injection hc with hc; injection hc with hc; exact h1 hc.symm
    · rw [key b!"rtpmap" (by decide) v h] at hc; injection hc with hc; injection hc with hc; exact h2 hc.symm

theorem slash_acts (f : Bytes) : ActsAs (fun m => sdpSlash m f) (∃ k n rest, split 47 f = k :: n :: rest ∧
    ((toUpper k = b!"H264" ∨ toUpper k = b!"MPEG4-GENERIC") ∨ (atoi n).2 = none)) := by
  rcases hs : split 47 f with _ | ⟨k, _ | ⟨n, rest⟩⟩
  · refine ActsAs.unit (fun m => by unfold sdpSlash; rw [hs]) ?_
    rintro ⟨_, _, _, h, _⟩; cases h
  · refine ActsAs.unit (fun m => by unfold sdpSlash; rw [hs]) ?_
    rintro ⟨_, _, _, h, _⟩; cases h
  · have a1 : ActsAs (fun m : Media => if toUpper k = b!"MPEG4-GENERIC" then { m with type := 97 } else if toUpper k = b!"H264" then { m with type := 96 } else m)
        (toUpper k = b!"H264" ∨ toUpper k = b!"MPEG4-GENERIC") := by
      by_cases h1 : toUpper k = b!"MPEG4-GENERIC"
      · exact ActsAs.of { type := some 97 } (fun m => by rw [if_pos h1]; simp [SdpEff.apply]) (by intro h; injection h with h; cases h) (.inr h1)
      by_cases h2 : toUpper k = b!"H264"
      · exact ActsAs.of { type := some 96 } (fun m => by rw [if_neg h1, if_pos h2]; simp [SdpEff.apply]) (by intro h; injection h with h; cases h) (.inl h2)
      · exact ActsAs.unit (fun m => by rw [if_neg h1, if_neg h2]) (fun h => h.elim h2 h1)
    have a2 : ActsAs (fun m : Media => match atoi n with | (i, none) => { m with timeScale := i } | (_, some _) => m) ((atoi n).2 = none) := by
      rcases atoi n with ⟨i, _ | e⟩
      · exact ActsAs.of { timeScale := some i } (fun m => by simp [SdpEff.apply]) (by intro h; injection h with _ h; cases h) rfl
      · exact ActsAs.unit (fun m => rfl) (by intro h; cases h)
    have h := a1.comp a2
    have e : (fun m => sdpSlash m f) = fun m => (fun m : Media => match atoi n with | (i, none) => { m with timeScale := i } | (_, some _) => m)
        ((fun m : Media => if toUpper k = b!"MPEG4-GENERIC" then { m with type := 97 } else if toUpper k = b!"H264" then { m with type := 96 } else m) m) := by
      funext m; unfold sdpSlash; rw [hs]; rfl
    rw [e]
    refine h.congr ?_
    constructor
    · intro h; exact ⟨k, n, rest, rfl, h⟩
    · rintro ⟨k', n', rest', h, h'⟩
      injection h with h1 h; injection h with h2 h
      subst h1; subst h2
      exact h'

theorem param_acts (f : Bytes) : ActsAs (fun m => sdpParam m f) (∃ k v, f = k ++ 61 :: v ∧ (61 : UInt8) ∉ k ∧
    trimSpace k ∈ [b!"config", b!"sizelength", b!"indexlength", b!"sprop-parameter-sets"]) := by
  cases hc : cut 61 f with
  | none =>
    refine ActsAs.unit (fun m => by unfold sdpParam splitN2; rw [hc]) ?_
    rintro ⟨k, v, h, hk, _⟩
    rw [h, cut_append _ hk] at hc; cases hc
  | some p =>
    obtain ⟨k, v⟩ := p
    obtain ⟨hf, hk⟩ := cut_some hc
    have hm : ∀ m, sdpParam m f = sdpParamKey m (trimSpace k) v := fun m => by unfold sdpParam splitN2; rw [hc]
    have hiff : (∃ k v, f = k ++ 61 :: v ∧ (61 : UInt8) ∉ k ∧ trimSpace k ∈ [b!"config", b!"sizelength", b!"indexlength", b!"sprop-parameter-sets"]) ↔
        trimSpace k ∈ [b!"config", b!"sizelength", b!"indexlength", b!"sprop-parameter-sets"] := by
      constructor
      · rintro ⟨k', v', h, hk', ht⟩
        rw [h, cut_append _ hk'] at hc
        injection hc with hc; injection hc with hc _
        subst hc; exact ht
      · intro h; exact ⟨k, v, hf, hk, h⟩
    refine ActsAs.congr ?_ hiff.symm
    have e : (fun m => sdpParam m f) = fun m => sdpParamKey m (trimSpace k) v := funext hm
    rw [e]
    generalize trimSpace k = t
    unfold sdpParamKey
    by_cases h1 : t = b!"config"
    · exact ActsAs.of { config := some (hexDecode v) } (fun m => by rw [if_pos h1]; simp [SdpEff.apply]) (by intro h; injection h with _ _ _ _ h; cases h) (by rw [h1]; simp)
    by_cases h2 : t = b!"sizelength"
    · exact ActsAs.of { sizeLength := some (atoi v).1 } (fun m => by rw [if_neg h1, if_pos h2]; simp [SdpEff.apply])
        (by intro h; injection h with _ _ _ _ _ _ h; cases h) (by rw [h2]; simp)
    by_cases h3 : t = b!"indexlength"
    · exact ActsAs.of { indexLength := some (atoi v).1 } (fun m => by rw [if_neg h1, if_neg h2, if_pos h3]; simp [SdpEff.apply])
        (by intro h; injection h with _ _ _ _ _ _ _ h; cases h) (by rw [h3]; simp)
    by_cases h4 : t = b!"sprop-parameter-sets"
    · refine ActsAs.of { sets := (split 44 v).map fun f => (b64Decode f).1 } (fun m => by rw [if_neg h1, if_neg h2, if_neg h3, if_pos h4]; simp [SdpEff.apply])
        (by intro h; injection h with _ _ _ _ _ h; exact split_ne_nil 44 v (List.map_eq_nil_iff.1 h)) (by rw [h4]; simp)
    · refine ActsAs.unit (fun m => by rw [if_neg h1, if_neg h2, if_neg h3, if_neg h4]) ?_
      intro h
      simp only [List.mem_cons, List.not_mem_nil, or_false] at h
      rcases h with h | h | h | h
      · exact h1 h
      · exact h2 h
      · exact h3 h
      · exact h4 h

theorem split_long {c : UInt8} {f : Bytes} : (split c f).length > 1 ↔ c ∈ f := by
  constructor
  · intro h
    refine Classical.byContradiction fun hc => ?_
    rw [split_none hc] at h
    simp at h
  · intro h
    cases hc : cut c f with
    | none => exact absurd h (cut_none.1 hc)
    | some p =>
      obtain ⟨a, b⟩ := p
      obtain ⟨h1, h2⟩ := cut_some hc
      rw [h1, split_append _ h2]
      have := List.length_pos_iff.2 (split_ne_nil c b)
      simp only [List.length_cons]
      omega

theorem params_acts (f : Bytes) : ActsAs (fun m => sdpParams m f) ((59 : UInt8) ∈ f ∧ ∃ p ∈ split 59 f, ∃ k v, p = k ++ 61 :: v ∧ (61 : UInt8) ∉ k ∧
    trimSpace k ∈ [b!"config", b!"sizelength", b!"indexlength", b!"sprop-parameter-sets"]) := by
  unfold sdpParams
  by_cases h : (59 : UInt8) ∈ f
  · have e : (fun m => if (split 59 f).length > 1 then (split 59 f).foldl sdpParam m else m) = fun m => (split 59 f).foldl sdpParam m := by
      funext m; rw [if_pos (split_long.2 h)]
    rw [e]
    exact (foldl_acts sdpParam _ _ fun p _ => param_acts p).congr ⟨fun h' => ⟨h, h'⟩, fun h' => h'.2⟩
  · exact ActsAs.unit (fun m => by rw [if_neg fun h' => h (split_long.1 h')]) fun h' => h h'.1

theorem field_acts (f : Bytes) : ActsAs (fun m => sdpField m f) (Informs f) := by
  refine (((colon_acts f).comp (slash_acts f)).comp (params_acts f)).congr ?_
  constructor
  · rintro (((⟨v, h⟩ | ⟨v, h⟩) | ⟨k, n, rest, h, h' | h'⟩) | ⟨h, p, hp, k, v, rfl, hk, ht⟩)
    · rw [h]; exact .control v
    · rw [h]; exact .rtpmap v
    · exact .codec k n rest f h h'
    · exact .clock k n rest f h h'
    · exact .param k v f h hp hk ht
  · intro h
    cases h with
    | control v => exact .inl (.inl (.inl ⟨v, rfl⟩))
    | rtpmap v => exact .inl (.inl (.inr ⟨v, rfl⟩))
    | codec k n rest _ h h' => exact .inl (.inr ⟨k, n, rest, h, .inl h'⟩)
    | clock k n rest _ h h' => exact .inl (.inr ⟨k, n, rest, h, .inr h'⟩)
    | param k v _ h hp hk ht => exact .inr ⟨h, _, hp, k, v, rfl, hk, ht⟩

theorem line_acts {l v : Bytes} (hl : trimSpace l = b!"a=" ++ v) : ActsAs (lineFun l) (∃ f ∈ splitN2 32 v, Informs f) := by
  have hc : cut 61 (trimSpace l) = some (b!"a", v) := by rw [hl]; exact cut_append (a := b!"a") _ (by decide)
  have e : lineFun l = fun m => (splitN2 32 v).foldl sdpField m := by
    funext m; unfold lineFun; rw [hc]; rfl
  rw [e]
  exact foldl_acts sdpField Informs _ fun f _ => field_acts f

theorem sdpLines_cat (xs ys : List Bytes) : ∀ st, sdpLines st (xs ++ ys) = (sdpLines st xs).bind fun st => sdpLines st ys := by
  induction xs with
  | nil => intro st; rfl
  | cons x xs ih =>
    intro st
    rw [List.cons_append, sdpLines, sdpLines]
    cases sdpLine st x with
    | error p => rfl
    | ok st' => exact ih st'

theorem sdpParse_unlines (ls : List Bytes) (h : ∀ l ∈ ls, (10 : UInt8) ∉ l) : sdpParse (unlines ls) = (sdpLines ⟨[], false⟩ ls).map (·.feeds) := by
  cases ls with
  | nil => rfl
  | cons l ls =>
    unfold sdpParse
    rw [unlines_join, split_join _ (by simp) h]
    cases sdpLines ⟨[], false⟩ (l :: ls) <;> rfl

theorem idle_line {l : Bytes} (hnl : (10 : UInt8) ∉ l) (h : ∀ st, sdpLine st l = .ok st) : NoDifference sdpParse l := by
  intro before after hl
  rw [sdpParse_unlines _ fun x hx => ?_, sdpParse_unlines _ hl, sdpLines_cat, sdpLines_cat]
  · cases sdpLines ⟨[], false⟩ before with
    | error p => rfl
    | ok st =>
      show ((sdpLine st l).bind fun st => sdpLines st after).map _ = _
      rw [h]
  · rcases List.mem_append.1 hx with hx | hx
    · exact hl _ (List.mem_append_left _ hx)
    · rcases List.mem_cons.1 hx with rfl | hx
      · exact hnl
      · exact hl _ (List.mem_append_right _ hx)

theorem lineFun_type {l : Bytes} (ha : isALine l = false) (m : Media) : lineFun l m = m := by
  unfold lineFun
  cases hc : cut 61 (trimSpace l) with
  | none => rfl
  | some p =>
    obtain ⟨k, v⟩ := p
    dsimp only
    by_cases hk : k = b!"a"
    · obtain ⟨h1, _⟩ := cut_some hc
      unfold isALine at ha
      rw [h1, hk] at ha
      exact absurd ha (by simp [List.isPrefixOf])
    · rw [if_neg hk]

/-- C131: a line of any other type than `m=` and `a=`, and what is no line of a description at all, makes no difference wherever it is. -/
theorem C131_types (l : Bytes) (hnl : (10 : UInt8) ∉ l) (hm : isMLine l = false) (ha : isALine l = false) : NoDifference sdpParse l := by
  refine idle_line hnl fun st => ?_
  rw [sdpLine_other st l hm, modifyLast_id _ (lineFun_type ha)]
  split <;> rfl

theorem aLine_not_m {l v : Bytes} (hl : trimSpace l = b!"a=" ++ v) : isMLine l = false := by
  unfold isMLine; rw [hl]; rfl

/-- Two descriptions in which everything is told differently. -/
def toldA : List Bytes := [b!"m=video 0 RTP/AVP 96", b!"a=rtpmap:1 H264/1", b!"a=control:1", b!"a=fmtp:1 config=01;sizelength=1;indexlength=1"]
def toldB : List Bytes := [b!"m=video 0 RTP/AVP 96", b!"a=rtpmap:2 MPEG4-GENERIC/2", b!"a=control:2", b!"a=fmtp:1 config=02;sizelength=2;indexlength=2"]

def mediaA : Media := { type := 96, timeScale := 1, control := b!"1", rtpmap := 1, config := [1], payloadType := 96, sizeLength := 1, indexLength := 1 }
def mediaB : Media := { type := 97, timeScale := 2, control := b!"2", rtpmap := 2, config := [2], payloadType := 96, sizeLength := 2, indexLength := 2 }

theorem toldA_lines : sdpLines ⟨[], false⟩ toldA = .ok ⟨[mediaA], true⟩ := rfl
theorem toldB_lines : sdpLines ⟨[], false⟩ toldB = .ok ⟨[mediaB], true⟩ := rfl

theorem getD_two {α} {o : Option α} {x y : α} (hx : o.getD x = x) (hy : o.getD y = y) (h : x ≠ y) : o = none := by
  cases o with
  | none => rfl
  | some a => exact absurd (hx.symm.trans hy) h

/-- C131, exactly: an attribute makes no difference wherever it is put if and only if neither the word before its first space nor the rest tells anything. -/
theorem C131_iff (l v : Bytes) (hnl : (10 : UInt8) ∉ l) (hl : trimSpace l = b!"a=" ++ v) :
    NoDifference sdpParse l ↔ ∀ f ∈ splitN2 32 v, ¬ Informs f := by
  obtain ⟨e, h1, h2⟩ := line_acts hl
  constructor
  · intro h
    have told : ∀ ls m, (∀ x ∈ ls, (10 : UInt8) ∉ x) → sdpLines ⟨[], false⟩ ls = .ok ⟨[m], true⟩ → e.apply m = m := by
      intro ls m hls hm
      have := h ls [] (by rw [List.append_nil]; exact hls)
      rw [List.append_nil, sdpParse_unlines _ fun x hx => ?_, sdpParse_unlines _ hls, sdpLines_cat, hm] at this
      · change ((sdpLine ⟨[m], true⟩ l).bind fun st => sdpLines st []).map _ = _ at this
        rw [sdpLine_other _ l (aLine_not_m hl)] at this
        injection this with this
        change modifyLast (lineFun l) [m] = [m] at this
        rw [modifyLast] at this
        injection this with this
        rw [← h1]; exact this
      · rcases List.mem_append.1 hx with hx | hx
        · exact hls _ hx
        · rcases List.mem_cons.1 hx with rfl | hx
          · exact hnl
          · cases hx
    have hA := told toldA mediaA (by decide) toldA_lines
    have hB := told toldB mediaB (by decide) toldB_lines
    have he : e = {} := by
      obtain ⟨a1, a2, a3, a4, a5, a6, a7, a8⟩ := e
      unfold SdpEff.apply at hA hB
      injection hA with p1 p2 p3 p4 p5 p6 p7 p8 p9
      injection hB with q1 q2 q3 q4 q5 q6 q7 q8 q9
      have r1 : a1 = none := getD_two p1 q1 (by decide)
      have r2 : a2 = none := getD_two p2 q2 (by decide)
      have r3 : a3 = none := getD_two p3 q3 (by decide)
      have r4 : a4 = none := getD_two p4 q4 (by decide)
      have r5 : a5 = none := getD_two p5 q5 (by decide)
      have r6 : a6 = [] := p6
      have r8 : a7 = none := getD_two p8 q8 (by decide)
      have r9 : a8 = none := getD_two p9 q9 (by decide)
      rw [r1, r2, r3, r4, r5, r6, r8, r9]
    intro f hf hi
    exact h2.1 he ⟨f, hf, hi⟩
  · intro h
    have he : e = {} := h2.2 (by rintro ⟨f, hf, hi⟩; exact h f hf hi)
    refine idle_line hnl fun st => ?_
    rw [sdpLine_other st l (aLine_not_m hl), modifyLast_id _ fun m => by rw [h1, he, SdpEff.unit_apply]]
    split <;> rfl

/-- C131: so an attribute that is neither `control` nor `rtpmap` makes no difference if there is no slash, no semicolon and no space in it. -/
theorem C131_attribute_partial (l v : Bytes) (hnl : (10 : UInt8) ∉ l) (hl : trimSpace l = b!"a=" ++ v)
    (hc : ¬ b!"control:" <+: v) (hr : ¬ b!"rtpmap:" <+: v) (hv : ∀ c ∈ v, c ≠ 47 ∧ c ≠ 59 ∧ c ≠ 32) : NoDifference sdpParse l := by
  rw [C131_iff l v hnl hl, splitN2_none fun h => (hv _ h).2.2 rfl]
  have h47 : split 47 v = [v] := split_none fun h => (hv _ h).1 rfl
  intro f hf hi
  rw [List.mem_singleton] at hf
  subst hf
  cases hi with
  | control w => exact hc ⟨w, rfl⟩
  | rtpmap w => exact hr ⟨w, rfl⟩
  | codec k n rest _ h _ => rw [h47] at h; cases h
  | clock k n rest _ h _ => rw [h47] at h; cases h
  | param k w _ h _ _ _ => exact (hv _ h).2.1 rfl

/-- C131: a session takes an answer to DESCRIBE in the same way with such a line as without it. -/
theorem C131_session (w : World) (s : Sess) (rsp : Response) (l : Bytes) (h : NoDifference sdpParse l) (before after : List Bytes)
    (hl : ∀ x ∈ before ++ after, (10 : UInt8) ∉ x) : handleRtsp w s { rsp with body := some (unlines (before ++ l :: after)) } =
      handleRtsp w s { rsp with body := some (unlines (before ++ after)) } := by
  have hp : ∀ proto, parseFeeds proto (unlines (before ++ l :: after)) = parseFeeds proto (unlines (before ++ after)) := fun proto => by
    unfold parseFeeds; rw [h before after hl]
  have hs : ∀ done fs t, setupAnswer w { rsp with body := some (unlines (before ++ l :: after)) } done fs t =
      setupAnswer w { rsp with body := some (unlines (before ++ after)) } done fs t := by
    intro done fs
    induction fs generalizing done with
    | nil => intro t; rfl
    | cons f fs ih =>
      intro t
      rw [setupAnswer, setupAnswer]
      simp only [ih]
  unfold handleRtsp answer handleSetup
  simp only [hp, hs]

/-- C131 fails for attributes that are not used: the frame rate, given as a fraction, replaces the clock rate, and a remark with a word like an address
replaces the address. -/
theorem C131_refuted :
    sdpParse (unlines [b!"m=video 0 RTP/AVP 96", b!"a=rtpmap:96 H264/90000", b!"a=framerate:30000/1001"]) =
      .ok [{ payloadType := 96, type := 96, timeScale := 1001, rtpmap := 96 }] ∧
    sdpParse (unlines [b!"m=video 0 RTP/AVP 96", b!"a=rtpmap:96 H264/90000"]) = .ok [{ payloadType := 96, type := 96, timeScale := 90000, rtpmap := 96 }] ∧
    ¬ NoDifference sdpParse b!"a=framerate:30000/1001" ∧ ¬ NoDifference sdpParse b!"a=note:no control:1" := by
  refine ⟨rfl, rfl, fun h => ?_, fun h => ?_⟩
  · exact (C131_iff b!"a=framerate:30000/1001" b!"framerate:30000/1001" (by decide) (by decide)).1 h b!"framerate:30000/1001" (by decide)
      (.clock b!"framerate:30000" b!"1001" [] _ (by decide) (by decide))
  · exact (C131_iff b!"a=note:no control:1" b!"note:no control:1" (by decide) (by decide)).1 h b!"control:1" (by decide) (.control b!"1")

example : NoDifference sdpParse b!"s=Media Presentation" ∧ NoDifference sdpParse b!"c=IN IP4 0.0.0.0" ∧ NoDifference sdpParse b!"a=recvonly" ∧
    NoDifference sdpParse b!"a=range:npt=0-" ∧ NoDifference sdpParse [13] :=
  ⟨C131_types _ (by decide) (by decide) (by decide), C131_types _ (by decide) (by decide) (by decide),
    C131_attribute_partial _ b!"recvonly" (by decide) (by decide) (by decide) (by decide) (by decide),
    C131_attribute_partial _ b!"range:npt=0-" (by decide) (by decide) (by decide) (by decide) (by decide), C131_types _ (by decide) (by decide) (by decide)⟩

end Ouro
