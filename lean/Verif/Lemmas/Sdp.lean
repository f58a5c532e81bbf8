import Verif.Model.Sdp
import Verif.Spec.Sdp
import Verif.Lemmas.Strings
import Verif.Lemmas.Rtp
import Verif.Lemmas.Nal2
/-! # Lemmas about `sdp.Parse` -/
namespace Ouro
open Spec

/-- The effect of a line that is no `m=` line on the current media. -/
def lineFun (line : Bytes) (m : Media) : Media :=
  match cut 61 (trimSpace line) with
  | some (key, val) => if key = b!"a" then (splitN2 32 val).foldl sdpField m else m
  | none => m

/-- The media an `m=video` line starts with. -/
def lineMedia (line : Bytes) : Media :=
  { payloadType := match cut 61 (trimSpace line) with
      | some (_, val) => match cut 32 val with
        | some (_, f1) => match (split 32 f1)[2]? with
          | some f => (atoi f).1
          | none => 0
        | none => 0
      | none => 0 }

theorem modifyLast_append (f : Media → Media) (fs : List Media) (m : Media) : modifyLast f (fs ++ [m]) = fs ++ [f m] := by
  induction fs with
  | nil => rfl
  | cons x xs ih =>
    cases hx : xs ++ [m] with
    | nil => simp at hx
    | cons y ys => rw [List.cons_append, hx, modifyLast, ← hx, ih, List.cons_append]

theorem modifyLast_id (f : Media → Media) (hf : ∀ m, f m = m) (fs : List Media) : modifyLast f fs = fs := by
  fun_induction modifyLast f fs with
  | case1 => rfl
  | case2 m => rw [hf]
  | case3 m n t ih => rw [ih]

theorem isMLine_iff (l : Bytes) : isMLine l = true ↔ ∃ val, cut 61 (trimSpace l) = some (b!"m", val) := by
  unfold isMLine
  rw [List.isPrefixOf_iff_prefix]
  constructor
  · rintro ⟨t, ht⟩
    exact ⟨t, by rw [← ht]; exact cut_append (a := b!"m") t (by decide)⟩
  · rintro ⟨val, h⟩
    obtain ⟨h1, _⟩ := cut_some h
    exact ⟨val, by rw [h1]; rfl⟩

theorem isVideoLine_iff (l : Bytes) : isVideoLine l = true ↔
    ∃ val rest, cut 61 (trimSpace l) = some (b!"m", val) ∧ cut 32 val = some (b!"video", rest) := by
  unfold isVideoLine
  rw [List.isPrefixOf_iff_prefix]
  constructor
  · rintro ⟨t, ht⟩
    refine ⟨b!"video" ++ 32 :: t, t, ?_, cut_append (a := b!"video") t (by decide)⟩
    rw [← ht]; exact cut_append (a := b!"m") (b!"video" ++ 32 :: t) (by decide)
  · rintro ⟨val, rest, h, h'⟩
    obtain ⟨h1, _⟩ := cut_some h
    obtain ⟨h2, _⟩ := cut_some h'
    exact ⟨rest, by rw [h1, h2]; rfl⟩

theorem isVideoLine_isMLine {l : Bytes} (h : isVideoLine l = true) : isMLine l = true := by
  obtain ⟨val, rest, h, _⟩ := (isVideoLine_iff l).1 h
  exact (isMLine_iff l).2 ⟨val, h⟩

theorem sdpLine_other (st : SdpState) (l : Bytes) (h : isMLine l = false) :
    sdpLine st l = .ok ⟨if st.active then modifyLast (lineFun l) st.feeds else st.feeds, st.active⟩ := by
  have hn : ¬ ∃ val, cut 61 (trimSpace l) = some (b!"m", val) := by rw [← isMLine_iff, h]; decide
  unfold sdpLine splitN2
  have hlf : ∀ fs, cut 61 (trimSpace l) = none → modifyLast (lineFun l) fs = fs :=
    fun fs hc => modifyLast_id _ (fun m => by unfold lineFun; rw [hc]) fs
  cases hc : cut 61 (trimSpace l) with
  | none =>
    dsimp only
    rw [hlf _ hc]
    split <;> rfl
  | some p =>
    obtain ⟨key, val⟩ := p
    dsimp only
    have hm : key ≠ b!"m" := by rintro rfl; exact hn ⟨val, hc⟩
    rw [if_neg hm]
    by_cases ha : key = b!"a"
    · rw [if_pos ha]
      have : lineFun l = fun m => (splitN2 32 val).foldl sdpField m := by
        funext m; unfold lineFun; rw [hc]; dsimp only; rw [if_pos ha]
      rw [this]
      obtain ⟨fs, a⟩ := st
      cases a <;> rfl
    · rw [if_neg ha]
      have : modifyLast (lineFun l) st.feeds = st.feeds :=
        modifyLast_id _ (fun m => by unfold lineFun; rw [hc]; dsimp only; rw [if_neg ha]) _
      rw [this]
      split <;> rfl

theorem sdpLine_video (st : SdpState) (l : Bytes) (h : isVideoLine l = true) :
    sdpLine st l = .ok ⟨st.feeds ++ [lineMedia l], true⟩ := by
  obtain ⟨val, rest, h1, h2⟩ := (isVideoLine_iff l).1 h
  unfold sdpLine lineMedia
  rw [splitN2, h1]
  dsimp only
  rw [if_pos rfl, splitN2, h2]
  dsimp only
  unfold sdpMedia
  simp only [idx, List.getElem?_cons_zero, List.getElem?_cons_succ, go_ok_bind, if_true]
  by_cases h3 : (split 32 rest).length ≥ 3
  · rw [if_pos h3]
    rw [List.getElem?_eq_getElem (by omega)]
    rfl
  · rw [if_neg h3, List.getElem?_eq_none (by omega)]
    rfl

theorem sdpLine_media (st : SdpState) (l : Bytes) (h : isMLine l = true) (hv : isVideoLine l = false)
    (hb : trimSpace l ≠ b!"m=video") : sdpLine st l = .ok ⟨st.feeds, false⟩ := by
  obtain ⟨val, h1⟩ := (isMLine_iff l).1 h
  have hn : ¬ ∃ val rest, cut 61 (trimSpace l) = some (b!"m", val) ∧ cut 32 val = some (b!"video", rest) := by
    rw [← isVideoLine_iff, hv]; decide
  obtain ⟨e1, _⟩ := cut_some h1
  unfold sdpLine
  rw [splitN2, h1]
  dsimp only
  rw [if_pos rfl, splitN2]
  cases hc : cut 32 val with
  | none =>
    dsimp only
    have : val ≠ b!"video" := by rintro rfl; exact hb (by rw [e1]; rfl)
    unfold sdpMedia
    simp only [idx, List.getElem?_cons_zero, go_ok_bind]
    rw [if_neg this]; rfl
  | some p =>
    obtain ⟨f0, f1⟩ := p
    dsimp only
    have : f0 ≠ b!"video" := by rintro rfl; exact hn ⟨val, f1, h1, hc⟩
    unfold sdpMedia
    simp only [idx, List.getElem?_cons_zero, go_ok_bind]
    rw [if_neg this]; rfl

theorem sdpLine_bare (st : SdpState) (l : Bytes) (hb : trimSpace l = b!"m=video") : sdpLine st l = .error .index := by
  unfold sdpLine
  rw [hb]; rfl

theorem bare_mLine {l : Bytes} (hb : trimSpace l = b!"m=video") : isMLine l = true ∧ isVideoLine l = false := by
  unfold isMLine isVideoLine
  rw [hb]; decide

/-- The media of a section. -/
def secMedia : List Bytes → Media
  | [] => {}
  | l :: ls => ls.foldl (fun m x => lineFun x m) (lineMedia l)

theorem videoSections_cons (l : Bytes) (ls : List Bytes) : videoSections (l :: ls) =
    if isVideoLine l then (l :: ls.takeWhile (fun x => !isMLine x)) :: videoSections ls else videoSections ls := by
  unfold videoSections
  by_cases hm : isMLine l = true
  · simp only [sections, hm, if_true, List.filter_cons]
  · have hv : isVideoLine l = false := by
      cases h : isVideoLine l with
      | false => rfl
      | true => exact absurd (isVideoLine_isMLine h) hm
    simp only [Bool.not_eq_true] at hm
    simp [sections, hm, hv]

theorem sdpLines_ok (lines : List Bytes) (hb : ∀ l ∈ lines, trimSpace l ≠ b!"m=video") : ∀ fs : List Media,
    (∃ a, sdpLines ⟨fs, false⟩ lines = .ok ⟨fs ++ (videoSections lines).map secMedia, a⟩) ∧
    (∀ m, ∃ a, sdpLines ⟨fs ++ [m], true⟩ lines =
      .ok ⟨fs ++ [(lines.takeWhile (fun x => !isMLine x)).foldl (fun m x => lineFun x m) m] ++
        (videoSections lines).map secMedia, a⟩) := by
  induction lines with
  | nil => intro fs; exact ⟨⟨false, by simp [sdpLines, videoSections, sections]; rfl⟩, fun m => ⟨true, by simp [sdpLines, videoSections, sections]; rfl⟩⟩
  | cons l ls ih =>
    intro fs
    have ih := ih (fun x hx => hb x (by simp [hx]))
    cases hm : isMLine l with
    | false =>
      have hv : isVideoLine l = false := by
        cases h : isVideoLine l with
        | false => rfl
        | true => rw [isVideoLine_isMLine h] at hm; cases hm
      rw [videoSections_cons, hv]
      simp only [Bool.false_eq_true, if_false]
      refine ⟨?_, fun m => ?_⟩
      · obtain ⟨a, h⟩ := (ih fs).1
        refine ⟨a, ?_⟩
        rw [sdpLines, sdpLine_other _ _ hm, go_ok_bind]
        exact h
      · obtain ⟨a, h⟩ := (ih fs).2 (lineFun l m)
        refine ⟨a, ?_⟩
        rw [sdpLines, sdpLine_other _ _ hm, go_ok_bind]
        simp only [if_true, modifyLast_append, List.takeWhile_cons, hm, Bool.not_false, List.foldl_cons]
        exact h
    | true =>
      have htw : (l :: ls).takeWhile (fun x => !isMLine x) = [] := by simp [hm]
      rw [htw]
      cases hv : isVideoLine l with
      | true =>
        rw [videoSections_cons, hv]
        simp only [if_true, List.map_cons, List.foldl_nil]
        refine ⟨?_, fun m => ?_⟩
        · obtain ⟨a, h⟩ := (ih fs).2 (lineMedia l)
          refine ⟨a, ?_⟩
          rw [sdpLines, sdpLine_video _ _ hv, go_ok_bind, h]
          simp [secMedia]
        · obtain ⟨a, h⟩ := (ih (fs ++ [m])).2 (lineMedia l)
          refine ⟨a, ?_⟩
          rw [sdpLines, sdpLine_video _ _ hv, go_ok_bind, h]
          simp [secMedia]
      | false =>
        rw [videoSections_cons, hv]
        simp only [Bool.false_eq_true, if_false, List.foldl_nil]
        refine ⟨?_, fun m => ?_⟩
        · obtain ⟨a, h⟩ := (ih fs).1
          refine ⟨a, ?_⟩
          rw [sdpLines, sdpLine_media _ _ hm hv (hb l (by simp)), go_ok_bind]
          exact h
        · obtain ⟨a, h⟩ := (ih (fs ++ [m])).1
          refine ⟨a, ?_⟩
          rw [sdpLines, sdpLine_media _ _ hm hv (hb l (by simp)), go_ok_bind]
          exact h

theorem sdpLines_bare (lines : List Bytes) (hb : ∃ l ∈ lines, trimSpace l = b!"m=video") : ∀ st, Panics (sdpLines st lines) := by
  induction lines with
  | nil => obtain ⟨l, hl, _⟩ := hb; simp at hl
  | cons l ls ih =>
    intro st
    rw [sdpLines]
    by_cases h : trimSpace l = b!"m=video"
    · rw [sdpLine_bare _ _ h]; exact ⟨_, rfl⟩
    · obtain ⟨x, hx, hb⟩ := hb
      have hx : x ∈ ls := by
        rcases List.mem_cons.1 hx with rfl | hx
        · exact absurd hb h
        · exact hx
      rcases panics_or_ok (sdpLine st l) with ⟨p, hp⟩ | ⟨st', hs⟩
      · rw [hp]; exact ⟨_, rfl⟩
      · rw [hs, go_ok_bind]
        exact ih ⟨x, hx, hb⟩ st'

theorem sdpParse_ok (buf : Bytes) (hb : ∀ l ∈ split 10 buf, trimSpace l ≠ b!"m=video") :
    sdpParse buf = .ok ((videoSections (split 10 buf)).map secMedia) := by
  obtain ⟨a, h⟩ := (sdpLines_ok _ hb []).1
  unfold sdpParse
  rw [h]; rfl

theorem unlines_join (ls : List Bytes) : unlines ls = joinSep 10 ls := by
  fun_induction unlines ls with
  | case1 => rfl
  | case2 l => rfl
  | case3 l ls h ih =>
    cases ls with
    | nil => exact absurd rfl h
    | cons x xs => rw [ih]; rfl

theorem sections_section (l : Bytes) (ls : List Bytes) (hv : isVideoLine l = true) (hn : ∀ x ∈ ls, isMLine x = false) :
    videoSections (l :: ls) = [l :: ls] := by
  have hs : videoSections ls = [] := by
    induction ls with
    | nil => rfl
    | cons y ys ih =>
      have hy := hn y (by simp)
      have : isVideoLine y = false := by
        cases h : isVideoLine y with
        | false => rfl
        | true => rw [isVideoLine_isMLine h] at hy; cases hy
      rw [videoSections_cons, this]
      simp only [Bool.false_eq_true, if_false]
      exact ih fun x hx => hn x (by simp [hx])
  rw [videoSections_cons, hv, hs, if_pos rfl]
  congr 2
  clear hs
  induction ls with
  | nil => rfl
  | cons y ys ih => rw [List.takeWhile_cons, hn y (by simp), Bool.not_false, if_pos rfl, ih fun x hx => hn x (by simp [hx])]

/-- Every video section starts with a video line, followed by lines of the document that are no `m=` lines. -/
theorem videoSections_mem (lines sec : List Bytes) (h : sec ∈ videoSections lines) :
    ∃ l ls, sec = l :: ls ∧ isVideoLine l = true ∧ (∀ x ∈ ls, isMLine x = false) ∧ l ∈ lines ∧ ∀ x ∈ ls, x ∈ lines := by
  induction lines with
  | nil => simp [videoSections, sections] at h
  | cons l ls ih =>
    rw [videoSections_cons] at h
    have aux : sec ∈ videoSections ls → ∃ l' ls', sec = l' :: ls' ∧ isVideoLine l' = true ∧ (∀ x ∈ ls', isMLine x = false) ∧
        l' ∈ l :: ls ∧ ∀ x ∈ ls', x ∈ l :: ls := by
      intro h
      obtain ⟨a, b, h1, h2, h3, h4, h5⟩ := ih h
      exact ⟨a, b, h1, h2, h3, by simp [h4], fun x hx => by simp [h5 x hx]⟩
    by_cases hv : isVideoLine l = true
    · rw [if_pos hv] at h
      rcases List.mem_cons.1 h with rfl | h
      · refine ⟨l, _, rfl, hv, ?_, by simp, ?_⟩
        · intro x hx
          have := List.all_takeWhile (p := fun x => !isMLine x) (l := ls)
          rw [List.all_eq_true] at this
          have := this x hx
          simpa using this
        · intro x hx
          exact List.mem_cons_of_mem _ ((List.takeWhile_sublist _).subset hx)
      · exact aux h
    · rw [if_neg hv] at h; exact aux h

theorem isVideo_not_bare {l : Bytes} (h : isVideoLine l = true) : trimSpace l ≠ b!"m=video" := by
  intro hb
  rw [(bare_mLine hb).2] at h; cases h

theorem sdpParse_section (l : Bytes) (ls : List Bytes) (hv : isVideoLine l = true) (hn : ∀ x ∈ ls, isMLine x = false)
    (hnl : ∀ x ∈ l :: ls, (10 : UInt8) ∉ x) : sdpParse (unlines (l :: ls)) = .ok [secMedia (l :: ls)] := by
  have hs : split 10 (unlines (l :: ls)) = l :: ls := by rw [unlines_join]; exact split_join _ (by simp) hnl
  rw [sdpParse_ok, hs, sections_section l ls hv hn]
  · rfl
  · rw [hs]
    intro x hx
    rcases List.mem_cons.1 hx with rfl | hx
    · exact isVideo_not_bare hv
    · intro hb
      have := (bare_mLine hb).1
      rw [hn x hx] at this; cases this

end Ouro

namespace Ouro
open Spec

theorem digits_not_mem (n : Nat) (c : UInt8) (h : isDigit c = false) : c ∉ natDigits n := by
  intro hm; rw [natDigits_digit n c hm] at h; cases h

set_option maxRecDepth 100000 in
theorem digit_plain : ∀ c : UInt8, isDigit c = true → plain c = true := forall_u8 (by decide)

/-- Effect of a parameter list on the media. -/
def paramsFun (ps : List (Bytes × Bytes)) (m : Media) : Media := ps.foldl (fun m p => sdpParamKey m p.1 p.2) m

/-- Effect of a well-formed attribute line. -/
def attrFun : Attr → Media → Media
  | .rtpmap pt clock, m => { m with rtpmap := pt, type := 96, timeScale := clock }
  | .control url, m => { m with control := url }
  | .fmtp _ ps, m => paramsFun ps m

theorem lineFun_attr {val : Bytes} {line : Bytes} (hl : line = b!"a=" ++ val) (ht : Trimmed line) (m : Media) :
    lineFun line m = (splitN2 32 val).foldl sdpField m := by
  unfold lineFun
  rw [trimSpace_id ht, hl]
  rw [show cut 61 (b!"a=" ++ val) = some (b!"a", val) from cut_append (a := b!"a") val (by decide)]
  rfl

theorem sdpSlash_none (m : Media) {f : Bytes} (h : (47 : UInt8) ∉ f) : sdpSlash m f = m := by
  unfold sdpSlash; rw [split_none h]

theorem sdpParams_none (m : Media) {f : Bytes} (h : (59 : UInt8) ∉ f) : sdpParams m f = m := by
  unfold sdpParams; rw [split_none h]; rfl

theorem sdpColon_none (m : Media) {f : Bytes} (h : (58 : UInt8) ∉ f) : sdpColon m f = m := by
  unfold sdpColon; rw [splitN2_none h]

theorem sdpColon_key (m : Media) {k : Bytes} (v : Bytes) (h : (58 : UInt8) ∉ k) : sdpColon m (k ++ 58 :: v) = sdpColonKey m k v := by
  unfold sdpColon; rw [splitN2_append v h]

theorem trimmed_of {s : Bytes} (a : UInt8) (t u : Bytes) (z : UInt8) (h1 : s = a :: t) (ha : plain a = true) (h2 : s = u ++ [z])
    (hz : plain z = true) : Trimmed s := .inr ⟨⟨a, t, h1, ha⟩, ⟨u, z, h2, hz⟩⟩

theorem exists_last {s : Bytes} (h : s ≠ []) : ∃ u z, s = u ++ [z] ∧ z ∈ s :=
  ⟨s.dropLast, s.getLast h, (List.dropLast_concat_getLast h).symm, List.getLast_mem h⟩

theorem lineFun_rtpmap {pt clock : Nat} (h1 : pt < 2 ^ 63) (h2 : clock < 2 ^ 63) (m : Media) :
    lineFun (Attr.rtpmap pt clock).line m = attrFun (.rtpmap pt clock) m := by
  have hl : (Attr.rtpmap pt clock).line = b!"a=" ++ ((b!"rtpmap:" ++ natDigits pt) ++ 32 :: (b!"H264" ++ 47 :: natDigits clock)) := by
    simp [Attr.line]
  obtain ⟨u, z, hu, hz⟩ := exists_last (natDigits_ne_nil clock)
  rw [lineFun_attr hl]
  · rw [splitN2_append]
    · simp only [List.foldl_cons, List.foldl_nil]
      have e1 : sdpField m (b!"rtpmap:" ++ natDigits pt) = { m with rtpmap := pt } := by
        unfold sdpField
        rw [sdpSlash_none, sdpParams_none]
        · have : (b!"rtpmap:" ++ natDigits pt) = b!"rtpmap" ++ 58 :: natDigits pt := rfl
          rw [this, sdpColon_key _ _ (by decide)]
          unfold sdpColonKey
          rw [if_neg (by decide), if_pos rfl, atoi_natDigits _ h1]
        · rw [List.mem_append]; rintro (h | h); exact absurd h (by decide); exact digits_not_mem _ _ rfl h
        · rw [List.mem_append]; rintro (h | h); exact absurd h (by decide); exact digits_not_mem _ _ rfl h
      rw [e1]
      unfold sdpField
      rw [sdpColon_none, sdpParams_none]
      · unfold sdpSlash
        rw [split_append _ (by decide), split_none (digits_not_mem _ _ rfl)]
        dsimp only
        rw [atoi_natDigits _ h2, show toUpper b!"H264" = b!"H264" by rfl, if_neg (by decide), if_pos rfl]
        rfl
      · rw [List.mem_append]; rintro (h | h); exact absurd h (by decide)
        rcases List.mem_cons.1 h with h | h; exact absurd h (by decide); exact digits_not_mem _ _ rfl h
      · rw [List.mem_append]; rintro (h | h); exact absurd h (by decide)
        rcases List.mem_cons.1 h with h | h; exact absurd h (by decide); exact digits_not_mem _ _ rfl h
    · rw [List.mem_append]; rintro (h | h); exact absurd h (by decide); exact digits_not_mem _ _ rfl h
  · exact trimmed_of 97 _ (b!"a=rtpmap:" ++ natDigits pt ++ b!" H264/" ++ u) z rfl (by decide)
      (by simp [Attr.line, hu]) (digit_plain _ (natDigits_digit _ _ hz))

/-- A field whose text before the first slash is not a codec name, and without a number after it. -/
theorem sdpSlash_noClock (m : Media) {f : Bytes} (hn : NoClock f)
    (hk : ∀ k t, split 47 f = k :: t → toUpper k ≠ b!"MPEG4-GENERIC" ∧ toUpper k ≠ b!"H264") : sdpSlash m f = m := by
  unfold sdpSlash NoClock at *
  cases hs : split 47 f with
  | nil => rfl
  | cons k t =>
    cases t with
    | nil => rfl
    | cons k1 t =>
      have hn' := hn k1 (by rw [hs]; rfl)
      obtain ⟨h1, h2⟩ := hk k _ hs
      dsimp only
      rw [if_neg h1, if_neg h2]
      cases ha : atoi k1 with
      | mk i e =>
        cases e with
        | none => rw [ha] at hn'; exact absurd rfl hn'
        | some e => rfl

theorem graphic_plain {c : UInt8} (h : graphic c = true) : plain c = true := h

set_option maxRecDepth 100000 in
theorem plain_lt : ∀ c : UInt8, plain c = true → c < 128 := forall_u8 (by decide)

theorem split_head {c : UInt8} {s k : Bytes} {t : List Bytes} (h : split c s = k :: t) : ∃ r, s = k ++ r ∧ (r = [] ∨ ∃ r', r = c :: r') := by
  by_cases hm : c ∈ s
  · cases hc : cut c s with
    | none => exact absurd hm (cut_none.1 hc)
    | some p =>
      obtain ⟨a, b⟩ := p
      obtain ⟨e, hn⟩ := cut_some hc
      rw [e, split_append _ hn] at h
      injection h with h _
      exact ⟨c :: b, by rw [e, h], .inr ⟨b, rfl⟩⟩
  · rw [split_none hm] at h
    injection h with h _
    exact ⟨[], by simp [h], .inl rfl⟩

theorem lineFun_control {url : Bytes} (h : (Attr.control url).WF) (m : Media) :
    lineFun (Attr.control url).line m = attrFun (.control url) m := by
  obtain ⟨hg, hn⟩ := h
  have hl : (Attr.control url).line = b!"a=" ++ (b!"control:" ++ url) := by simp [Attr.line]
  have hp : ∀ c ∈ (b!"control:" ++ url : Bytes), plain c = true := by
    intro c hc
    rcases List.mem_append.1 hc with h | h
    · exact (by decide : ∀ c ∈ b!"control:", plain c = true) c h
    · exact (hg c h).1
  rw [lineFun_attr hl]
  · rw [splitN2_none]
    · simp only [List.foldl_cons, List.foldl_nil]
      unfold sdpField
      rw [sdpSlash_noClock _ hn, sdpParams_none]
      · exact sdpColon_key m (k := b!"control") url (by decide)
      · rw [List.mem_append]; rintro (h | h); exact absurd h (by decide); exact (hg _ h).2 rfl
      · intro k t hk
        obtain ⟨r, hr, hr'⟩ := split_head hk
        cases k with
        | nil =>
          rcases hr' with rfl | ⟨r', rfl⟩
          · cases hr
          · injection hr with h _; exact absurd h (by decide)
        | cons c k =>
          have hr0 := hr
          injection hr with h1 h2
          have ha : Ascii (c :: k) := by
            intro b hb
            refine plain_lt b (hp b ?_)
            rw [hr0]; exact List.mem_append_left _ hb
          rw [toUpper_ascii ha, ← h1]
          constructor <;> (intro h; injection h with h _; exact absurd h (by decide))
    · intro h
      exact absurd (hp _ h) (by decide)
  · obtain ⟨u, z, hu, hz⟩ := exists_last (s := b!"control:" ++ url) (by simp)
    exact trimmed_of 97 _ (b!"a=" ++ u) z rfl (by decide) (by rw [hl, hu]; simp) (hp z hz)

theorem paramText_cons2 (k v : Bytes) (p : Bytes × Bytes) (t : List (Bytes × Bytes)) :
    paramText ((k, v) :: p :: t) = k ++ 61 :: v ++ b!"; " ++ paramText (p :: t) := rfl

/-- Characters of a parameter text. -/
theorem paramText_mem (ps : List (Bytes × Bytes)) (P : UInt8 → Prop) (h61 : P 61) (h59 : P 59) (h32 : P 32)
    (h : ∀ p ∈ ps, (∀ c ∈ p.1, P c) ∧ ∀ c ∈ p.2, P c) : ∀ c ∈ paramText ps, P c := by
  fun_induction paramText ps with
  | case1 => simp
  | case2 k v =>
    intro c hc
    rcases List.mem_append.1 hc with hc | hc
    · exact (h (k, v) (by simp)).1 c hc
    · rcases List.mem_cons.1 hc with rfl | hc
      · exact h61
      · exact (h (k, v) (by simp)).2 c hc
  | case3 k v t _ ih =>
    intro c hc
    rw [List.append_assoc, List.append_assoc] at hc
    rcases List.mem_append.1 hc with hc | hc
    · exact (h (k, v) (by simp)).1 c hc
    · rw [List.cons_append] at hc
      rcases List.mem_cons.1 hc with rfl | hc
      · exact h61
      · rcases List.mem_append.1 hc with hc | hc
        · exact (h (k, v) (by simp)).2 c hc
        · rcases List.mem_append.1 hc with hc | hc
          · simp only [List.mem_cons, List.not_mem_nil, or_false] at hc
            rcases hc with rfl | rfl
            · exact h59
            · exact h32
          · exact ih (fun p hp => h p (by simp [hp])) c hc

/-- The parameter text splits at its semicolons into the parameters, all but the first with a space in front. -/
theorem split_paramText (p : Bytes × Bytes) (ps : List (Bytes × Bytes))
    (h : ∀ q ∈ p :: ps, (59 : UInt8) ∉ q.1 ∧ (59 : UInt8) ∉ q.2) : ∀ sp, (sp = [] ∨ sp = [32]) →
    split 59 (sp ++ paramText (p :: ps)) = (sp ++ p.1 ++ 61 :: p.2) :: ps.map fun q => 32 :: (q.1 ++ 61 :: q.2) := by
  induction ps generalizing p with
  | nil =>
    intro sp hsp
    obtain ⟨k, v⟩ := p
    obtain ⟨h1, h2⟩ := h _ (List.mem_cons_self)
    rw [split_none]
    · simp [paramText]
    · simp only [paramText, List.mem_append, List.mem_cons, not_or]
      exact ⟨by rcases hsp with rfl | rfl <;> decide, h1, by decide, h2⟩
  | cons q t ih =>
    intro sp hsp
    obtain ⟨k, v⟩ := p
    obtain ⟨h1, h2⟩ := h _ (List.mem_cons_self)
    rw [paramText_cons2]
    have : sp ++ (k ++ 61 :: v ++ b!"; " ++ paramText (q :: t)) = (sp ++ k ++ 61 :: v) ++ 59 :: (b!" " ++ paramText (q :: t)) := by simp
    rw [this, split_append, ih q (fun x hx => h x (by simp [hx])) b!" " (.inr rfl)]
    · rfl
    · simp only [List.mem_append, List.mem_cons, not_or]
      exact ⟨⟨by rcases hsp with rfl | rfl <;> decide, h1⟩, by decide, h2⟩

theorem sdpParam_eq (m : Media) (sp k v : Bytes) (hsp : sp = [] ∨ sp = [32]) (hne : k ≠ [])
    (hk : ∀ c ∈ k, plain c = true ∧ c ≠ 61) : sdpParam m (sp ++ k ++ 61 :: v) = sdpParamKey m k v := by
  unfold sdpParam
  rw [splitN2_append]
  · dsimp only
    obtain ⟨u, z, hu, hz⟩ := exists_last hne
    have ht : Trimmed k := by
      cases k with
      | nil => exact .inl rfl
      | cons a t => exact trimmed_of a t u z rfl (hk a (by simp)).1 hu (hk z hz).1
    have := trimSpace_around sp [] k (by rcases hsp with rfl | rfl <;> decide) (by simp) ht
    rw [List.append_nil] at this
    rw [this]
  · simp only [List.mem_append, not_or]
    exact ⟨by rcases hsp with rfl | rfl <;> decide, fun h => (hk _ h).2 rfl⟩

theorem foldl_params (ps : List (Bytes × Bytes)) (h : ∀ q ∈ ps, q.1 ≠ [] ∧ ∀ c ∈ q.1, plain c = true ∧ c ≠ 61) (m : Media) :
    (ps.map fun q => (32 : UInt8) :: (q.1 ++ 61 :: q.2)).foldl sdpParam m = paramsFun ps m := by
  induction ps generalizing m with
  | nil => rfl
  | cons q t ih =>
    obtain ⟨h1, h2⟩ := h q (by simp)
    rw [List.map_cons, List.foldl_cons, ih (fun x hx => h x (by simp [hx]))]
    have := sdpParam_eq m [32] q.1 q.2 (.inr rfl) h1 h2
    rw [show ([32] ++ q.1 ++ 61 :: q.2 : Bytes) = 32 :: (q.1 ++ 61 :: q.2) by simp] at this
    rw [this]; rfl

theorem toUpper_mem {s : Bytes} (ha : Ascii s) (h : (61 : UInt8) ∈ s) : (61 : UInt8) ∈ toUpper s := by
  rw [toUpper_ascii ha]
  exact List.mem_map.2 ⟨61, h, by decide⟩

/-- Splitting at a character that the text before the equals sign does not have keeps the equals sign in the first piece. -/
theorem head_has_eq {c : UInt8} (hc : c ≠ 61) {k r x t : Bytes} (hk : c ∉ k) (h : k ++ 61 :: r = x ++ t)
    (ht : t = [] ∨ ∃ t', t = c :: t') : (61 : UInt8) ∈ x := by
  rcases ht with rfl | ⟨t', rfl⟩
  · rw [List.append_nil] at h; rw [← h]; simp
  · rcases List.append_eq_append_iff.1 h with ⟨d, h1, h2⟩ | ⟨d, h1, h2⟩
    · cases d with
      | nil => simp at h2; exact absurd h2.1.symm hc
      | cons y ys => injection h2 with h2 _; rw [h1, ← h2]; simp
    · cases d with
      | nil => simp at h2; exact absurd h2.1 hc
      | cons y ys => injection h2 with h2 _; exact absurd (by rw [h1, ← h2]; simp) hk

theorem paramText_last (ps : List (Bytes × Bytes)) (hne : ps ≠ []) (hps : ∀ p ∈ ps, ∀ c ∈ p.2, plain c = true) :
    ∃ u z, paramText ps = u ++ [z] ∧ plain z = true := by
  fun_induction paramText ps with
  | case1 => exact absurd rfl hne
  | case2 k v =>
    obtain ⟨u, z, hu, hz⟩ := exists_last (s := 61 :: v) (by simp)
    refine ⟨k ++ u, z, by rw [hu]; simp, ?_⟩
    rcases List.mem_cons.1 hz with rfl | hz
    · decide
    · exact hps (k, v) (by simp) z hz
  | case3 k v t ht ih =>
    obtain ⟨u, z, hu, hz⟩ := ih (by intro h; exact ht h) (fun p hp => hps p (by simp [hp]))
    exact ⟨k ++ 61 :: v ++ b!"; " ++ u, z, by rw [hu]; simp, hz⟩

theorem attr_trimmed {a : Attr} (h : a.WF) : Trimmed a.line := by
  cases a with
  | rtpmap pt clock =>
    obtain ⟨u, z, hu, hz⟩ := exists_last (natDigits_ne_nil clock)
    exact trimmed_of 97 _ (b!"a=rtpmap:" ++ natDigits pt ++ b!" H264/" ++ u) z rfl (by decide)
      (by simp [Attr.line, hu]) (digit_plain _ (natDigits_digit _ _ hz))
  | control url =>
    obtain ⟨u, z, hu, hz⟩ := exists_last (s := b!":" ++ url) (by simp)
    refine trimmed_of 97 _ (b!"a=control" ++ u) z rfl (by decide) ?_ ?_
    · rw [List.append_assoc, ← hu]; simp [Attr.line]
    · rcases List.mem_append.1 hz with hz | hz
      · exact (by decide : ∀ c ∈ b!":", plain c = true) z hz
      · exact (h.1 z hz).1
  | fmtp pt ps =>
    obtain ⟨u, z, hu, hz⟩ := paramText_last ps (by have := h.1; intro e; rw [e] at this; simp at this) (fun p hp c hc => ((h.2.1 p hp).2 c hc).1)
    exact trimmed_of 97 _ (b!"a=fmtp:" ++ natDigits pt ++ 32 :: u) z rfl (by decide) (by simp [Attr.line, hu]) hz

theorem lineFun_fmtp {pt : Nat} {ps : List (Bytes × Bytes)} (h : (Attr.fmtp pt ps).WF) (m : Media) :
    lineFun (Attr.fmtp pt ps).line m = attrFun (.fmtp pt ps) m := by
  obtain ⟨hlen, hps, hn⟩ := h
  have htr := attr_trimmed (a := .fmtp pt ps) ⟨hlen, hps, hn⟩
  have hl : (Attr.fmtp pt ps).line = b!"a=" ++ ((b!"fmtp:" ++ natDigits pt) ++ 32 :: paramText ps) := by simp [Attr.line]
  have hch : ∀ c ∈ paramText ps, plain c = true ∨ c = 32 := by
    refine paramText_mem ps (fun c => plain c = true ∨ c = 32) (.inl (by decide)) (.inl (by decide)) (.inr rfl) ?_
    intro p hp
    exact ⟨fun c hc => .inl ((hps p hp).1.2 c hc).1, fun c hc => .inl ((hps p hp).2 c hc).1⟩
  have hasc : Ascii (paramText ps) := by
    intro c hc
    rcases hch c hc with h | rfl
    · exact plain_lt c h
    · decide
  match ps, hlen with
  | (k, v) :: q :: t, _ =>
  have hkv := hps (k, v) (by simp)
  have hpt : paramText ((k, v) :: q :: t) = k ++ 61 :: (v ++ b!"; " ++ paramText (q :: t)) := by
    rw [paramText_cons2]; simp
  rw [lineFun_attr hl]
  · rw [splitN2_append]
    · simp only [List.foldl_cons, List.foldl_nil]
      have e1 : sdpField m (b!"fmtp:" ++ natDigits pt) = m := by
        unfold sdpField
        rw [sdpSlash_none, sdpParams_none]
        · rw [show (b!"fmtp:" ++ natDigits pt) = b!"fmtp" ++ 58 :: natDigits pt from rfl, sdpColon_key _ _ (by decide)]
          rfl
        · rw [List.mem_append]; rintro (h | h); exact absurd h (by decide); exact digits_not_mem _ _ rfl h
        · rw [List.mem_append]; rintro (h | h); exact absurd h (by decide); exact digits_not_mem _ _ rfl h
      rw [e1]
      unfold sdpField
      have e2 : sdpColon m (paramText ((k, v) :: q :: t)) = m := by
        unfold sdpColon splitN2
        cases hc : cut 58 (paramText ((k, v) :: q :: t)) with
        | none => rfl
        | some p =>
          obtain ⟨x, y⟩ := p
          dsimp only
          obtain ⟨hx, _⟩ := cut_some hc
          have : (61 : UInt8) ∈ x := by
            rw [hpt] at hx
            exact head_has_eq (c := 58) (by decide) (fun h => (hkv.1.2 _ h).2.2.2.2 rfl) hx (.inr ⟨y, rfl⟩)
          unfold sdpColonKey
          rw [if_neg, if_neg]
          · rintro rfl; exact absurd this (by decide)
          · rintro rfl; exact absurd this (by decide)
      rw [e2, sdpSlash_noClock _ hn]
      · unfold sdpParams
        have hsp := split_paramText (k, v) (q :: t) (fun x hx => ⟨fun h => ((hps x hx).1.2 _ h).2.2.1 rfl, fun h => ((hps x hx).2 _ h).2 rfl⟩) [] (.inl rfl)
        rw [List.nil_append] at hsp
        rw [hsp, if_pos (by simp), List.foldl_cons, foldl_params]
        · have := sdpParam_eq m [] k v (.inl rfl) hkv.1.1 (fun c hc => ⟨(hkv.1.2 c hc).1, (hkv.1.2 c hc).2.1⟩)
          dsimp only
          rw [this]; rfl
        · intro x hx
          have := (hps x (by simp only [List.mem_cons] at hx ⊢; exact .inr hx)).1
          exact ⟨this.1, fun c hc => ⟨(this.2 c hc).1, (this.2 c hc).2.1⟩⟩
      · intro x t' hx
        obtain ⟨r, hr, hr'⟩ := split_head hx
        have hm : (61 : UInt8) ∈ x := by
          rw [hpt] at hr
          exact head_has_eq (c := 47) (by decide) (fun h => (hkv.1.2 _ h).2.2.2.1 rfl) hr hr'
        have hm := toUpper_mem (s := x) (fun b hb => hasc b (by rw [hr]; exact List.mem_append_left _ hb)) hm
        constructor
        · intro h; rw [h] at hm; exact absurd hm (by decide)
        · intro h; rw [h] at hm; exact absurd hm (by decide)
    · rw [List.mem_append]; rintro (h | h); exact absurd h (by decide); exact digits_not_mem _ _ rfl h
  · exact htr

theorem lineFun_wf {a : Attr} (h : a.WF) (m : Media) : lineFun a.line m = attrFun a m := by
  cases a with
  | rtpmap pt clock => exact lineFun_rtpmap h.1 h.2 m
  | control url => exact lineFun_control h m
  | fmtp pt ps => exact lineFun_fmtp h m

theorem plain_append {s t : Bytes} (hs : ∀ c ∈ s, plain c = true ∨ c = 32) (ht : ∀ c ∈ t, plain c = true ∨ c = 32) :
    ∀ c ∈ s ++ t, plain c = true ∨ c = 32 := fun c hc => (List.mem_append.1 hc).elim (hs c) (ht c)

theorem digits_plain (n : Nat) : ∀ c ∈ natDigits n, plain c = true ∨ c = 32 :=
  fun c hc => .inl (digit_plain c (natDigits_digit n c hc))

theorem attr_chars {a : Attr} (h : a.WF) : ∀ c ∈ a.line, plain c = true ∨ c = 32 := by
  cases a with
  | rtpmap pt clock => exact plain_append (plain_append (plain_append (by decide) (digits_plain _)) (by decide)) (digits_plain _)
  | control url => exact plain_append (by decide) fun c hc => .inl (h.1 c hc).1
  | fmtp pt ps =>
    refine plain_append (plain_append (by decide) (digits_plain _)) ?_
    show ∀ c ∈ b!" " ++ paramText ps, _
    refine plain_append (by decide) ?_
    refine paramText_mem ps (fun c => plain c = true ∨ c = 32) (.inl (by decide)) (.inl (by decide)) (.inr rfl) ?_
    intro p hp
    exact ⟨fun c hc => .inl ((h.2.1 p hp).1.2 c hc).1, fun c hc => .inl ((h.2.1 p hp).2 c hc).1⟩

theorem attr_line {a : Attr} (h : a.WF) : isMLine a.line = false ∧ (10 : UInt8) ∉ a.line := by
  refine ⟨?_, fun hm => absurd (attr_chars h _ hm) (by decide)⟩
  unfold isMLine
  rw [trimSpace_id (attr_trimmed h)]
  cases a <;> rfl

/-- The media of a section made of a video line and well-formed attribute lines. -/
theorem secMedia_attrs (l : Bytes) (attrs : List Attr) (h : ∀ a ∈ attrs, a.WF) :
    secMedia (l :: attrs.map Attr.line) = attrs.foldl (fun m a => attrFun a m) (lineMedia l) := by
  show (attrs.map Attr.line).foldl (fun m x => lineFun x m) (lineMedia l) = _
  generalize lineMedia l = m
  induction attrs generalizing m with
  | nil => rfl
  | cons a t ih =>
    rw [List.map_cons, List.foldl_cons, List.foldl_cons, lineFun_wf (h a (by simp))]
    exact ih (fun x hx => h x (by simp [hx])) _

end Ouro
