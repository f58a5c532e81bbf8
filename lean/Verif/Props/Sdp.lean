import Verif.Lemmas.Sdp
/-! # Session description: C35–C37 -/
namespace Ouro
open Spec

/-- **C37**, exact: `Parse` panics exactly if a line, without surrounding white space, is just `m=video`. -/
theorem C37_panics_iff (buf : Bytes) : Panics (sdpParse buf) ↔ ∃ line ∈ split 10 buf, trimSpace line = b!"m=video" := by
  constructor
  · intro hp
    apply Classical.byContradiction
    intro hn
    have := sdpParse_ok buf fun l hl hb => hn ⟨l, hl, hb⟩
    obtain ⟨p, hp⟩ := hp
    rw [this] at hp; cases hp
  · intro h
    obtain ⟨p, hp⟩ := sdpLines_bare _ h ⟨[], false⟩
    exact ⟨p, by unfold sdpParse; rw [hp]; rfl⟩

/-- **C37**, part: no panic for documents without such a line. Missing: a line `m=video` with nothing after it. -/
theorem C37_total_partial (buf : Bytes) (h : ∀ line ∈ split 10 buf, trimSpace line ≠ b!"m=video") : ¬ Panics (sdpParse buf) := by
  rw [C37_panics_iff]
  rintro ⟨l, hl, hb⟩
  exact h l hl hb

/-- **C37** does not hold: a server can crash the client with a one-line body. -/
theorem C37_refuted : ¬ ∀ buf, ¬ Panics (sdpParse buf) := by
  intro h
  exact h b!"m=video" ((C37_panics_iff _).2 ⟨b!"m=video", by decide, by decide⟩)

example : ∀ line ∈ split 10 (b!"v=0" ++ 13 :: 10 :: b!"m=video 0 RTP/AVP 96" ++ 13 :: 10 :: b!"a=control:trackID=1"),
    trimSpace line ≠ b!"m=video" := by decide

/-- **C35**. Whenever `Parse` returns, there is one media per video section, in document order, and the i-th is what
parsing the i-th video section alone gives. So nothing outside that section (the session part, sections of other kinds, other
video sections) has an effect on it. -/
theorem C35_sections (buf : Bytes) (feeds : List Media) (h : sdpParse buf = .ok feeds) :
    feeds.length = (videoSections (split 10 buf)).length ∧
    ∀ (i : Nat) sec m, (videoSections (split 10 buf))[i]? = some sec → feeds[i]? = some m → sdpParse (unlines sec) = .ok [m] := by
  have hb : ∀ l ∈ split 10 buf, trimSpace l ≠ b!"m=video" := by
    intro l hl hb
    obtain ⟨p, hp⟩ := (C37_panics_iff buf).2 ⟨l, hl, hb⟩
    rw [h] at hp; cases hp
  rw [sdpParse_ok buf hb] at h
  injection h with h
  subst h
  refine ⟨by simp, ?_⟩
  intro i sec m hs hm
  rw [List.getElem?_map, hs] at hm
  injection hm with hm
  obtain ⟨l, ls, rfl, hv, hn, hl, hls⟩ := videoSections_mem _ _ (List.mem_of_getElem? hs)
  rw [← hm]
  refine sdpParse_section l ls hv hn ?_
  intro x hx
  rcases List.mem_cons.1 hx with rfl | hx
  · exact split_mem buf _ hl
  · exact split_mem buf _ (hls x hx)

/-- Session attributes, an audio section and two video sections. -/
def sdpExample : Bytes :=
  unlines [b!"v=0", b!"a=control:*", b!"m=audio 0 RTP/AVP 0", b!"a=rtpmap:0 PCMU/8000", b!"m=video 0 RTP/AVP 96",
    b!"a=rtpmap:96 H264/90000", b!"m=video 0 RTP/AVP 97", b!"a=control:t2"]

example : sdpParse sdpExample = .ok [{ payloadType := 96, type := 96, timeScale := 90000, rtpmap := 96 }, { payloadType := 97, control := b!"t2" }] := by
  rfl

example : (videoSections (split 10 sdpExample)).length = 2 := by decide

/-! ## C36 -/

theorem paramKey_fields (m : Media) (k v : Bytes) :
    (sdpParamKey m k v).timeScale = m.timeScale ∧ (sdpParamKey m k v).control = m.control ∧ (sdpParamKey m k v).rtpmap = m.rtpmap ∧
    (sdpParamKey m k v).type = m.type ∧ (sdpParamKey m k v).payloadType = m.payloadType ∧
    (sdpParamKey m k v).spropParameterSets = m.spropParameterSets ++
      (if k = b!"sprop-parameter-sets" then (split 44 v).map fun f => (b64Decode f).1 else []) := by
  unfold sdpParamKey
  by_cases h1 : k = b!"config"
  · subst h1; simp
  · rw [if_neg h1]
    by_cases h2 : k = b!"sizelength"
    · subst h2; simp
    · rw [if_neg h2]
      by_cases h3 : k = b!"indexlength"
      · subst h3; simp
      · rw [if_neg h3]
        by_cases h4 : k = b!"sprop-parameter-sets"
        · simp [h4]
        · simp [h4]

/-- The parameter sets in a value of `sprop-parameter-sets`. -/
def spropDecode (v : Bytes) : List Bytes := (split 44 v).map fun f => (b64Decode f).1

theorem paramsFun_fields (ps : List (Bytes × Bytes)) (m : Media) :
    (paramsFun ps m).timeScale = m.timeScale ∧ (paramsFun ps m).control = m.control ∧ (paramsFun ps m).rtpmap = m.rtpmap ∧
    (paramsFun ps m).type = m.type ∧ (paramsFun ps m).payloadType = m.payloadType ∧
    (paramsFun ps m).spropParameterSets = m.spropParameterSets ++
      ((ps.filter fun p => p.1 = b!"sprop-parameter-sets").map (·.2)).flatMap spropDecode := by
  induction ps generalizing m with
  | nil => simp [paramsFun]
  | cons p t ih =>
    obtain ⟨i1, i2, i3, i4, i5, i6⟩ := ih (sdpParamKey m p.1 p.2)
    obtain ⟨k1, k2, k3, k4, k5, k6⟩ := paramKey_fields m p.1 p.2
    have he : paramsFun (p :: t) m = paramsFun t (sdpParamKey m p.1 p.2) := rfl
    rw [he]
    refine ⟨by rw [i1, k1], by rw [i2, k2], by rw [i3, k3], by rw [i4, k4], by rw [i5, k5], ?_⟩
    rw [i6, k6, List.filter_cons]
    by_cases h : p.1 = b!"sprop-parameter-sets"
    · simp [h, spropDecode]
    · simp [h]

theorem attrs_fields (attrs : List Attr) (m : Media) :
    let r := attrs.foldl (fun m a => attrFun a m) m
    r.timeScale = ((lastRtpmap attrs).map fun p => (p.2 : Int)).getD m.timeScale ∧
    r.rtpmap = ((lastRtpmap attrs).map fun p => (p.1 : Int)).getD m.rtpmap ∧
    r.type = ((lastRtpmap attrs).map fun _ => 96).getD m.type ∧
    r.control = (lastControl attrs).getD m.control ∧ r.payloadType = m.payloadType ∧
    r.spropParameterSets = m.spropParameterSets ++ (spropValues attrs).flatMap spropDecode := by
  induction attrs generalizing m with
  | nil => simp [lastRtpmap, lastControl, spropValues]
  | cons a t ih =>
    obtain ⟨i1, i2, i3, i4, i5, i6⟩ := ih (attrFun a m)
    simp only [List.foldl_cons]
    rw [i1, i2, i3, i4, i5, i6]
    cases a with
    | rtpmap pt clock =>
      simp only [lastRtpmap, lastControl, spropValues, attrFun, and_self, true_and, and_true]
      cases lastRtpmap t <;> simp
    | control url =>
      simp only [lastRtpmap, lastControl, spropValues, attrFun, and_self, true_and, and_true]
      cases lastControl t <;> simp
    | fmtp pt ps =>
      obtain ⟨k1, k2, k3, k4, k5, k6⟩ := paramsFun_fields ps m
      simp only [lastRtpmap, lastControl, spropValues, attrFun, k1, k2, k3, k4, k5, k6, and_self, true_and]
      simp

theorem b64char_ne (n : Nat) (h : n < 64) : b64char n ≠ 44 :=
  (by decide : ∀ n : Fin 64, b64char n.val ≠ 44) ⟨n, h⟩

theorem b64Encode_no_comma (b : Bytes) : (44 : UInt8) ∉ b64Encode b := by
  have hu : ∀ x : UInt8, x.toNat < 256 := fun x => x.toNat_lt
  fun_induction b64Encode b with
  | case1 => simp
  | case2 a =>
    have := hu a
    simp only [List.mem_cons, List.not_mem_nil, or_false, not_or]
    exact ⟨(b64char_ne _ (by omega)).symm, (b64char_ne _ (by omega)).symm, by decide, by decide⟩
  | case3 a b =>
    have := hu a; have := hu b
    simp only [List.mem_cons, List.not_mem_nil, or_false, not_or]
    exact ⟨(b64char_ne _ (by omega)).symm, (b64char_ne _ (by omega)).symm, (b64char_ne _ (by omega)).symm, by decide⟩
  | case4 a b c t ih =>
    have := hu a; have := hu b; have := hu c
    simp only [List.mem_cons, not_or]
    exact ⟨(b64char_ne _ (by omega)).symm, (b64char_ne _ (by omega)).symm, (b64char_ne _ (by omega)).symm,
      (b64char_ne _ (by omega)).symm, ih⟩

theorem spropText_join (sets : List Bytes) : spropText sets = joinSep 44 (sets.map b64Encode) := by
  fun_induction spropText sets with
  | case1 => rfl
  | case2 l => rfl
  | case3 l ls h ih =>
    cases ls with
    | nil => exact absurd rfl h
    | cons x xs => rw [ih]; rfl

theorem spropDecode_text (sets : List Bytes) (h : sets ≠ []) : spropDecode (spropText sets) = sets := by
  unfold spropDecode
  rw [spropText_join, split_join _ (by simp [h])]
  · rw [List.map_map]
    conv => rhs; rw [← List.map_id sets]
    apply List.map_congr_left
    intro s _
    simp [b64Decode_encode]
  · intro a ha
    obtain ⟨s, _, rfl⟩ := List.mem_map.1 ha
    exact b64Encode_no_comma s

/-- **C36**, part. A video section with any number of well-formed `rtpmap`, `control` and `fmtp` lines in any order: the
clock rate, payload number and codec are those of the last `rtpmap` line, the control URL is that of the last `control` line,
and the parameter sets are those of the `sprop-parameter-sets` parameters; in each case whatever the other lines say.
Missing: values that violate `Attr.WF`, for which it is false (see below). -/
theorem C36_attributes_partial (l : Bytes) (attrs : List Attr) (hl : isVideoLine l = true) (hnl : (10 : UInt8) ∉ l)
    (hw : ∀ a ∈ attrs, a.WF) :
    ∃ m, sdpParse (unlines (l :: attrs.map Attr.line)) = .ok [m] ∧
      m.timeScale = ((lastRtpmap attrs).map fun p => (p.2 : Int)).getD 0 ∧
      m.rtpmap = ((lastRtpmap attrs).map fun p => (p.1 : Int)).getD 0 ∧
      m.type = ((lastRtpmap attrs).map fun _ => 96).getD 0 ∧
      m.control = (lastControl attrs).getD [] ∧
      ∀ sets : List (List Bytes), (∀ s ∈ sets, s ≠ []) → spropValues attrs = sets.map spropText →
        m.spropParameterSets = sets.flatten := by
  refine ⟨_, sdpParse_section l _ hl ?_ ?_, ?_⟩
  · intro x hx
    obtain ⟨a, ha, rfl⟩ := List.mem_map.1 hx
    exact (attr_line (hw a ha)).1
  · intro x hx
    rcases List.mem_cons.1 hx with rfl | hx
    · exact hnl
    · obtain ⟨a, ha, rfl⟩ := List.mem_map.1 hx
      exact (attr_line (hw a ha)).2
  · rw [secMedia_attrs l attrs hw]
    obtain ⟨i1, i2, i3, i4, _, i6⟩ := attrs_fields attrs (lineMedia l)
    refine ⟨i1, i2, i3, i4, ?_⟩
    intro sets hs hv
    rw [i6, hv]
    show [] ++ _ = _
    rw [List.nil_append]
    clear hv i6
    induction sets with
    | nil => rfl
    | cons s t ih =>
      rw [List.map_cons, List.flatMap_cons, List.flatten_cons, spropDecode_text s (hs s (by simp)), ih fun x hx => hs x (by simp [hx])]

theorem attrFun_comm (a b : Attr) (h : a.sameKind b = false) (m : Media) : attrFun a (attrFun b m) = attrFun b (attrFun a m) := by
  have key : ∀ (k v : Bytes) (m : Media) (r c : Int) (y : Nat),
      sdpParamKey { m with rtpmap := r, type := y, timeScale := c } k v =
        { sdpParamKey m k v with rtpmap := r, type := y, timeScale := c } := by
    intro k v m r c y; unfold sdpParamKey; split; rfl; split; rfl; split; rfl; split <;> rfl
  have key2 : ∀ (k v : Bytes) (m : Media) (u : Bytes),
      sdpParamKey { m with control := u } k v = { sdpParamKey m k v with control := u } := by
    intro k v m u; unfold sdpParamKey; split; rfl; split; rfl; split; rfl; split <;> rfl
  have ps1 : ∀ (ps : List (Bytes × Bytes)) (m : Media) (r c : Int) (y : Nat),
      paramsFun ps { m with rtpmap := r, type := y, timeScale := c } = { paramsFun ps m with rtpmap := r, type := y, timeScale := c } := by
    intro ps
    induction ps with
    | nil => intros; rfl
    | cons p t ih => intro m r c y; simp only [paramsFun, List.foldl_cons] at *; rw [key, ih]
  have ps2 : ∀ (ps : List (Bytes × Bytes)) (m : Media) (u : Bytes),
      paramsFun ps { m with control := u } = { paramsFun ps m with control := u } := by
    intro ps
    induction ps with
    | nil => intros; rfl
    | cons p t ih => intro m u; simp only [paramsFun, List.foldl_cons] at *; rw [key2, ih]
  cases a <;> cases b <;> first | exact (Bool.noConfusion (show true = false from h)) | rfl | exact (ps1 _ _ _ _ _).symm | exact ps1 _ _ _ _ _ | exact (ps2 _ _ _).symm | exact ps2 _ _ _

/-- **C36**, part: the order of the lines does not matter if there is one of each kind. -/
theorem C36_order_partial (l : Bytes) (attrs attrs' : List Attr) (hl : isVideoLine l = true) (hnl : (10 : UInt8) ∉ l)
    (hw : ∀ a ∈ attrs, a.WF) (hk : attrs.Pairwise fun a b => a.sameKind b = false) (hp : attrs.Perm attrs') :
    sdpParse (unlines (l :: attrs.map Attr.line)) = sdpParse (unlines (l :: attrs'.map Attr.line)) := by
  have sec : ∀ as : List Attr, (∀ a ∈ as, a.WF) →
      sdpParse (unlines (l :: as.map Attr.line)) = .ok [as.foldl (fun m a => attrFun a m) (lineMedia l)] := by
    intro as hw
    rw [← secMedia_attrs l as hw]
    refine sdpParse_section l _ hl ?_ ?_
    · intro x hx
      obtain ⟨a, ha, rfl⟩ := List.mem_map.1 hx
      exact (attr_line (hw a ha)).1
    · intro x hx
      rcases List.mem_cons.1 hx with rfl | hx
      · exact hnl
      · obtain ⟨a, ha, rfl⟩ := List.mem_map.1 hx
        exact (attr_line (hw a ha)).2
  rw [sec attrs hw, sec attrs' fun a ha => hw a (hp.mem_iff.2 ha)]
  congr 2
  apply hp.foldl_eq'
  intro x hx y hy m
  have sym : ∀ a b : Attr, a.sameKind b = b.sameKind a := by intro a b; cases a <;> cases b <;> rfl
  by_cases he : x = y
  · rw [he]
  · have : x.sameKind y = false := by
      have hd : ∀ as : List Attr, as.Pairwise (fun a b => a.sameKind b = false) → x ∈ as → y ∈ as → x.sameKind y = false := by
        intro as
        induction as with
        | nil => intro _ h; simp at h
        | cons z t ih =>
          intro hk h1 h2
          rw [List.pairwise_cons] at hk
          rcases List.mem_cons.1 h1 with rfl | h1
          · rcases List.mem_cons.1 h2 with rfl | h2
            · exact absurd rfl he
            · exact hk.1 _ h2
          · rcases List.mem_cons.1 h2 with h2 | h2
            · rw [sym, h2]; exact hk.1 _ h1
            · exact ih hk.2 h1 h2
      exact hd attrs hk hx hy
    exact (attrFun_comm x y this m).symm

/-- The attribute lines of a typical camera. -/
def attrsExample : List Attr :=
  [.rtpmap 96 90000, .control b!"rtsp://cam/trackID=1",
    .fmtp 96 [(b!"packetization-mode", b!"1"), (b!"sprop-parameter-sets", spropText [[0x67, 1, 2], [0x68, 3]])]]

example : (∀ a ∈ attrsExample, a.WF) ∧ attrsExample.Pairwise (fun a b => a.sameKind b = false) := by
  constructor
  · intro a ha
    simp only [attrsExample, List.mem_cons, List.not_mem_nil, or_false] at ha
    rcases ha with rfl | rfl | rfl
    · exact ⟨by decide, by decide⟩
    · refine ⟨by decide, ?_⟩
      intro a ha
      have : split 47 (b!"control:" ++ b!"rtsp://cam/trackID=1") = [b!"control:rtsp:", [], b!"cam", b!"trackID=1"] := by decide
      rw [this] at ha
      injection ha with ha
      subst ha; decide
    · refine ⟨by decide, by decide, ?_⟩
      intro a ha
      have h2 : (split 47 (paramText [(b!"packetization-mode", b!"1"), (b!"sprop-parameter-sets", spropText [[0x67, 1, 2], [0x68, 3]])]))[1]? = none := by decide
      rw [h2] at ha; cases ha
  · decide

/-- **C36** does not hold for every value: a control URL with a number after its first slash overwrites the clock rate. -/
theorem C36_control_refuted :
    sdpParse (unlines [b!"m=video 0 RTP/AVP 96", b!"a=rtpmap:96 H264/90000", b!"a=control:video/1"]) =
      .ok [{ payloadType := 96, type := 96, timeScale := 1, rtpmap := 96, control := b!"video/1" }] := by rfl

/-- Parameter sets whose base64 has a number between two slashes overwrite it too. -/
theorem C36_sprop_clock_refuted :
    (b64Decode b!"Z/8/AAAA").2 = false ∧
    sdpParse (unlines [b!"m=video 0 RTP/AVP 96", b!"a=rtpmap:96 H264/90000",
        b!"a=fmtp:96 packetization-mode=1; sprop-parameter-sets=Z/8/AAAA"]) =
      .ok [{ payloadType := 96, type := 96, timeScale := 8, rtpmap := 96, spropParameterSets := [[0x67, 0xFF, 0x3F, 0, 0, 0]] }] := by
  exact ⟨by decide, by rfl⟩

/-- Parameter sets that are the only parameter of their line are lost. -/
theorem C36_single_param_refuted :
    sdpParse (unlines [b!"m=video 0 RTP/AVP 96", b!"a=fmtp:96 sprop-parameter-sets=Z0LAHg==,aM4="]) =
      .ok [{ payloadType := 96 }] := by rfl

end Ouro
