import Verif.Props.SdpExact
import Verif.Props.Ignored
/-! # C152: the order of the format parameters -/
namespace Ouro
open Spec

/-- What a line of format parameters makes of a feed. -/
theorem fmtp_line {pt : Nat} {ps : List (Bytes × Bytes)} (h : (Attr.fmtp pt ps).Printable) (m : Media) :
    lineFun (Attr.fmtp pt ps).line m = (if 2 ≤ ps.length then paramsFun ps else id) { m with timeScale := (slashNumber (paramText ps)).getD m.timeScale } := by
  have htr := printable_trimmed h
  obtain ⟨hne, hps⟩ := h
  have hl : (Attr.fmtp pt ps).line = b!"a=" ++ ((b!"fmtp:" ++ natDigits pt) ++ 32 :: paramText ps) := by simp [Attr.line]
  have hch : ∀ c ∈ paramText ps, plain c = true ∨ c = 32 := by
    refine paramText_mem ps (fun c => plain c = true ∨ c = 32) (.inl (by decide)) (.inl (by decide)) (.inr rfl) ?_
    intro p hp
    exact ⟨fun c hc => .inl ((hps p hp).1.2 c hc).1, fun c hc => .inl ((hps p hp).2 c hc).1⟩
  have hasc : Ascii (paramText ps) := by
    intro c hc
    rcases hch c hc with h | rfl
    · exact plain_lt c h
    · decide
  match ps, hne with
  | (k, v) :: t, _ =>
  have hkv := hps (k, v) (by simp)
  have hpt : ∃ r, paramText ((k, v) :: t) = k ++ 61 :: r := by
    cases t with
    | nil => exact ⟨v, rfl⟩
    | cons q t => exact ⟨_, by rw [paramText_cons2]; simp; rfl⟩
  obtain ⟨r0, hpt⟩ := hpt
  rw [lineFun_attr hl htr]
  rw [splitN2_append]
  · simp only [List.foldl_cons, List.foldl_nil]
    have e1 : sdpField m (b!"fmtp:" ++ natDigits pt) = m := by
      unfold sdpField
      rw [sdpSlash_none, sdpParams_none]
      · rw [show (b!"fmtp:" ++ natDigits pt) = b!"fmtp" ++ 58 :: natDigits pt from rfl, sdpColon_key _ _ (by decide)]
        rfl
      · rw [List.mem_append]; rintro (h | h); exact absurd h (by decide); exact digits_not_mem _ _ rfl h
      · rw [List.mem_append]; rintro (h | h); exact absurd h (by decide); exact digits_not_mem _ _ rfl h
    rw [e1]
    unfold sdpField
    have e2 : sdpColon m (paramText ((k, v) :: t)) = m := by
      unfold sdpColon splitN2
      cases hc : cut 58 (paramText ((k, v) :: t)) with
      | none => rfl
      | some p =>
        obtain ⟨x, y⟩ := p
        dsimp only
        obtain ⟨hx, _⟩ := cut_some hc
        have : (61 : UInt8) ∈ x := by
          rw [hpt] at hx
          exact head_has_eq (c := 58) (by decide) (fun h => (hkv.1.2 _ h).2.2.2.2 rfl) hx (.inr ⟨y, rfl⟩)
        unfold sdpColonKey
        rw [if_neg, if_neg]
        · rintro rfl; exact absurd this (by decide)
        · rintro rfl; exact absurd this (by decide)
    rw [e2, sdpSlash_clock]
    · generalize ({ m with timeScale := (slashNumber (paramText ((k, v) :: t))).getD m.timeScale } : Media) = m1
      unfold sdpParams
      have hsp := split_paramText (k, v) t (fun x hx => ⟨fun h => ((hps x hx).1.2 _ h).2.2.1 rfl, fun h => ((hps x hx).2 _ h).2 rfl⟩) [] (.inl rfl)
      rw [List.nil_append] at hsp
      rw [hsp]
      cases t with
      | nil => rfl
      | cons q t =>
        rw [if_pos (by simp), if_pos (by simp), List.foldl_cons, foldl_params]
        · have := sdpParam_eq m1 [] k v (.inl rfl) hkv.1.1 (fun c hc => ⟨(hkv.1.2 c hc).1, (hkv.1.2 c hc).2.1⟩)
          dsimp only
          rw [this]
          rfl
        · intro x hx
          have := (hps x (by simp only [List.mem_cons] at hx ⊢; exact .inr hx)).1
          exact ⟨this.1, fun c hc => ⟨(this.2 c hc).1, (this.2 c hc).2.1⟩⟩
    · intro x t' hx
      obtain ⟨r, hr, hr'⟩ := split_head hx
      have hm : (61 : UInt8) ∈ x := by
        rw [hpt] at hr
        exact head_has_eq (c := 47) (by decide) (fun h => (hkv.1.2 _ h).2.2.2.1 rfl) hr hr'
      have hm := toUpper_mem (s := x) (fun b hb => hasc b (by rw [hr]; exact List.mem_append_left _ hb)) hm
      constructor
      · intro h; rw [h] at hm; exact absurd hm (by decide)
      · intro h; rw [h] at hm; exact absurd hm (by decide)
  · rw [List.mem_append]; rintro (h | h); exact absurd h (by decide); exact digits_not_mem _ _ rfl h

/-- What one line says. -/

theorem sdpParamKey_comm {k k' : Bytes} (h : k ≠ k') (v v' : Bytes) (m : Media) : sdpParamKey (sdpParamKey m k v) k' v' = sdpParamKey (sdpParamKey m k' v') k v := by
  have c : ∀ k : Bytes, k = b!"config" ∨ k = b!"sizelength" ∨ k = b!"indexlength" ∨ k = b!"sprop-parameter-sets" ∨ ∀ (m : Media) (v : Bytes), sdpParamKey m k v = m := by
    intro k
    by_cases h1 : k = b!"config"
    · exact .inl h1
    · by_cases h2 : k = b!"sizelength"
      · exact .inr (.inl h2)
      · by_cases h3 : k = b!"indexlength"
        · exact .inr (.inr (.inl h3))
        · by_cases h4 : k = b!"sprop-parameter-sets"
          · exact .inr (.inr (.inr (.inl h4)))
          · exact .inr (.inr (.inr (.inr fun m v => by unfold sdpParamKey; rw [if_neg h1, if_neg h2, if_neg h3, if_neg h4])))
  rcases c k with rfl | rfl | rfl | rfl | e <;> rcases c k' with rfl | rfl | rfl | rfl | e' <;> first | exact absurd rfl h | rfl | (rw [e, e]) | (rw [e', e'])

theorem names_inj {ps : List (Bytes × Bytes)} (hn : (ps.map (·.1)).Nodup) {x y : Bytes × Bytes} (hx : x ∈ ps) (hy : y ∈ ps) (h : x.1 = y.1) : x = y := by
  induction ps with
  | nil => cases hx
  | cons a as ih =>
    rw [List.map_cons, List.nodup_cons] at hn
    rcases List.mem_cons.1 hx with e | hx' <;> rcases List.mem_cons.1 hy with e' | hy'
    · rw [e, e']
    · exact absurd (List.mem_map.2 ⟨y, hy', by rw [← h, e]⟩) hn.1
    · exact absurd (List.mem_map.2 ⟨x, hx', by rw [h, e']⟩) hn.1
    · exact ih hn.2 hx' hy'

theorem paramsFun_perm {ps qs : List (Bytes × Bytes)} (hp : ps.Perm qs) (hn : (ps.map (·.1)).Nodup) (m : Media) : paramsFun ps m = paramsFun qs m := by
  refine List.Perm.foldl_eq' hp ?_ _
  intro x hx y hy z
  by_cases h : x.1 = y.1
  · rw [names_inj hn hx hy h]
  · exact sdpParamKey_comm h _ _ _

theorem printable_perm {pt : Nat} {ps qs : List (Bytes × Bytes)} (hp : ps.Perm qs) (h : (Attr.fmtp pt ps).Printable) : (Attr.fmtp pt qs).Printable :=
  ⟨fun e => h.1 (List.perm_nil.1 (e ▸ hp)), fun p hm => h.2 p (hp.mem_iff.2 hm)⟩

/-- **C152**, part: in any description, with any lines before and behind, the format parameters of a line may be put in any order without a difference, if they have different
names and the parser finds the same clock rate in them in both orders (or none, as it should). -/
theorem C152_partial (pt : Nat) (ps qs : List (Bytes × Bytes)) (hp : ps.Perm qs) (hn : (ps.map (·.1)).Nodup) (h : (Attr.fmtp pt ps).Printable)
    (hc : slashNumber (paramText ps) = slashNumber (paramText qs)) (before after : List Bytes) (hl : ∀ l ∈ before ++ after, (10 : UInt8) ∉ l) :
    sdpParse (unlines (before ++ (Attr.fmtp pt ps).line :: after)) = sdpParse (unlines (before ++ (Attr.fmtp pt qs).line :: after)) := by
  have h' := printable_perm hp h
  have hfun : lineFun (Attr.fmtp pt ps).line = lineFun (Attr.fmtp pt qs).line := by
    funext m
    rw [fmtp_line h, fmtp_line h', hc, hp.length_eq]
    split
    · exact paramsFun_perm hp hn _
    · rfl
  have hline : ∀ st, sdpLine st (Attr.fmtp pt ps).line = sdpLine st (Attr.fmtp pt qs).line := by
    intro st
    rw [sdpLine_other st _ (printable_line h).1, sdpLine_other st _ (printable_line h').1, hfun]
  have lf : ∀ rs, (Attr.fmtp pt rs).Printable → ∀ l ∈ before ++ (Attr.fmtp pt rs).line :: after, (10 : UInt8) ∉ l := by
    intro rs hr l hm
    rcases List.mem_append.1 hm with hm | hm
    · exact hl l (List.mem_append_left _ hm)
    · rcases List.mem_cons.1 hm with rfl | hm
      · exact (printable_line hr).2
      · exact hl l (List.mem_append_right _ hm)
  rw [sdpParse_unlines _ (lf ps h), sdpParse_unlines _ (lf qs h'), sdpLines_cat, sdpLines_cat]
  congr 2
  funext st
  rw [sdpLines, sdpLines, hline]

/-- **C152, the exact law** for a section with one line of format parameters: their order makes no difference exactly if the parser finds the same clock rate in both. -/
theorem C152_iff (l : Bytes) (hv : isVideoLine l = true) (hnl : (10 : UInt8) ∉ l) (pt : Nat) (ps qs : List (Bytes × Bytes)) (hp : ps.Perm qs) (hn : (ps.map (·.1)).Nodup)
    (h : (Attr.fmtp pt ps).Printable) :
    sdpParse (unlines [l, (Attr.fmtp pt ps).line]) = sdpParse (unlines [l, (Attr.fmtp pt qs).line]) ↔
      (slashNumber (paramText ps)).getD 0 = (slashNumber (paramText qs)).getD 0 := by
  have h' := printable_perm hp h
  have val : ∀ rs, (Attr.fmtp pt rs).Printable → sdpParse (unlines [l, (Attr.fmtp pt rs).line]) =
      .ok [(if 2 ≤ rs.length then paramsFun rs else id) { lineMedia l with timeScale := (slashNumber (paramText rs)).getD 0 }] := by
    intro rs hr
    rw [sdpParse_section l _ hv (fun x hx => by rw [List.mem_singleton.1 hx]; exact (printable_line hr).1) (fun x hx => by
      rcases List.mem_cons.1 hx with rfl | hx
      · exact hnl
      · rw [List.mem_singleton.1 hx]; exact (printable_line hr).2)]
    show Except.ok [lineFun (Attr.fmtp pt rs).line (lineMedia l)] = _
    rw [fmtp_line hr]
    rfl
  have time : ∀ (rs : List (Bytes × Bytes)) (m : Media), ((if 2 ≤ rs.length then paramsFun rs else id) m).timeScale = m.timeScale := by
    intro rs m
    split
    · exact (paramsFun_fields rs m).1
    · rfl
  rw [val ps h, val qs h']
  constructor
  · intro e
    injection e with e
    injection e with e
    have := congrArg Media.timeScale e
    rw [time, time] at this
    exact this
  · intro e
    rw [e, hp.length_eq]
    split
    · rw [paramsFun_perm hp hn]
    · rfl

/-- Against C152: of two parameters with numbers between slashes, the first gives the clock rate, whatever the parameters are. -/
theorem C152_refuted (l : Bytes) (hv : isVideoLine l = true) (hnl : (10 : UInt8) ∉ l) (pt : Nat) (x y : Bytes)
    (hx : x ≠ [] ∧ ∀ c ∈ x, graphic c = true ∧ c ≠ 61 ∧ c ≠ 59 ∧ c ≠ 47 ∧ c ≠ 58) (hy : y ≠ [] ∧ ∀ c ∈ y, graphic c = true ∧ c ≠ 61 ∧ c ≠ 59 ∧ c ≠ 47 ∧ c ≠ 58) (hxy : x ≠ y)
    (a b : Nat) (ha : a < 2 ^ 63) (hb : b < 2 ^ 63) (hab : a ≠ b) :
    sdpParse (unlines [l, (Attr.fmtp pt [(x, 47 :: natDigits a ++ [47]), (y, 47 :: natDigits b ++ [47])]).line]) ≠
      sdpParse (unlines [l, (Attr.fmtp pt [(y, 47 :: natDigits b ++ [47]), (x, 47 :: natDigits a ++ [47])]).line]) := by
  have value : ∀ n : Nat, ∀ c ∈ (47 :: natDigits n ++ [47] : Bytes), graphic c = true ∧ c ≠ 59 := by
    intro n c hc
    simp only [List.cons_append, List.mem_cons, List.mem_append, List.not_mem_nil, or_false] at hc
    rcases hc with rfl | hc | rfl
    · decide
    · exact ⟨digit_plain c (natDigits_digit n c hc), fun e => digits_not_mem n 59 (by decide) (e ▸ hc)⟩
    · decide
  have number : ∀ (x y : Bytes) (n : Nat) (t : Bytes), (∀ c ∈ x, graphic c = true ∧ c ≠ 61 ∧ c ≠ 59 ∧ c ≠ 47 ∧ c ≠ 58) → n < 2 ^ 63 →
      slashNumber (paramText [(x, 47 :: natDigits n ++ [47]), (y, t)]) = some (n : Int) := by
    intro x y n t hx hn
    have e : paramText [(x, 47 :: natDigits n ++ [47]), (y, t)] = (x ++ [61]) ++ 47 :: (natDigits n ++ 47 :: (b!"; " ++ paramText [(y, t)])) := by
      simp [paramText]
    have h1 : (47 : UInt8) ∉ x ++ [61] := by
      intro hm
      rcases List.mem_append.1 hm with hm | hm
      · exact (hx 47 hm).2.2.2.1 rfl
      · exact absurd hm (by decide)
    unfold slashNumber
    rw [e, split_append _ h1, split_append _ (digits_not_mem n 47 (by decide))]
    show (if (atoi (natDigits n)).2.isNone = true then some (atoi (natDigits n)).1 else none) = _
    rw [atoi_natDigits n hn]
    rfl
  have hp : (Attr.fmtp pt [(x, 47 :: natDigits a ++ [47]), (y, 47 :: natDigits b ++ [47])]).Printable := by
    refine ⟨by simp, fun p hm => ?_⟩
    rcases List.mem_cons.1 hm with rfl | hm
    · exact ⟨hx, value a⟩
    · rw [List.mem_singleton.1 hm]
      exact ⟨hy, value b⟩
  intro h
  have := (C152_iff l hv hnl pt _ _ (.swap ..) (by simp [hxy]) hp).1 h
  rw [number x y a _ hx.2 ha, number y x b _ hy.2 hb] at this
  simp only [Option.getD_some] at this
  exact hab (by omega)

/-- Parameters as cameras send them, which may be put in any order ... -/
example : (Attr.fmtp 96 [(b!"packetization-mode", b!"1"), (b!"sprop-parameter-sets", b!"Z0LAHg==,aM4="), (b!"profile-level-id", b!"42C01E")]).Printable ∧
    slashNumber (paramText [(b!"packetization-mode", b!"1"), (b!"sprop-parameter-sets", b!"Z0LAHg==,aM4="), (b!"profile-level-id", b!"42C01E")]) = none ∧
    slashNumber (paramText [(b!"profile-level-id", b!"42C01E"), (b!"sprop-parameter-sets", b!"Z0LAHg==,aM4="), (b!"packetization-mode", b!"1")]) = none := by
  refine ⟨?_, by decide +kernel, by decide +kernel⟩
  simp only [Attr.Printable]
  decide

/-- ... and parameter sets with numbers between slashes in their base64 text. -/
example : slashNumber (paramText [(b!"sprop-parameter-sets", b!"Z0/8/A=="), (b!"a", b!"/9/")]) = some 8 ∧ slashNumber (paramText [(b!"a", b!"/9/"), (b!"sprop-parameter-sets", b!"Z0/8/A==")]) = some 9 := by
  decide +kernel

end Ouro
