import Verif.Model.Digest
import Verif.Spec.Digest
import Verif.Lemmas.Strings
import Verif.Lemmas.Rtp
import Verif.Lemmas.Nal2
/-! # Lemmas about authentication -/
namespace Ouro
open Spec

/-! ## colonnade -/

theorem colons_eq (p : Bytes) (ps : List Bytes) : colons p ps = p ++ ps.flatMap (58 :: ·) := by
  fun_induction colons p ps with
  | case1 p => simp
  | case2 p m ms ih => rw [ih]; simp

theorem colonnadeLoop_ok (ps : List Bytes) : ∀ done : Bytes, ∀ n, n = (ps.map fun s => s.length + 1).sum →
    colonnadeLoop (done ++ List.replicate n 0) done.length ps = .ok (done ++ ps.flatMap (58 :: ·)) := by
  induction ps with
  | nil => intro done n hn; subst hn; simp [colonnadeLoop, go_pure]
  | cons s ss ih =>
    intro done n hn
    rw [List.map_cons, List.sum_cons] at hn
    obtain ⟨k, rfl⟩ : ∃ k, n = s.length + 1 + k := ⟨n - (s.length + 1), by omega⟩
    have hk : k = (ss.map fun s => s.length + 1).sum := by omega
    rw [colonnadeLoop]
    have h1 : putByte (done ++ List.replicate (s.length + 1 + k) 0) done.length 58 =
        .ok ((done ++ [58]) ++ List.replicate (s.length + k) 0) := by
      unfold putByte
      rw [if_pos (by simp; omega)]
      congr 1
      rw [List.set_append_right _ _ (Nat.le_refl _), Nat.sub_self]
      have : s.length + 1 + k = (s.length + k) + 1 := by omega
      rw [this, List.replicate_succ, List.set_cons_zero]
      simp
    rw [h1, go_ok_bind]
    have h2 : copyAt ((done ++ [58]) ++ List.replicate (s.length + k) 0) (done.length + 1) s =
        .ok ((done ++ 58 :: s) ++ List.replicate k 0, s.length) := by
      unfold copyAt
      rw [if_pos (by simp)]
      have hm : min (((done ++ [58]) ++ List.replicate (s.length + k) (0 : UInt8)).length - (done.length + 1)) s.length = s.length := by
        simp; omega
      dsimp only
      rw [hm]
      congr 2
      have ht : ((done ++ [58]) ++ List.replicate (s.length + k) (0 : UInt8)).take (done.length + 1) = done ++ [58] := by
        rw [List.take_append_of_le_length (by simp), List.take_of_length_le (by simp)]
      have hd : ((done ++ [58]) ++ List.replicate (s.length + k) (0 : UInt8)).drop (done.length + 1 + s.length) = List.replicate k 0 := by
        rw [List.drop_append]
        simp
      rw [ht, hd, List.take_of_length_le (Nat.le_refl _)]
      simp
    rw [h2, go_ok_bind]
    have := ih (done ++ 58 :: s) k hk
    have hl : done.length + 1 + s.length = (done ++ 58 :: s).length := by simp; omega
    dsimp only
    rw [hl, this]
    simp

theorem colonnade_ok (p : Bytes) (ps : List Bytes) : colonnade p ps = .ok (colons p ps) := by
  unfold colonnade
  have hn : ps.length + ((p :: ps).map List.length).sum = p.length + (ps.map fun s => s.length + 1).sum := by
    rw [List.map_cons, List.sum_cons]
    induction ps with
    | nil => simp
    | cons s t ih => simp only [List.map_cons, List.sum_cons, List.length_cons] at *; omega
  dsimp only
  rw [hn]
  have h2 : copyAt (List.replicate (p.length + (ps.map fun s => s.length + 1).sum) 0) 0 p =
      .ok (p ++ List.replicate (ps.map fun s => s.length + 1).sum 0, p.length) := by
    unfold copyAt
    rw [if_pos (by simp)]
    have hm : min ((List.replicate (p.length + (ps.map fun s => s.length + 1).sum) (0 : UInt8)).length - 0) p.length = p.length := by
      simp
    dsimp only
    rw [hm]
    congr 2
    rw [List.take_of_length_le (Nat.le_refl _)]
    simp
  rw [h2, go_ok_bind]
  dsimp only
  rw [colonnadeLoop_ok ps p _ rfl, colons_eq]

/-! ## Challenges -/

theorem trimSpace_mem {s : Bytes} {c : UInt8} (h : c ∈ trimSpace s) : c ∈ s := by
  have hd : ∀ (len : Bytes → Nat) (n : Nat) (s : Bytes), c ∈ dropSpace len n s → c ∈ s := by
    intro len n
    induction n with
    | zero => intro s h; exact h
    | succ n ih =>
      intro s h
      rw [dropSpace] at h
      split at h
      · exact h
      · exact List.mem_of_mem_drop (ih _ h)
  unfold trimSpace at h
  rw [List.mem_reverse] at h
  exact hd _ _ _ (List.mem_reverse.1 (hd _ _ _ h))

theorem trimQuotes_none {v : Bytes} (h : (34 : UInt8) ∉ v) : trimQuotes v = v := by
  have hd : ∀ s : Bytes, (34 : UInt8) ∉ s → s.dropWhile (· = 34) = s := by
    intro s hs
    cases s with
    | nil => rfl
    | cons a t =>
      have : a ≠ 34 := by rintro rfl; simp at hs
      simp [this]
  unfold trimQuotes
  rw [hd v h, hd v.reverse (by simpa using h), List.reverse_reverse]

theorem trimQuotes_open {v : Bytes} (h : (34 : UInt8) ∉ v) : trimQuotes (34 :: v) = v := by
  have := trimQuotes_none h
  unfold trimQuotes at *
  rw [List.dropWhile_cons]
  simpa using this

theorem trimQuotes_quoted {v : Bytes} (h : (34 : UInt8) ∉ v) : trimQuotes (34 :: (v ++ [34])) = v := by
  have hd : ∀ s : Bytes, (34 : UInt8) ∉ s → s.dropWhile (· = 34) = s := by
    intro s hs
    cases s with
    | nil => rfl
    | cons a t =>
      have : a ≠ 34 := by rintro rfl; simp at hs
      simp [this]
  unfold trimQuotes
  rw [List.dropWhile_cons]
  simp only [decide_true, if_true]
  cases v with
  | nil => rfl
  | cons a t =>
    have : a ≠ 34 := by rintro rfl; simp at h
    rw [List.cons_append, List.dropWhile_cons]
    simp only [this, decide_false, Bool.false_eq_true, if_false]
    rw [← List.cons_append, List.reverse_append, List.reverse_singleton, List.singleton_append, List.dropWhile_cons]
    simp only [decide_true, if_true]
    rw [hd _ (by rw [List.mem_reverse]; exact h), List.reverse_reverse]

/-- Effect of a parameter. -/
def setParam (d : Digest) (n : PName) (v : Bytes) : Digest :=
  match n with
  | .realm => { d with realm := v }
  | .domain => { d with domain := v }
  | .nonce => { d with nonce := v }
  | .opaque_ => { d with opaque_ := v }
  | .stale => { d with stale := v }
  | .algorithm => { d with algorithm := toLower v }
  | .qop => { d with qop := toLower v }

theorem digestAttr_name (d : Digest) (n : PName) (v : Bytes) (h : (44 : UInt8) ∉ v) :
    digestAttr d n.text v = .ok (setParam d n v) := by
  cases n <;> first | rfl | (simp only [digestAttr, PName.text]; rw [split_none h]; rfl)

set_option maxRecDepth 100000 in
theorem lower_letter : ∀ c : UInt8, (97 ≤ lower1 c ∧ lower1 c ≤ 122) → plain c = true ∧ c ≠ 61 ∧ c ≠ 44 ∧ c < 128 := forall_u8 (by decide)

theorem written_chars {w : Bytes} {n : PName} (h : lowerAscii w = n.text) : w ≠ [] ∧ ∀ c ∈ w, plain c = true ∧ c ≠ 61 ∧ c ≠ 44 ∧ c < 128 := by
  constructor
  · rintro rfl; cases n <;> cases h
  · intro c hc
    apply lower_letter
    have hm : lower1 c ∈ n.text := by rw [← h]; exact List.mem_map.2 ⟨c, hc, rfl⟩
    have : ∀ x ∈ n.text, (97 : UInt8) ≤ x ∧ x ≤ 122 := by cases n <;> decide
    exact this _ hm

theorem visible_plain {c : UInt8} (h : visible c = true) : plain c = true := h

/-- A part of the form name, equals sign, text. -/
theorem digestPart_core (d : Digest) {b a w x : Bytes} {n : PName} (hw : lowerAscii w = n.text)
    (hb : ∀ c ∈ b, asciiSpace c = true) (ha : ∀ c ∈ a, asciiSpace c = true) (hx : ∃ u z, 61 :: x = u ++ [z] ∧ plain z = true)
    {v : Bytes} (hq : trimQuotes x = v) (hv : (44 : UInt8) ∉ v) : digestPart d (b ++ (w ++ 61 :: x) ++ a) = .ok (setParam d n v) := by
  obtain ⟨hne, hc⟩ := written_chars hw
  obtain ⟨u, z, hu, hz⟩ := hx
  have ht : Trimmed (w ++ 61 :: x) := by
    cases w with
    | nil => exact absurd rfl hne
    | cons c t => exact .inr ⟨⟨c, _, rfl, (hc c (by simp)).1⟩, ⟨c :: t ++ u, z, by rw [hu]; simp, hz⟩⟩
  unfold digestPart
  rw [trimSpace_around b a _ hb ha ht]
  dsimp only
  rw [cut_append _ (fun h => (hc _ h).2.1 rfl)]
  dsimp only
  have h1 : ¬ (w ++ 61 :: x).length = 0 := by simp
  have h2 : w.length > 0 := List.length_pos_iff.2 hne
  rw [if_neg h1, if_pos h2, toLower_ascii (fun c h => (hc c h).2.2.2), hq]
  unfold lowerAscii at hw
  rw [hw, digestAttr_name d n v hv]

theorem digestPart_noEq (d : Digest) {x : Bytes} (h : (61 : UInt8) ∉ x) : digestPart d x = .ok d := by
  unfold digestPart
  dsimp only
  rw [cut_none.2 (fun hm => h (trimSpace_mem hm))]
  dsimp only
  split <;> rfl

/-- The parts a list of values is cut into; the last one with what follows the list. -/
def moreParts (tl : Bytes) : List Bytes → List Bytes
  | [] => []
  | [m] => [m ++ tl]
  | m :: ms => m :: moreParts tl ms

/-- The parts a parameter is cut into. -/
def partsOf (p : Param) : List Bytes :=
  if p.more = [] then [p.text]
  else (p.before ++ (p.written ++ 61 :: 34 :: p.value)) :: moreParts (34 :: p.after) p.more

theorem moreParts_ne {tl : Bytes} {ms : List Bytes} (h : ms ≠ []) : moreParts tl ms ≠ [] := by
  cases ms with
  | nil => exact absurd rfl h
  | cons m t => cases t <;> simp [moreParts]

theorem moreParts_join (tl : Bytes) (m : Bytes) (ms : List Bytes) : joinSep 44 (moreParts tl (m :: ms)) = commas m ms ++ tl := by
  induction ms generalizing m with
  | nil => rfl
  | cons x t ih =>
    have hm : moreParts tl (m :: x :: t) = m :: moreParts tl (x :: t) := rfl
    rw [hm, commas]
    cases hq : moreParts tl (x :: t) with
    | nil => exact absurd hq (moreParts_ne (by simp))
    | cons y ys =>
      have := ih x
      rw [hq] at this
      simp [joinSep, this]

theorem partsOf_join (p : Param) (h : p.WF) : joinSep 44 (partsOf p) = p.text := by
  unfold partsOf
  split
  · rfl
  · rename_i hm
    obtain ⟨_, hq, _⟩ := h.2.2.2.2.1 hm
    cases hmo : p.more with
    | nil => exact absurd hmo hm
    | cons m ms =>
      have hj := moreParts_join (34 :: p.after) m ms
      cases hy : moreParts (34 :: p.after) (m :: ms) with
      | nil => exact absurd hy (moreParts_ne (by simp))
      | cons y ys =>
        rw [hy] at hj
        simp [joinSep, hj, Param.text, hq, hmo, commas]

theorem moreParts_mem {tl : Bytes} {ms : List Bytes} {P : UInt8 → Prop} (h : ∀ m ∈ ms, ∀ c ∈ m, P c) (ht : ∀ c ∈ tl, P c) :
    ∀ x ∈ moreParts tl ms, ∀ c ∈ x, P c := by
  fun_induction moreParts tl ms with
  | case1 => simp
  | case2 m =>
    intro x hx c hc
    rw [List.mem_singleton] at hx; subst hx
    rcases List.mem_append.1 hc with hc | hc
    · exact h m (by simp) c hc
    · exact ht c hc
  | case3 m ms _ ih =>
    intro x hx c hc
    rcases List.mem_cons.1 hx with rfl | hx
    · exact h x (by simp) c hc
    · exact ih (fun m hm => h m (by simp [hm])) x hx c hc

set_option maxRecDepth 100000 in
theorem space_ne : ∀ c : UInt8, asciiSpace c = true → c ≠ 44 ∧ c ≠ 61 := forall_u8 (by decide)

theorem partsOf_no_comma (p : Param) (h : p.WF) : ∀ x ∈ partsOf p, (44 : UInt8) ∉ x := by
  obtain ⟨hw, hv, hu, hs, hm, hmc⟩ := h
  have hwc := (written_chars hw).2
  have sp : ∀ c ∈ p.before ++ p.after, c ≠ 44 := fun c hc => (space_ne c (hs c hc)).1
  have hb : (44 : UInt8) ∉ p.before := fun h => sp _ (List.mem_append_left _ h) rfl
  have ha : (44 : UInt8) ∉ p.after := fun h => sp _ (List.mem_append_right _ h) rfl
  have hw' : (44 : UInt8) ∉ p.written := fun h => (hwc _ h).2.2.1 rfl
  have hv' : (44 : UInt8) ∉ p.value := fun h => (hv _ h).1 rfl
  unfold partsOf
  split
  · rename_i hm0
    intro x hx
    rw [List.mem_singleton] at hx; subst hx
    unfold Param.text
    rw [hm0, commas]
    simp only [List.mem_append, List.mem_cons, not_or]
    refine ⟨⟨hb, hw', by decide, ?_⟩, ha⟩
    split
    · simp [hv']
    · exact hv'
  · intro x hx
    rcases List.mem_cons.1 hx with rfl | hx
    · simp only [List.mem_append, List.mem_cons, not_or]
      exact ⟨hb, hw', by decide, by decide, hv'⟩
    · intro hc
      refine moreParts_mem (P := fun c => c ≠ 44) (fun m hm c hc => (hmc m hm c hc).1) ?_ x hx 44 hc rfl
      intro c hc
      rcases List.mem_cons.1 hc with rfl | hc
      · decide
      · exact sp c (List.mem_append_right _ hc)

theorem eq_last {x : Bytes} (h : ∀ c ∈ x, plain c = true) : ∃ u z, 61 :: x = u ++ [z] ∧ plain z = true := by
  refine ⟨(61 :: x).dropLast, (61 :: x).getLast (by simp), (List.dropLast_concat_getLast (by simp)).symm, ?_⟩
  rcases List.mem_cons.1 (List.getLast_mem (l := 61 :: x) (by simp)) with h1 | h1
  · rw [h1]; decide
  · exact h _ h1

theorem digestParts_append (d : Digest) (a b : List Bytes) :
    digestParts d (a ++ b) = match digestParts d a with | .ok d => digestParts d b | .error e => .error e := by
  induction a generalizing d with
  | nil => rfl
  | cons x t ih =>
    rw [List.cons_append, digestParts, digestParts]
    cases digestPart d x with
    | ok d => exact ih d
    | error e => rfl

theorem digestParts_noEq (d : Digest) (xs : List Bytes) (h : ∀ x ∈ xs, (61 : UInt8) ∉ x) : digestParts d xs = .ok d := by
  induction xs with
  | nil => rfl
  | cons x t ih => rw [digestParts, digestPart_noEq d (h x (by simp))]; exact ih fun y hy => h y (by simp [hy])

theorem digestParts_param (d : Digest) (p : Param) (h : p.WF) : digestParts d (partsOf p) = .ok (setParam d p.name p.value) := by
  obtain ⟨hw, hv, hu, hs, hm, hmc⟩ := h
  have hb : ∀ c ∈ p.before, asciiSpace c = true := fun c hc => hs c (List.mem_append_left _ hc)
  have ha : ∀ c ∈ p.after, asciiSpace c = true := fun c hc => hs c (List.mem_append_right _ hc)
  have hv44 : (44 : UInt8) ∉ p.value := fun h => (hv _ h).1 rfl
  have hv34 : (34 : UInt8) ∉ p.value := fun h => (hv _ h).2 rfl
  unfold partsOf
  split
  · rename_i hm0
    rw [digestParts]
    have : digestPart d p.text = .ok (setParam d p.name p.value) := by
      unfold Param.text
      rw [hm0, commas]
      by_cases hq : p.quoted = true
      · rw [if_pos hq]
        exact digestPart_core d hw hb ha ⟨61 :: 34 :: p.value, 34, by simp, by decide⟩ (trimQuotes_quoted hv34) hv44
      · rw [if_neg hq]
        exact digestPart_core d hw hb ha (eq_last fun c hc => hu (by simpa using hq) c hc) (trimQuotes_none hv34) hv44
    rw [this]; rfl
  · rename_i hm0
    obtain ⟨_, _, hvis⟩ := hm hm0
    rw [digestParts]
    have := digestPart_core d hw hb (a := []) (by simp) (x := 34 :: p.value)
      (eq_last fun c hc => by
        rcases List.mem_cons.1 hc with rfl | hc
        · decide
        · exact hvis c hc) (trimQuotes_open hv34) hv44
    rw [List.append_nil] at this
    rw [this]
    refine digestParts_noEq _ _ ?_
    intro x hx hc
    refine moreParts_mem (P := fun c => c ≠ 61) (fun m hm c hc => (hmc m hm c hc).2.2) ?_ x hx 61 hc rfl
    intro c hc
    rcases List.mem_cons.1 hc with rfl | hc
    · decide
    · exact (space_ne c (ha c hc)).2

theorem paramsText_join (ps : List Param) (h : ∀ p ∈ ps, p.WF) : paramsText ps = joinSep 44 (ps.flatMap partsOf) := by
  have hne : ∀ p, partsOf p ≠ [] := by intro p; unfold partsOf; split <;> simp
  have hj : ∀ a b : List Bytes, a ≠ [] → b ≠ [] → joinSep 44 (a ++ b) = joinSep 44 a ++ 44 :: joinSep 44 b := by
    intro a b ha hb
    induction a with
    | nil => exact absurd rfl ha
    | cons x t ih =>
      cases t with
      | nil =>
        cases b with
        | nil => exact absurd rfl hb
        | cons y ys => rfl
      | cons y ys =>
        have := ih (by simp)
        simp only [List.cons_append, joinSep] at *
        rw [this]; simp
  fun_induction paramsText ps with
  | case1 => rfl
  | case2 p => rw [List.flatMap_cons, List.flatMap_nil, List.append_nil, partsOf_join p (h p (by simp))]
  | case3 p ps hps ih =>
    rw [List.flatMap_cons, hj _ _ (hne p), partsOf_join p (h p (by simp)), ih fun q hq => h q (by simp [hq])]
    cases ps with
    | nil => exact absurd rfl hps
    | cons q t => simp [hne]

theorem digestParts_params (d : Digest) (ps : List Param) (hne : ps ≠ []) (h : ∀ p ∈ ps, p.WF) :
    digestParts d (split 44 (paramsText ps)) = .ok (ps.foldl (fun d p => setParam d p.name p.value) d) := by
  rw [paramsText_join ps h, split_join]
  · clear hne
    induction ps generalizing d with
    | nil => rfl
    | cons p t ih =>
      rw [List.flatMap_cons, digestParts_append, digestParts_param d p (h p (by simp))]
      exact ih _ fun q hq => h q (by simp [hq])
  · cases ps with
    | nil => exact absurd rfl hne
    | cons p t =>
      rw [List.flatMap_cons]
      intro he
      have := (List.append_eq_nil_iff.1 he).1
      unfold partsOf at this
      split at this <;> simp at this
  · intro x hx
    obtain ⟨p, hp, hx⟩ := List.mem_flatMap.1 hx
    exact partsOf_no_comma p (h p hp) x hx

theorem paramsText_last (ps : List Param) (hne : ps ≠ []) (h : ∀ p ∈ ps, p.WF) (hl : ∀ p, ps.getLast? = some p → p.after = []) :
    ∃ u z, paramsText ps = u ++ [z] ∧ plain z = true := by
  fun_induction paramsText ps with
  | case1 => exact absurd rfl hne
  | case2 p =>
    have ha := hl p rfl
    unfold Param.text
    rw [ha, List.append_nil]
    by_cases hq : p.quoted = true
    · rw [if_pos hq]
      exact ⟨p.before ++ (p.written ++ 61 :: 34 :: commas p.value p.more), 34, by simp, by decide⟩
    · rw [if_neg hq]
      obtain ⟨u, z, hu, hz⟩ := eq_last fun c hc => (h p (by simp)).2.2.1 (by simpa using hq) c hc
      exact ⟨p.before ++ (p.written ++ u), z, by rw [hu]; simp, hz⟩
  | case3 p ps hps ih =>
    obtain ⟨u, z, hu, hz⟩ := ih (fun he => hps he) (fun q hq => h q (by simp [hq])) (fun q hq => hl q (by
      cases ps with
      | nil => cases hq
      | cons y ys => rw [List.getLast?_cons_cons]; exact hq))
    exact ⟨p.text ++ 44 :: u, z, by rw [hu]; simp, hz⟩

/-- The challenge: scheme and parameters, with white space around it. -/
theorem newDigest_params (uri pre post : Bytes) (basic : Bool) (ps : List Param) (hne : ps ≠ []) (h : ∀ p ∈ ps, p.WF)
    (hl : ∀ p, ps.getLast? = some p → p.after = []) (hpre : ∀ c ∈ pre, asciiSpace c = true) (hpost : ∀ c ∈ post, asciiSpace c = true) :
    newDigest uri (pre ++ ((if basic then b!"Basic " else b!"Digest ") ++ paramsText ps) ++ post) =
      (let d := ps.foldl (fun d p => setParam d p.name p.value) { uri := uri, algorithm := b!"md5", basic := basic }
       if d.nonce ≠ [] ∧ d.algorithm ≠ b!"md5" ∧ d.algorithm ≠ b!"md5-sess" then .error .notImplemented else .ok d) := by
  obtain ⟨u, z, hu, hz⟩ := paramsText_last ps hne h hl
  have ht : Trimmed ((if basic then b!"Basic " else b!"Digest ") ++ paramsText ps) := by
    rw [hu]
    cases basic with
    | true => exact .inr ⟨⟨66, _, rfl, by decide⟩, ⟨b!"Basic " ++ u, z, by simp, hz⟩⟩
    | false => exact .inr ⟨⟨68, _, rfl, by decide⟩, ⟨b!"Digest " ++ u, z, by simp, hz⟩⟩
  unfold newDigest
  rw [trimSpace_around pre post _ hpre hpost ht]
  have hsch : digestScheme ((if basic then b!"Basic " else b!"Digest ") ++ paramsText ps) = some (basic, paramsText ps) := by
    cases basic <;> rfl
  rw [hsch]
  dsimp only
  rw [digestParts_params _ ps hne h]
  dsimp only
  by_cases h1 : (ps.foldl (fun d p => setParam d p.name p.value) { uri := uri, algorithm := b!"md5", basic := basic }).nonce ≠ []
  · rw [if_pos h1]
    simp only [h1, not_false_eq_true, true_and, ne_eq]
  · rw [if_neg h1, if_neg (fun hc => h1 hc.1)]

end Ouro
