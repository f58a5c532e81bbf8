import Verif.Lemmas.Sdp
import Verif.Spec.Transport
/-! # Lemmas about transport.go and feed.go -/
namespace Ouro
open Spec

theorem split_length (c : UInt8) (s : Bytes) : (split c s).length = s.count c + 1 := by
  induction s with
  | nil => rfl
  | cons x xs ih =>
    rw [split]
    split
    · rename_i h; subst h; simp [ih]
    · rename_i h
      have hx : List.count c (x :: xs) = List.count c xs := by
        rw [List.count_cons]; simp [h]
      split
      · rename_i hs; exact absurd hs (split_ne_nil c xs)
      · rename_i y ys hs
        rw [hx, ← ih, hs]; rfl

theorem transpLower_id {t : Transport} {f : Bytes} (h : f.count 47 ≠ 2) : transpLower t f = t := by
  unfold transpLower
  split
  · rename_i a b c hs
    have := split_length 47 f
    rw [hs] at this
    simp at this
    omega
  · rfl

theorem itoa_nat (n : Nat) : itoa (n : Int) = natDigits n := by
  unfold itoa
  rw [if_neg (by omega)]; rfl

theorem dash_digit : isDigit 45 = false := by decide

theorem parsePair_range (r : Range) (h : r.WF) : parsePair r.text = (r.pair, none) := by
  obtain ⟨lo, hi⟩ := r
  cases hi with
  | none =>
    unfold parsePair Range.text
    dsimp only
    rw [split_none (digits_not_mem lo 45 dash_digit)]
    dsimp only
    rw [atoi_natDigits lo h.1]; rfl
  | some k =>
    unfold parsePair Range.text
    dsimp only
    rw [List.append_assoc, show b!"-" ++ natDigits k = 45 :: natDigits k from rfl,
      split_append _ (digits_not_mem lo 45 dash_digit), split_none (digits_not_mem k 45 dash_digit)]
    dsimp only
    rw [atoi_natDigits lo h.1]
    dsimp only
    rw [atoi_natDigits k (h.2 k rfl)]; rfl

theorem name_chars (p : TParam) : ∀ c ∈ p.name, (97 ≤ c ∧ c ≤ 122) ∨ c = 95 := by cases p <;> (dsimp only [TParam.name]; decide)

set_option maxRecDepth 100000 in
theorem lower_name : ∀ c : UInt8, ((97 ≤ lower1 c ∧ lower1 c ≤ 122) ∨ lower1 c = 95) → c ≠ 61 ∧ c ≠ 47 ∧ c ≠ 59 ∧ c < 128 :=
  forall_u8 (by decide)

theorem item_chars {i : TItem} (h : i.WF) : ∀ c ∈ i.written, c ≠ 61 ∧ c ≠ 47 ∧ c ≠ 59 ∧ c < 128 := by
  intro c hc
  apply lower_name
  apply name_chars i.param
  rw [← h.1]
  exact List.mem_map.2 ⟨c, hc, rfl⟩

theorem item_lower {i : TItem} (h : i.WF) : toLower i.written = i.param.name := by
  rw [toLower_ascii (fun c hc => (item_chars h c hc).2.2.2), h.1]

theorem transpKey_apply (t : Transport) {p : TParam} (h : p.WF) : transpKey t p.name p.value = (p.apply t, none) := by
  cases p with
  | unicast => rfl
  | multicast => rfl
  | destination v => rfl
  | source v => rfl
  | append => rfl
  | ssrc v => rfl
  | mode v => rfl
  | ttl n => 
    show ({ t with ttl := (atoi (natDigits n)).1 }, (atoi (natDigits n)).2.map TranspErr.num) = _
    rw [atoi_natDigits n h]; rfl
  | layers n => 
    show ({ t with layers := (atoi (natDigits n)).1 }, (atoi (natDigits n)).2.map TranspErr.num) = _
    rw [atoi_natDigits n h]; rfl
  | interleaved r =>
    show ({ t with isMulticast := false, interleave := (parsePair r.text).1 }, (parsePair r.text).2.map TranspErr.num) = _
    rw [parsePair_range r h]; rfl
  | port r =>
    show ({ t with port := (parsePair r.text).1 }, (parsePair r.text).2.map TranspErr.num) = _
    rw [parsePair_range r h]; rfl
  | clientPort r =>
    show ({ t with clientPort := (parsePair r.text).1 }, (parsePair r.text).2.map TranspErr.num) = _
    rw [parsePair_range r h]; rfl
  | serverPort r =>
    show ({ t with serverPort := (parsePair r.text).1 }, (parsePair r.text).2.map TranspErr.num) = _
    rw [parsePair_range r h]; rfl

theorem digits_text (n : Nat) : TextWF (natDigits n) := by
  refine ⟨digits_not_mem n 59 (by decide), ?_⟩
  rw [List.count_eq_zero_of_not_mem (digits_not_mem n 47 (by decide))]; decide

theorem range_text (r : Range) : TextWF r.text := by
  obtain ⟨lo, hi⟩ := r
  cases hi with
  | none => exact digits_text lo
  | some k =>
    have h : ∀ c, isDigit c = false → c ≠ 45 → c ∉ (⟨lo, some k⟩ : Range).text := by
      intro c h1 h2 hm
      have hm : c ∈ natDigits lo ++ b!"-" ++ natDigits k := hm
      rcases List.mem_append.1 hm with hm | hm
      · rcases List.mem_append.1 hm with hm | hm
        · exact digits_not_mem lo c h1 hm
        · exact h2 (List.mem_singleton.1 hm)
      · exact digits_not_mem k c h1 hm
    refine ⟨h 59 (by decide) (by decide), ?_⟩
    rw [List.count_eq_zero_of_not_mem (h 47 (by decide) (by decide))]; decide

theorem value_text {p : TParam} (h : p.WF) : ∀ v, p.value = some v → TextWF v := by
  intro v hv
  cases p <;> simp only [TParam.value, Option.some.injEq, reduceCtorEq] at hv <;> subst hv <;>
    first | exact h | exact range_text _ | exact digits_text _

theorem item_text {i : TItem} (h : i.WF) : TextWF i.text := by
  have hc := item_chars h
  have h59 : (59 : UInt8) ∉ i.written := fun hm => (hc _ hm).2.2.1 rfl
  have h47 : (47 : UInt8) ∉ i.written := fun hm => (hc _ hm).2.1 rfl
  unfold TItem.text
  split
  · refine ⟨h59, ?_⟩
    rw [List.count_eq_zero_of_not_mem h47]; decide
  · rename_i v hv
    have hw := value_text h.2 v hv
    constructor
    · intro hm
      rcases List.mem_append.1 hm with hm | hm
      · rcases List.mem_append.1 hm with hm | hm
        · exact h59 hm
        · exact absurd (List.mem_singleton.1 hm) (by decide)
      · exact hw.1 hm
    · rw [List.count_append, List.count_append, List.count_eq_zero_of_not_mem h47]
      show 0 + 0 + _ ≠ 2
      have := hw.2
      omega

theorem transpField_item (t : Transport) {i : TItem} (h : i.WF) : transpField t i.text = (i.param.apply t, none) := by
  have h61 : (61 : UInt8) ∉ i.written := fun hm => (item_chars h _ hm).1 rfl
  unfold transpField
  rw [transpLower_id (item_text h).2]
  cases hv : i.param.value with
  | none =>
    have : i.text = i.written := by unfold TItem.text; rw [hv]
    rw [this, splitN2_none h61]
    dsimp only
    rw [item_lower h, ← hv]
    exact transpKey_apply t h.2
  | some v =>
    have : i.text = i.written ++ 61 :: v := by
      unfold TItem.text; rw [hv]; dsimp only; rw [List.append_assoc]; rfl
    rw [this, splitN2_append v h61]
    dsimp only
    rw [item_lower h, ← hv]
    exact transpKey_apply t h.2

theorem transpFields_items (t : Transport) (items : List TItem) (h : ∀ i ∈ items, i.WF) :
    transpFields t (items.map TItem.text) = (items.foldl (fun t i => i.param.apply t) t, none) := by
  induction items generalizing t with
  | nil => rfl
  | cons i is ih =>
    rw [List.map_cons, transpFields, transpField_item t (h i (by simp))]
    exact ih _ (fun j hj => h j (by simp [hj]))

theorem joinSep_flatMap (c : UInt8) (a : Bytes) (l : List Bytes) : a ++ l.flatMap (fun x => c :: x) = joinSep c (a :: l) := by
  induction l generalizing a with
  | nil => simp [joinSep]
  | cons b t ih =>
    rw [joinSep, ← ih]; simp

theorem parse_text (t : Transport) (low : Lower) (items : List TItem) (h : ∀ i ∈ items, i.WF) :
    t.parse (transportText low items) = (items.foldl (fun t i => i.param.apply t) (low.apply t), none) := by
  have ht : transportText low items = joinSep 59 ((b!"RTP/AVP" ++ low.text) :: items.map TItem.text) := by
    rw [← joinSep_flatMap]
    unfold transportText
    rw [List.flatMap_map]; rfl
  unfold Transport.parse
  rw [ht, split_join _ (by simp) ?_, transpFields]
  · have : transpField t (b!"RTP/AVP" ++ low.text) = (low.apply t, none) := by cases low <;> rfl
    rw [this]
    exact transpFields_items _ items h
  · intro a ha
    rcases List.mem_cons.1 ha with rfl | ha
    · cases low <;> decide
    · obtain ⟨i, hi, rfl⟩ := List.mem_map.1 ha
      exact (item_text (h i hi)).1

/-! ## Rendering -/

/-- A pair written as a range. -/
def rangeOf (p : Pair) : Range := ⟨p.one.toNat, some p.two.toNat⟩

theorem rangeOf_text {p : Pair} (h1 : 0 ≤ p.one) (h2 : 0 ≤ p.two) : p.string = (rangeOf p).text := by
  unfold Pair.string rangeOf Range.text
  dsimp only
  rw [← itoa_nat, ← itoa_nat, Int.toNat_of_nonneg h1, Int.toNat_of_nonneg h2]

theorem rangeOf_pair {p : Pair} (h1 : 0 ≤ p.one) (h2 : 0 ≤ p.two) : (rangeOf p).pair = p := by
  obtain ⟨a, b⟩ := p
  unfold rangeOf Range.pair
  dsimp only at *
  congr 1
  · exact Int.toNat_of_nonneg h1
  · exact Int.toNat_of_nonneg h2

theorem rangeOf_wf {p : Pair} (h1 : p.one < 2 ^ 63) (h2 : p.two < 2 ^ 63) : (rangeOf p).WF := by
  refine ⟨?_, ?_⟩
  · show p.one.toNat < 2 ^ 63
    omega
  · intro k hk
    have hk : some p.two.toNat = some k := hk
    injection hk with hk
    show k < 2 ^ 63
    omega

/-- A parameter written as the code writes it. -/
def plainItem (p : TParam) : TItem := ⟨p.name, p⟩

theorem plainItem_wf {p : TParam} (h : p.WF) : (plainItem p).WF := by
  refine ⟨?_, h⟩
  show p.name.map lower1 = p.name
  cases p <;> rfl

/-- The parameters `Transport.String` writes. -/
def paramsOf (t : Transport) : List TParam :=
  (if t.isTCP then [] else if t.isMulticast then [.multicast] else [.unicast]) ++
  (if t.destination ≠ [] then [.destination t.destination] else []) ++
  (if t.source ≠ [] then [.source t.source] else []) ++
  (if t.isInterleaved then [.interleaved (rangeOf t.interleave)] else []) ++
  (if t.isAppend then [.append] else []) ++
  (if t.port.one > 0 then [.port (rangeOf t.port)] else []) ++
  (if t.clientPort.one > 0 then [.clientPort (rangeOf t.clientPort)] else []) ++
  (if t.serverPort.one > 0 then [.serverPort (rangeOf t.serverPort)] else []) ++
  (if t.isMulticast ∧ t.ttl > 0 then [.ttl t.ttl.toNat] else []) ++
  (if t.layers > 0 then [.layers t.layers.toNat] else []) ++
  (if t.ssrc ≠ [] then [.ssrc t.ssrc] else []) ++
  (if t.mode ≠ [] ∧ t.mode ≠ b!"PLAY" then [.mode t.mode] else [])

def itemsText (ps : List TParam) : Bytes := (ps.map plainItem).flatMap fun i => b!";" ++ i.text

theorem itemsText_append (a b : List TParam) : itemsText (a ++ b) = itemsText a ++ itemsText b := by
  simp [itemsText]

theorem itemsText_if {c : Prop} [Decidable c] (a b : List TParam) : itemsText (if c then a else b) = if c then itemsText a else itemsText b := by
  split <;> rfl

theorem itemsText_nil : itemsText [] = [] := rfl

theorem if_congr_text {c : Prop} [Decidable c] {a b : Bytes} (h : c → a = b) : (if c then a else []) = if c then b else [] := by
  split
  · rename_i hc; exact h hc
  · rfl

theorem range_item (name : Bytes) {p : Pair} {q : TParam} (hn : q.name = name) (hv : q.value = some (rangeOf p).text)
    (h1 : 0 ≤ p.one) (h2 : 0 ≤ p.two) : b!";" ++ name ++ b!"=" ++ p.string = itemsText [q] := by
  show _ = b!";" ++ (plainItem q).text ++ []
  unfold TItem.text
  rw [show (plainItem q).param.value = some (rangeOf p).text from hv]
  dsimp only
  rw [show (plainItem q).written = name from hn, rangeOf_text h1 h2]
  simp

theorem num_item (name : Bytes) {n : Int} {q : TParam} (hn : q.name = name) (hv : q.value = some (natDigits n.toNat))
    (h1 : 0 ≤ n) : b!";" ++ name ++ b!"=" ++ itoa n = itemsText [q] := by
  show _ = b!";" ++ (plainItem q).text ++ []
  unfold TItem.text
  rw [show (plainItem q).param.value = some (natDigits n.toNat) from hv]
  dsimp only
  rw [show (plainItem q).written = name from hn, ← itoa_nat, Int.toNat_of_nonneg h1]
  simp

theorem string_items {t : Transport} (h : HeaderOk t) :
    t.string = transportText (if t.isTCP then .tcp else .unspecified) ((paramsOf t).map plainItem) := by
  have h0 : transportText (if t.isTCP then .tcp else .unspecified) ((paramsOf t).map plainItem) =
    b!"RTP/AVP" ++ ((if t.isTCP then b!"/TCP" else []) ++ itemsText (paramsOf t)) := by
    unfold transportText itemsText
    rw [List.append_assoc]
    congr 2
    split <;> rfl
  rw [h0]
  unfold paramsOf Transport.string
  simp only [itemsText_append, itemsText_if, itemsText_nil]
  rw [if_congr_text (a := b!";interleaved=" ++ t.interleave.string)
      (fun hc => range_item b!"interleaved" (q := .interleaved (rangeOf t.interleave)) rfl rfl (h.inter hc).1 (h.inter hc).2.2.1),
    if_congr_text (a := b!";port=" ++ t.port.string) (fun hc => range_item b!"port" (q := .port (rangeOf t.port)) rfl rfl (by omega) (h.port hc).2.1),
    if_congr_text (a := b!";client_port=" ++ t.clientPort.string)
      (fun hc => range_item b!"client_port" (q := .clientPort (rangeOf t.clientPort)) rfl rfl (by omega) (h.cport hc).2.1),
    if_congr_text (a := b!";server_port=" ++ t.serverPort.string)
      (fun hc => range_item b!"server_port" (q := .serverPort (rangeOf t.serverPort)) rfl rfl (by omega) (h.sport hc).2.1),
    if_congr_text (a := b!";ttl=" ++ itoa t.ttl) (fun hc => num_item b!"ttl" (q := .ttl t.ttl.toNat) rfl rfl (by omega)),
    if_congr_text (a := b!";layers=" ++ itoa t.layers) (fun hc => num_item b!"layers" (q := .layers t.layers.toNat) rfl rfl (by omega)),
    if_congr_text (a := b!";destination=" ++ t.destination) (b := itemsText [.destination t.destination]) (fun _ => by simp [itemsText, plainItem, TItem.text, TParam.value, TParam.name]),
    if_congr_text (a := b!";source=" ++ t.source) (b := itemsText [.source t.source]) (fun _ => by simp [itemsText, plainItem, TItem.text, TParam.value, TParam.name]),
    if_congr_text (a := b!";ssrc=" ++ t.ssrc) (b := itemsText [.ssrc t.ssrc]) (fun _ => by simp [itemsText, plainItem, TItem.text, TParam.value, TParam.name]),
    if_congr_text (a := b!";mode=" ++ t.mode) (b := itemsText [.mode t.mode]) (fun _ => by simp [itemsText, plainItem, TItem.text, TParam.value, TParam.name])]
  have h1 : (if t.isTCP = true then b!"/TCP" else if t.isMulticast = true then b!";multicast" else b!";unicast") =
      (if t.isTCP then b!"/TCP" else []) ++ (if t.isTCP = true then [] else
        if t.isMulticast = true then itemsText [TParam.multicast] else itemsText [TParam.unicast]) := by
    split
    · simp
    · split <;> rfl
  rw [h1]
  simp only [List.append_assoc]
  rfl

theorem mem_if {c : Prop} [Decidable c] {p q : TParam} (h : p ∈ (if c then [q] else [])) : c ∧ p = q := by
  split at h
  · rename_i hc; exact ⟨hc, List.mem_singleton.1 h⟩
  · cases h

theorem paramsOf_wf {t : Transport} (h : HeaderOk t) : ∀ p ∈ paramsOf t, p.WF := by
  intro p hp
  unfold paramsOf at hp
  simp only [List.mem_append] at hp
  rcases hp with (((((((((((hp | hp) | hp) | hp) | hp) | hp) | hp) | hp) | hp) | hp) | hp) | hp)
  · split at hp
    · simp at hp
    · split at hp <;> (simp at hp; subst hp; trivial)
  all_goals obtain ⟨hc, rfl⟩ := mem_if hp
  · exact h.dest
  · exact h.src
  · exact rangeOf_wf (h.inter hc).2.1 (h.inter hc).2.2.2
  · trivial
  · exact rangeOf_wf (h.port hc).1 (h.port hc).2.2
  · exact rangeOf_wf (h.cport hc).1 (h.cport hc).2.2
  · exact rangeOf_wf (h.sport hc).1 (h.sport hc).2.2
  · show t.ttl.toNat < 2 ^ 63
    have := h.ttl
    omega
  · show t.layers.toNat < 2 ^ 63
    have := h.layers
    omega
  · exact h.ssrc
  · exact h.mode

/-- What is left of `t0` after parsing the header of `t` into it. -/
def merged (t t0 : Transport) : Transport where
  isTCP := t.isTCP || t0.isTCP
  isMulticast := if t.isInterleaved then false else if t.isTCP then t0.isMulticast else t.isMulticast
  isInterleaved := t0.isInterleaved
  isAppend := t.isAppend || t0.isAppend
  interleave := if t.isInterleaved then t.interleave else t0.interleave
  port := if t.port.one > 0 then t.port else t0.port
  clientPort := if t.clientPort.one > 0 then t.clientPort else t0.clientPort
  serverPort := if t.serverPort.one > 0 then t.serverPort else t0.serverPort
  layers := if t.layers > 0 then t.layers else t0.layers
  ttl := if t.isMulticast ∧ t.ttl > 0 then t.ttl else t0.ttl
  destination := if t.destination ≠ [] then t.destination else t0.destination
  source := if t.source ≠ [] then t.source else t0.source
  ssrc := if t.ssrc ≠ [] then t.ssrc else t0.ssrc
  mode := if t.mode ≠ [] ∧ t.mode ≠ b!"PLAY" then t.mode else t0.mode

theorem foldl_if {c : Prop} [Decidable c] (p : TParam) (t : Transport) :
    (if c then [p] else []).foldl TParam.apply t = if c then p.apply t else t := by split <;> rfl

theorem parse_string {t : Transport} (h : HeaderOk t) (t0 : Transport) : t0.parse t.string = (merged t t0, none) := by
  rw [string_items h, parse_text _ _ _ (fun i hi => by
    obtain ⟨p, hp, rfl⟩ := List.mem_map.1 hi
    exact plainItem_wf (paramsOf_wf h p hp))]
  refine congrArg (fun x => (x, none)) ?_
  rw [List.foldl_map]
  show (paramsOf t).foldl TParam.apply _ = _
  unfold paramsOf
  simp only [List.foldl_append, foldl_if]
  have e1 : (if t.isTCP = true then [] else if t.isMulticast = true then [TParam.multicast] else [TParam.unicast]).foldl
      TParam.apply ((if t.isTCP = true then Lower.tcp else Lower.unspecified).apply t0) =
      { t0 with isTCP := t.isTCP || t0.isTCP, isMulticast := if t.isTCP then t0.isMulticast else t.isMulticast } := by
    cases h1 : t.isTCP <;> cases h2 : t.isMulticast <;> rfl
  have r1 : t.isInterleaved = true → (rangeOf t.interleave).pair = t.interleave := fun hc =>
    rangeOf_pair (h.inter hc).1 (h.inter hc).2.2.1
  have r2 : t.port.one > 0 → (rangeOf t.port).pair = t.port := fun hc => rangeOf_pair (by omega) (h.port hc).2.1
  have r3 : t.clientPort.one > 0 → (rangeOf t.clientPort).pair = t.clientPort := fun hc => rangeOf_pair (by omega) (h.cport hc).2.1
  have r4 : t.serverPort.one > 0 → (rangeOf t.serverPort).pair = t.serverPort := fun hc => rangeOf_pair (by omega) (h.sport hc).2.1
  have r5 : t.ttl > 0 → ((t.ttl.toNat : Nat) : Int) = t.ttl := fun _ => by omega
  have r6 : t.layers > 0 → ((t.layers.toNat : Nat) : Int) = t.layers := fun _ => by omega
  rw [e1]
  have key : ∀ (c : Prop) [Decidable c] (p : TParam) (u v : Transport), (c → p.apply u = v) → (¬c → u = v) →
      (if c then p.apply u else u) = v := by
    intro c _ p u v h1 h2
    split
    · rename_i hc; exact h1 hc
    · rename_i hc; exact h2 hc
  unfold merged
  -- one parameter after another
  rw [key (t.destination ≠ []) (.destination t.destination) _
      { t0 with isTCP := t.isTCP || t0.isTCP, isMulticast := if t.isTCP then t0.isMulticast else t.isMulticast,
                destination := if t.destination ≠ [] then t.destination else t0.destination }
      (fun hc => by rw [if_pos hc]; rfl) (fun hc => by rw [if_neg hc])]
  rw [key (t.source ≠ []) (.source t.source) _
      { t0 with isTCP := t.isTCP || t0.isTCP, isMulticast := if t.isTCP then t0.isMulticast else t.isMulticast,
                destination := if t.destination ≠ [] then t.destination else t0.destination,
                source := if t.source ≠ [] then t.source else t0.source }
      (fun hc => by rw [if_pos hc]; rfl) (fun hc => by rw [if_neg hc])]
  rw [key (t.isInterleaved = true) (.interleaved (rangeOf t.interleave)) _
      { t0 with isTCP := t.isTCP || t0.isTCP,
                isMulticast := if t.isInterleaved then false else if t.isTCP then t0.isMulticast else t.isMulticast,
                destination := if t.destination ≠ [] then t.destination else t0.destination,
                source := if t.source ≠ [] then t.source else t0.source,
                interleave := if t.isInterleaved then t.interleave else t0.interleave }
      (fun hc => by rw [if_pos hc, if_pos hc]; simp only [TParam.apply, r1 hc]) (fun hc => by rw [if_neg hc, if_neg hc])]
  generalize (if t.isInterleaved = true then false else if t.isTCP = true then t0.isMulticast else t.isMulticast) = mc
  by_cases c1 : t.isAppend = true <;> by_cases c2 : t.port.one > 0 <;> by_cases c3 : t.clientPort.one > 0 <;>
    by_cases c4 : t.serverPort.one > 0 <;>
    simp only [c1, c2, c3, c4, r2, r3, r4, if_true, if_false, TParam.apply, Bool.true_or, Bool.false_or] <;>
    by_cases c5 : t.isMulticast = true ∧ t.ttl > 0 <;> by_cases c6 : t.layers > 0 <;> by_cases c7 : t.ssrc ≠ [] <;>
    by_cases c8 : t.mode ≠ [] ∧ t.mode ≠ b!"PLAY" <;>
    simp [c5, c6, c7, c8, r5, r6]

end Ouro
