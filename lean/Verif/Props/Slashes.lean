import Verif.Spec.Slashes
import Verif.Props.Transport
/-! # C69: exactly what is understood of the server's header -/
namespace Ouro
open Spec

theorem legal_chars {i : TItem} (h : i.Legal) : ∀ c ∈ i.written, c ≠ 61 ∧ c ≠ 47 ∧ c ≠ 59 ∧ c < 128 := by
  intro c hc
  apply lower_name
  apply name_chars i.param
  rw [← h.1]
  exact List.mem_map.2 ⟨c, hc, rfl⟩

theorem legal_key (t : Transport) {p : TParam} (h : p.Legal) : transpKey t p.name p.value = (p.apply t, none) := by
  cases p with
  | destination v => rfl
  | source v => rfl
  | ssrc v => rfl
  | mode v => rfl
  | unicast => exact transpKey_apply t (p := .unicast) h
  | multicast => exact transpKey_apply t (p := .multicast) h
  | append => exact transpKey_apply t (p := .append) h
  | interleaved r => exact transpKey_apply t (p := .interleaved r) h
  | ttl r => exact transpKey_apply t (p := .ttl r) h
  | layers r => exact transpKey_apply t (p := .layers r) h
  | port r => exact transpKey_apply t (p := .port r) h
  | clientPort r => exact transpKey_apply t (p := .clientPort r) h
  | serverPort r => exact transpKey_apply t (p := .serverPort r) h

theorem legal_value {p : TParam} (h : p.Legal) : ∀ v, p.value = some v → (59 : UInt8) ∉ v := by
  intro v hv
  cases p <;> simp only [TParam.value, Option.some.injEq, reduceCtorEq] at hv <;> subst hv <;>
    first | exact h | exact (range_text _).1 | exact (digits_text _).1

theorem legal_text {i : TItem} (h : i.Legal) : (59 : UInt8) ∉ i.text := by
  have h59 : (59 : UInt8) ∉ i.written := fun hm => (legal_chars h _ hm).2.2.1 rfl
  unfold TItem.text
  split
  · exact h59
  · rename_i v hv
    intro hm
    rcases List.mem_append.1 hm with hm | hm
    · rcases List.mem_append.1 hm with hm | hm
      · exact h59 hm
      · exact absurd (List.mem_singleton.1 hm) (by decide)
    · exact legal_value h.2 v hv hm

/-- A text with two slashes. -/
theorem two_slashes {v : Bytes} (h : v.count 47 = 2) : ∃ a b c : Bytes, v = a ++ 47 :: (b ++ 47 :: c) ∧ (47 : UInt8) ∉ a ∧ (47 : UInt8) ∉ b ∧ (47 : UInt8) ∉ c := by
  have key : ∀ (n : Nat) (v : Bytes), v.count 47 = n + 1 → ∃ a r, v = a ++ 47 :: r ∧ (47 : UInt8) ∉ a ∧ r.count 47 = n := by
    intro n v
    induction v with
    | nil => intro h; simp at h
    | cons x v ih =>
      intro h
      by_cases hx : x = 47
      · subst hx
        rw [List.count_cons_self] at h
        exact ⟨[], v, rfl, by simp, by omega⟩
      · rw [List.count_cons_of_ne hx] at h
        obtain ⟨a, r, e, ha, hr⟩ := ih h
        exact ⟨x :: a, r, by rw [e]; rfl, by simp [ha, Ne.symm hx], hr⟩
  obtain ⟨a, r, e, ha, hr⟩ := key 1 v h
  obtain ⟨b, c, e2, hb, hc⟩ := key 0 r hr
  exact ⟨a, b, c, by rw [e, e2], ha, hb, List.count_eq_zero.1 hc⟩

theorem afterSlash_append (a : Bytes) {c : Bytes} (hc : (47 : UInt8) ∉ c) : afterSlash (a ++ 47 :: c) = c := by
  unfold afterSlash
  rw [List.reverse_append, List.reverse_cons, List.append_assoc, List.takeWhile_append_of_pos]
  · simp
  · intro x hx
    simp only [ne_eq, decide_eq_true_eq]
    rintro rfl
    exact hc (List.mem_reverse.1 hx)

/-- The lower transport after a field. -/
def lowered (t : Transport) (i : TItem) : Transport :=
  match i.names with
  | some b => { t with isTCP := b }
  | none => t

theorem legal_lower (t : Transport) {i : TItem} (h : i.Legal) : transpLower t i.text = lowered t i := by
  have h47 : (47 : UInt8) ∉ i.written := fun hm => (legal_chars h _ hm).2.1 rfl
  unfold lowered TItem.names
  cases hv : i.param.value with
  | none =>
    have : i.text = i.written := by unfold TItem.text; rw [hv]
    rw [this, transpLower_id (by rw [List.count_eq_zero_of_not_mem h47]; decide)]
  | some v =>
    have ht : i.text = i.written ++ 61 :: v := by
      unfold TItem.text; rw [hv]; dsimp only; rw [List.append_assoc]; rfl
    dsimp only
    by_cases h2 : v.count 47 = 2
    · rw [if_pos h2]
      obtain ⟨a, b, c, e, ha, hb, hc⟩ := two_slashes h2
      have hc2 : afterSlash v = c := by
        rw [e, show a ++ 47 :: (b ++ 47 :: c) = (a ++ 47 :: b) ++ 47 :: c by simp, afterSlash_append _ hc]
      rw [hc2, ht, e]
      unfold transpLower
      rw [show i.written ++ 61 :: (a ++ 47 :: (b ++ 47 :: c)) = (i.written ++ 61 :: a) ++ 47 :: (b ++ 47 :: c) by simp,
        split_append _ (by simp [h47, ha]), split_append _ hb, split_none hc]
    · rw [if_neg h2, transpLower_id]
      rw [ht, List.count_append, List.count_cons_of_ne (by decide), List.count_eq_zero_of_not_mem h47]
      omega

theorem legal_field (t : Transport) {i : TItem} (h : i.Legal) : transpField t i.text = (i.param.apply (lowered t i), none) := by
  have h61 : (61 : UInt8) ∉ i.written := fun hm => (legal_chars h _ hm).1 rfl
  have hlow : toLower i.written = i.param.name := by rw [toLower_ascii (fun c hc => (legal_chars h c hc).2.2.2), h.1]
  unfold transpField
  rw [legal_lower t h]
  cases hv : i.param.value with
  | none =>
    have : i.text = i.written := by unfold TItem.text; rw [hv]
    rw [this, splitN2_none h61]
    dsimp only
    rw [hlow, ← hv]
    exact legal_key _ h.2
  | some v =>
    have : i.text = i.written ++ 61 :: v := by
      unfold TItem.text; rw [hv]; dsimp only; rw [List.append_assoc]; rfl
    rw [this, splitN2_append v h61]
    dsimp only
    rw [hlow, ← hv]
    exact legal_key _ h.2

theorem apply_tcp (t : Transport) (b : Bool) (p : TParam) : p.apply { t with isTCP := b } = { p.apply t with isTCP := b } := by cases p <;> rfl

theorem apply_isTCP (t : Transport) (p : TParam) : (p.apply t).isTCP = t.isTCP := by cases p <;> rfl

theorem foldl_isTCP (items : List TItem) : ∀ t : Transport, (items.foldl (fun t i => i.param.apply t) t).isTCP = t.isTCP := by
  induction items with
  | nil => intro t; rfl
  | cons i is ih => intro t; rw [List.foldl_cons, ih, apply_isTCP]

theorem foldl_tcp (items : List TItem) : ∀ (t : Transport) (b : Bool),
    items.foldl (fun t i => i.param.apply t) { t with isTCP := b } = { items.foldl (fun t i => i.param.apply t) t with isTCP := b } := by
  induction items with
  | nil => intro t b; rfl
  | cons i is ih => intro t b; rw [List.foldl_cons, List.foldl_cons, apply_tcp, ih]

theorem legal_fields (items : List TItem) : ∀ (t : Transport), (∀ i ∈ items, i.Legal) → transpFields t (items.map TItem.text) =
    ({ items.foldl (fun t i => i.param.apply t) t with isTCP := ((items.filterMap TItem.names).getLast?).getD t.isTCP }, none) := by
  induction items with
  | nil => intro t _; rfl
  | cons i is ih =>
    intro t h
    rw [List.map_cons, transpFields, legal_field t (h i (by simp))]
    dsimp only
    rw [ih _ (fun j hj => h j (by simp [hj])), List.filterMap_cons, List.foldl_cons]
    unfold lowered
    cases hn : i.names with
    | none => dsimp only; rw [apply_isTCP]
    | some b =>
      dsimp only
      rw [apply_isTCP, apply_tcp, foldl_tcp, List.getLast?_cons]
      simp

/-- C69, exactly, for every header of the grammar with any texts: every value is stored (the last one if a parameter is repeated), what is not mentioned
stays as it was, and there is no error; but whether TCP is used is then up to the last parameter that has two slashes, if there is one. -/
theorem C69_exact (t : Transport) (low : Lower) (items : List TItem) (h : ∀ i ∈ items, i.Legal) :
    t.parse (transportText low items) = ({ items.foldl (fun t i => i.param.apply t) (low.apply t) with
      isTCP := ((items.filterMap TItem.names).getLast?).getD (low.apply t).isTCP }, none) := by
  have ht : transportText low items = joinSep 59 ((b!"RTP/AVP" ++ low.text) :: items.map TItem.text) := by
    rw [← joinSep_flatMap]
    unfold transportText
    rw [List.flatMap_map]; rfl
  unfold Transport.parse
  rw [ht, split_join _ (by simp) ?_, transpFields]
  · have : transpField t (b!"RTP/AVP" ++ low.text) = (low.apply t, none) := by cases low <;> rfl
    rw [this]
    exact legal_fields items _ h
  · intro a ha
    rcases List.mem_cons.1 ha with rfl | ha
    · cases low <;> decide
    · obtain ⟨i, hi, rfl⟩ := List.mem_map.1 ha
      exact legal_text (h i hi)

/-- C69: a header is understood as the grammar says exactly if no parameter has two slashes, or the last one that does happens to name the lower transport the
header has. -/
theorem C69_iff (t : Transport) (low : Lower) (items : List TItem) (h : ∀ i ∈ items, i.Legal) :
    t.parse (transportText low items) = (items.foldl (fun t i => i.param.apply t) (low.apply t), none) ↔
      ∀ b, (items.filterMap TItem.names).getLast? = some b → b = (low.apply t).isTCP := by
  rw [C69_exact t low items h]
  have hb := foldl_isTCP items (low.apply t)
  generalize items.foldl (fun t i => i.param.apply t) (low.apply t) = u at *
  constructor
  · intro e b hl
    injection e with e _
    have := congrArg Transport.isTCP e
    rw [hl] at this
    exact this.trans hb
  · intro hs
    have : ((items.filterMap TItem.names).getLast?).getD (low.apply t).isTCP = u.isTCP := by
      rw [hb]
      cases hl : (items.filterMap TItem.names).getLast? with
      | none => rfl
      | some b => exact hs b hl
    rw [this]

/-- A destination given as an address: UDP is understood although the header says TCP; with `/TCP` after it all is well. -/
example : (∀ i ∈ [(⟨b!"Destination", .destination b!"rtsp://host"⟩ : TItem), ⟨b!"ttl", .ttl 5⟩], i.Legal) ∧
    [(⟨b!"Destination", .destination b!"rtsp://host"⟩ : TItem), ⟨b!"ttl", .ttl 5⟩].filterMap TItem.names = [false] ∧
    ((newTransport .tcp 0).parse b!"RTP/AVP/TCP;Destination=rtsp://host;ttl=5").1.isTCP = false ∧
    [(⟨b!"source", .source b!"a/b/tcp"⟩ : TItem)].filterMap TItem.names = [true] ∧
    ((newTransport .tcp 0).parse b!"RTP/AVP/TCP;source=a/b/tcp").1.isTCP = true := by
  refine ⟨?_, by decide, by decide, by decide, by decide⟩
  intro i hi
  simp only [List.mem_cons, List.not_mem_nil, or_false] at hi
  rcases hi with rfl | rfl
  · exact ⟨rfl, by show (59 : UInt8) ∉ _; decide⟩
  · exact ⟨rfl, show (5:Nat) < 2 ^ 63 by decide⟩

end Ouro
