import Verif.Lemmas.TransportField
/-! # C85: which `Transport` headers are refused -/
namespace Ouro
open Spec

theorem withVal_ok {t : Transport} {val : Option Bytes} {f : Bytes → Transport × Option NumErr} :
    (withVal t val f).2 = none ↔ ∃ v, val = some v ∧ (f v).2 = none := by
  unfold withVal
  cases val with
  | none => simp
  | some v => simp

theorem transpKey_ok (t : Transport) (key : Bytes) (val : Option Bytes) : (transpKey t key val).2 = none ↔
    (key ∈ textNames → ∃ v, val = some v) ∧ (key ∈ numberNames → ∃ v i, val = some v ∧ Numeral v i) ∧
    (key ∈ rangeNames → ∃ v p, val = some v ∧ RangeText v p) := by
  have num : ∀ v, (atoi v).2 = none ↔ ∃ i, Numeral v i := fun v => by
    constructor
    · intro h; exact ⟨(atoi v).1, (atoi_iff v _).1 (Prod.ext rfl h)⟩
    · rintro ⟨i, h⟩; rw [(atoi_iff v i).2 h]
  by_cases h1 : key = b!"unicast"
  · subst h1; simp [transpKey, textNames, numberNames, rangeNames]
  by_cases h2 : key = b!"multicast"
  · subst h2; simp [transpKey, textNames, numberNames, rangeNames]
  by_cases h3 : key = b!"append"
  · subst h3; simp [transpKey, textNames, numberNames, rangeNames]
  by_cases h4 : key ∈ textNames
  · simp only [textNames, List.mem_cons, List.not_mem_nil, or_false] at h4
    rcases h4 with rfl | rfl | rfl | rfl <;> simp [transpKey, textNames, numberNames, rangeNames, withVal_ok]
  by_cases h5 : key ∈ numberNames
  · simp only [numberNames, List.mem_cons, List.not_mem_nil, or_false] at h5
    rcases h5 with rfl | rfl <;> simp [transpKey, textNames, numberNames, rangeNames, withVal_ok, num]
  by_cases h6 : key ∈ rangeNames
  · simp only [rangeNames, List.mem_cons, List.not_mem_nil, or_false] at h6
    rcases h6 with rfl | rfl | rfl | rfl <;> simp [transpKey, textNames, numberNames, rangeNames, withVal_ok, parsePair_bad]
  · simp only [h4, h5, h6, false_implies, true_and, iff_true]
    simp only [textNames, numberNames, rangeNames, List.mem_cons, List.not_mem_nil, or_false, not_or] at h4 h5 h6
    unfold transpKey
    rw [if_neg h1, if_neg h2, if_neg h4.1, if_neg h4.2.1, if_neg h6.1, if_neg h3, if_neg h5.2, if_neg h5.1, if_neg h6.2.1, if_neg h6.2.2.1,
      if_neg h6.2.2.2, if_neg h4.2.2.1, if_neg h4.2.2.2]

theorem transpField_ok (t : Transport) (f : Bytes) : (transpField t f).2 = none ↔ FieldOk f := by
  obtain ⟨key, val, hf, hs, hu⟩ := field_text f
  have e : transpField t f = transpKey (transpLower t f) (toLower key) val := by
    unfold transpField; rw [hs]; cases val <;> rfl
  rw [e, transpKey_ok]
  constructor
  · intro h k v hk
    obtain ⟨rfl, rfl⟩ := hu k v hk
    exact h
  · intro h; exact h key val hf

theorem transpFields_ok (fs : List Bytes) : ∀ t : Transport, (transpFields t fs).2 = none ↔ ∀ f ∈ fs, FieldOk f := by
  induction fs with
  | nil => intro t; simp [transpFields]
  | cons f fs ih =>
    intro t
    rw [transpFields]
    cases h : transpField t f with
    | mk t' e =>
      cases e with
      | none =>
        dsimp only
        rw [ih]
        simp only [List.mem_cons, forall_eq_or_imp]
        exact ⟨fun h' => ⟨(transpField_ok t f).1 (by rw [h]), h'⟩, fun h' => h'.2⟩
      | some e =>
        simp only [reduceCtorEq, List.mem_cons, forall_eq_or_imp, false_iff, not_and]
        intro h'
        have := (transpField_ok t f).2 h'
        rw [h] at this; cases this

/-- C85: `Parse` accepts a header, whatever text it is, exactly if every field has the value its name needs. -/
theorem C85_accepted_iff (t : Transport) (fields : List Bytes) (h0 : fields ≠ []) (h : ∀ f ∈ fields, (59 : UInt8) ∉ f) :
    (t.parse (joinSep 59 fields)).2 = none ↔ ∀ f ∈ fields, FieldOk f := by
  unfold Transport.parse
  rw [split_join fields h0 h]
  exact transpFields_ok fields t

/-- C85: a parameter that needs a number or a range and has something else is refused, whatever else the header says. -/
theorem C85_refused_partial (t : Transport) (before after : List Bytes) (key : Bytes) (v : Bytes)
    (hb : ∀ f ∈ before, (59 : UInt8) ∉ f) (ha : ∀ f ∈ after, (59 : UInt8) ∉ f) (hk : (61 : UInt8) ∉ key ∧ (59 : UInt8) ∉ key) (hv : (59 : UInt8) ∉ v)
    (bad : toLower key ∈ numberNames ∧ (∀ i, ¬ Numeral v i) ∨ toLower key ∈ rangeNames ∧ ∀ p, ¬ RangeText v p) :
    (t.parse (joinSep 59 (before ++ (key ++ 61 :: v) :: after))).2 ≠ none := by
  rw [Ne, C85_accepted_iff t _ (by simp)]
  · intro h
    have := h (key ++ 61 :: v) (by simp) key (some v) ⟨hk.1, .inr ⟨v, rfl, rfl⟩⟩
    rcases bad with ⟨b1, b2⟩ | ⟨b1, b2⟩
    · obtain ⟨w, i, hw, hi⟩ := this.2.1 b1
      injection hw with hw; subst hw; exact b2 i hi
    · obtain ⟨w, i, hw, hi⟩ := this.2.2 b1
      injection hw with hw; subst hw; exact b2 i hi
  · intro f hf
    simp only [List.mem_append, List.mem_cons] at hf
    rcases hf with hf | rfl | hf
    · exact hb f hf
    · simp only [List.mem_append, List.mem_cons, not_or]; exact ⟨hk.2, by decide, hv⟩
    · exact ha f hf

/-- Meeting the hypotheses: a port that is a word, in mixed case. -/
example : toLower b!"Client_Port" ∈ rangeNames ∧ (∀ p, ¬ RangeText b!"any" p) ∧
    ((newTransport .unicast 0).parse (joinSep 59 ([b!"RTP/AVP", b!"unicast"] ++ (b!"Client_Port" ++ 61 :: b!"any") :: [b!"ssrc=1"]))).2 ≠ none := by
  have hr : ∀ p, ¬ RangeText b!"any" p := fun p h => by
    have := (parsePair_iff b!"any" p).2 h
    have h2 : (parsePair b!"any").2 = none := by rw [this]
    exact absurd h2 (by decide)
  exact ⟨by decide, hr, C85_refused_partial _ _ _ _ _ (by decide) (by decide) ⟨by decide, by decide⟩ (by decide) (.inr ⟨by decide, hr⟩)⟩

/-- C85 fails: a header that does not name RTP, a range of three numbers and a signed port are all accepted. -/
theorem C85_accepts_bad_refuted : ∀ v ∈ [b!"complete nonsense", b!"RTP/AVP;client_port=1-2-three", b!"RTP/AVP;ttl=-7", b!"RTP/AVP;server_port=99999999"],
    ((newTransport .unicast 0).parse v).2 = none := by decide

/-- C85 fails in the other direction: the grammar (RFC 2326, 12.39) allows `destination` without an address, the code does not. -/
theorem C85_destination_refuted : ((newTransport .unicast 0).parse b!"RTP/AVP;unicast;destination;client_port=50000-50001").2 = some .malformed := by decide

end Ouro
