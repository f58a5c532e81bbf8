import Verif.Props.TransportField
import Verif.Props.Transport
import Verif.Spec.Spoilt
/-! # C126: what a refused `Transport` header leaves behind -/
namespace Ouro
open Spec

theorem parsePair_spoilt {v : Bytes} (h : (parsePair v).2 ≠ none) : SpoiltRange v (parsePair v).1 := by
  by_cases hd : (45 : UInt8) ∈ v
  · obtain ⟨a, s, rfl, ha⟩ := cut_at hd
    obtain ⟨b, rest, rfl, hb, hr⟩ := first_piece 45 s
    obtain ⟨t, ht⟩ := split_first hb hr
    unfold parsePair at h ⊢
    rw [split_append _ ha, ht] at h ⊢
    dsimp only at h ⊢
    cases h1 : atoi a with
    | mk one e =>
      rw [h1] at h
      cases e with
      | some e =>
        have := SpoiltRange.first ha (.inr rfl : (45 :: (b ++ rest) = [] ∨ (45 :: (b ++ rest)).head? = some 45)) (atoi_bad.1 (by rw [h1]; simp))
        rw [h1] at this
        exact this
      | none =>
        dsimp only at h ⊢
        cases h2 : atoi b with
        | mk two e =>
          rw [h2] at h
          cases e with
          | some e => exact .second ha hb hr ((atoi_iff a one).1 h1) (atoi_bad.1 (by rw [h2]; simp))
          | none => exact absurd rfl h
  · unfold parsePair at h ⊢
    rw [split_none hd] at h ⊢
    dsimp only at h ⊢
    cases h1 : atoi v with
    | mk one e =>
      rw [h1] at h
      cases e with
      | none => exact absurd rfl h
      | some e =>
        have := SpoiltRange.first hd (.inl rfl : (([] : Bytes) = [] ∨ ([] : Bytes).head? = some 45)) (atoi_bad.1 (by rw [h1]; simp))
        rw [h1, List.append_nil] at this
        exact this

theorem transpKey_leaves (t : Transport) (key : Bytes) (val : Option Bytes) (h : (transpKey t key val).2 ≠ none) :
    Leaves t key val (transpKey t key val).1 := by
  by_cases h1 : key = b!"unicast"
  · subst h1; exact absurd rfl h
  by_cases h2 : key = b!"multicast"
  · subst h2; exact absurd rfl h
  by_cases h3 : key = b!"append"
  · subst h3; exact absurd rfl h
  by_cases h4 : key ∈ textNames
  · simp only [textNames, List.mem_cons, List.not_mem_nil, or_false] at h4
    rcases h4 with rfl | rfl | rfl | rfl <;> cases val <;> first | exact absurd rfl h | exact .bare (by decide) (by decide)
  by_cases h5 : key ∈ numberNames
  · simp only [numberNames, List.mem_cons, List.not_mem_nil, or_false] at h5
    rcases h5 with rfl | rfl <;> cases val with
    | none => exact .bare (by decide) (by decide)
    | some v =>
      first
      | exact .ttl (atoi_bad.1 fun e => h (by simp [transpKey, withVal, e]))
      | exact .layers (atoi_bad.1 fun e => h (by simp [transpKey, withVal, e]))
  by_cases h6 : key ∈ rangeNames
  · simp only [rangeNames, List.mem_cons, List.not_mem_nil, or_false] at h6
    rcases h6 with rfl | rfl | rfl | rfl <;> cases val with
    | none => first | exact .interleaved | exact .bare (by decide) (by decide)
    | some v =>
      first
      | exact .channels (parsePair_spoilt fun e => h (by simp [transpKey, withVal, e]))
      | exact .port (parsePair_spoilt fun e => h (by simp [transpKey, withVal, e]))
      | exact .clientPort (parsePair_spoilt fun e => h (by simp [transpKey, withVal, e]))
      | exact .serverPort (parsePair_spoilt fun e => h (by simp [transpKey, withVal, e]))
  · refine absurd ((transpKey_ok t key val).2 ⟨fun x => absurd x h4, fun x => absurd x h5, fun x => absurd x h6⟩) h

theorem transpLower_lowered (t : Transport) (f : Bytes) : Lowered t f (transpLower t f) := by
  have two : ∀ a b c : Bytes, (47 : UInt8) ∉ a → (47 : UInt8) ∉ b → (47 : UInt8) ∉ c → split 47 (a ++ 47 :: (b ++ 47 :: c)) = [a, b, c] := by
    intro a b c ha hb hc
    rw [split_append _ ha, split_append _ hb, split_none hc]
  by_cases h : ∃ a b c : Bytes, f = a ++ 47 :: (b ++ 47 :: c) ∧ (47 : UInt8) ∉ a ∧ (47 : UInt8) ∉ b ∧ (47 : UInt8) ∉ c
  · obtain ⟨a, b, c, rfl, ha, hb, hc⟩ := h
    refine .inl ⟨a, b, c, rfl, ha, hb, hc, ?_⟩
    unfold transpLower
    rw [two a b c ha hb hc]
  · refine .inr ⟨fun a b c e => ?_, ?_⟩
    · by_cases ha : (47 : UInt8) ∈ a
      · exact .inl ha
      by_cases hb : (47 : UInt8) ∈ b
      · exact .inr (.inl hb)
      by_cases hc : (47 : UInt8) ∈ c
      · exact .inr (.inr hc)
      exact absurd ⟨a, b, c, e, ha, hb, hc⟩ h
    · unfold transpLower
      split
      · rename_i x y low e
        have hj := split_joinSep 47 f
        have hn := split_mem (c := 47) f
        rw [e] at hj hn
        refine absurd ⟨x, y, low, ?_, hn x (by simp), hn y (by simp), hn low (by simp)⟩ h
        rw [← hj]; simp [joinSep]
      · rfl

theorem transpFields_append (fs gs : List Bytes) : ∀ t : Transport, (transpFields t fs).2 = none → transpFields t (fs ++ gs) = transpFields (transpFields t fs).1 gs := by
  induction fs with
  | nil => intro t _; rfl
  | cons f fs ih =>
    intro t h
    rw [List.cons_append, transpFields, transpFields] at *
    cases hf : transpField t f with
    | mk t' e =>
      rw [hf] at h
      cases e with
      | some e => cases h
      | none => dsimp only at h ⊢; exact ih t' h

/-- What the fields make of a transport; no fields leave it as it is. -/
theorem parse_fields (t : Transport) (fs : List Bytes) (h : ∀ f ∈ fs, (59 : UInt8) ∉ f) : t.parse (joinSep 59 fs) = transpFields t fs := by
  cases fs with
  | nil => rfl
  | cons f fs => unfold Transport.parse; rw [split_join _ (by simp) h]

/-- C126, exactly: if a header is refused, the fields before the first bad one have been taken, as if they had been a header of their own; the
bad one has left what `Leaves` says, on top of the lower protocol it may name; nothing of those after it has been taken. -/
theorem C126_exact (t : Transport) (before after : List Bytes) (bad key : Bytes) (val : Option Bytes) (hb : ∀ f ∈ before, (59 : UInt8) ∉ f ∧ FieldOk f)
    (ha : ∀ f ∈ after, (59 : UInt8) ∉ f) (hs : (59 : UInt8) ∉ bad) (hf : FieldText bad key val) (hbad : ¬ FieldOk bad) :
    ∃ t1 t2 e, (t.parse (joinSep 59 before)).2 = none ∧ Lowered (t.parse (joinSep 59 before)).1 bad t1 ∧ Leaves t1 (toLower key) val t2 ∧
      t.parse (joinSep 59 (before ++ bad :: after)) = (t2, some e) := by
  have h1 : (transpFields t before).2 = none := (transpFields_ok before t).2 fun f hf => (hb f hf).2
  rw [parse_fields t before fun f hf => (hb f hf).1, parse_fields t (before ++ bad :: after) (by
    intro f hf
    rcases List.mem_append.1 hf with hf | hf
    · exact (hb f hf).1
    · rcases List.mem_cons.1 hf with rfl | hf
      · exact hs
      · exact ha f hf), transpFields_append _ _ _ h1]
  generalize (transpFields t before).1 = t0
  obtain ⟨key', val', hf', hs', hu⟩ := field_text bad
  obtain ⟨rfl, rfl⟩ := hu key val hf
  have e : transpField t0 bad = transpKey (transpLower t0 bad) (toLower key) val := by
    unfold transpField; rw [hs']; cases val <;> rfl
  have hne : (transpField t0 bad).2 ≠ none := fun h => hbad ((transpField_ok t0 bad).1 h)
  rw [transpFields]
  cases hk : transpField t0 bad with
  | mk t2 err =>
    cases err with
    | none => rw [hk] at hne; exact absurd rfl hne
    | some err =>
      refine ⟨transpLower t0 bad, t2, err, h1, transpLower_lowered t0 bad, ?_, rfl⟩
      have := transpKey_leaves (transpLower t0 bad) (toLower key) val (by rw [← e]; exact hne)
      rw [← e, hk] at this
      exact this

/-- A name alone. -/
theorem bare_field {bad : Bytes} (h1 : (61 : UInt8) ∉ bad) (h2 : toLower bad ∈ textNames ++ numberNames ++ rangeNames) : FieldText bad bad none ∧ ¬ FieldOk bad := by
  have hf : FieldText bad bad none := ⟨h1, .inl ⟨rfl, rfl⟩⟩
  refine ⟨hf, fun h => ?_⟩
  obtain ⟨a, b, c⟩ := h bad none hf
  rcases List.mem_append.1 h2 with h2 | h2
  · rcases List.mem_append.1 h2 with h2 | h2
    · obtain ⟨_, h⟩ := a h2; cases h
    · obtain ⟨_, _, h, _⟩ := b h2; cases h
  · obtain ⟨_, _, h, _⟩ := c h2; cases h

theorem slash_lower : ∀ s : Bytes, (47 : UInt8) ∈ s → (47 : UInt8) ∈ toLower s := by
  intro s
  induction s using toLower.induct with
  | case1 => simp
  | case2 c => intro h; simp only [List.mem_singleton] at h; subst h; decide
  | case3 c d hc => intro h; rw [hc.1, hc.2] at h; exact absurd h (by decide)
  | case4 c d hc =>
    intro h
    rw [toLower, if_neg hc]
    simp only [List.mem_cons, List.not_mem_nil, or_false] at h ⊢
    rcases h with h | h <;> subst h
    · exact .inl (by decide)
    · exact .inr (by decide)
  | case5 c d e t hc ih =>
    intro h
    rw [toLower, if_pos hc]
    rw [hc.1, hc.2] at h
    simp only [List.mem_cons] at h
    rcases h with h | h | h
    · exact absurd h (by decide)
    · exact absurd h (by decide)
    · exact List.mem_cons_of_mem _ (ih (by simpa using h))
  | case6 c d e t hc hk ih =>
    intro h
    rw [toLower, if_neg hc, if_pos hk]
    rw [hk.1, hk.2.1, hk.2.2] at h
    simp only [List.mem_cons] at h
    rcases h with h | h | h | h
    · exact absurd h (by decide)
    · exact absurd h (by decide)
    · exact absurd h (by decide)
    · exact List.mem_cons_of_mem _ (ih h)
  | case7 c d e t hc hk ih =>
    intro h
    rw [toLower, if_neg hc, if_neg hk]
    rcases List.mem_cons.1 h with h | h
    · subst h; exact List.mem_cons.2 (.inl (by decide))
    · exact List.mem_cons_of_mem _ (ih h)

/-- No slashes in the names that need something. -/
theorem bare_slash {bad : Bytes} (h2 : toLower bad ∈ textNames ++ numberNames ++ rangeNames) : (47 : UInt8) ∉ bad := by
  intro h
  have : (47 : UInt8) ∈ toLower bad := by
    exact slash_lower bad h
  revert this
  generalize toLower bad = k at h2
  intro h
  have : ∀ k ∈ textNames ++ numberNames ++ rangeNames, (47 : UInt8) ∉ k := by decide
  exact this k h2 h

/-- The result if the bad field is a name alone that is not `interleaved`: what the fields before it say. -/
theorem spoilt_bare (t : Transport) (before after : List Bytes) (bad : Bytes) (hb : ∀ f ∈ before, (59 : UInt8) ∉ f ∧ FieldOk f)
    (ha : ∀ f ∈ after, (59 : UInt8) ∉ f) (hs : (59 : UInt8) ∉ bad) (h1 : (61 : UInt8) ∉ bad) (h2 : toLower bad ∈ textNames ++ numberNames ++ rangeNames)
    (h3 : toLower bad ≠ b!"interleaved") :
    ∃ e, t.parse (joinSep 59 (before ++ bad :: after)) = ((t.parse (joinSep 59 before)).1, some e) := by
  obtain ⟨hf, hbad⟩ := bare_field h1 h2
  obtain ⟨t1, t2, e, _, hl, hv, he⟩ := C126_exact t before after bad bad none hb ha hs hf hbad
  have e1 : t1 = (t.parse (joinSep 59 before)).1 := by
    rcases hl with ⟨a, b, c, e, _⟩ | ⟨_, e⟩
    · exact absurd (by rw [e]; simp) (bare_slash h2)
    · exact e
  have e2 : t2 = t1 := by
    generalize toLower bad = k at hv h3
    cases hv with
    | bare _ _ => rfl
    | interleaved => exact absurd rfl h3
  subst e2 e1
  exact ⟨e, he⟩

/-- C126, what holds: a header that is refused for a name without a value, other than `interleaved`, changes nothing, if the fields before it change
nothing (there are none, or they say what is known). Missing: all others (`C126_exact` says what they change). -/
theorem C126_unchanged_partial (t : Transport) (before after : List Bytes) (bad : Bytes) (hb : ∀ f ∈ before, (59 : UInt8) ∉ f ∧ FieldOk f)
    (ha : ∀ f ∈ after, (59 : UInt8) ∉ f) (hs : (59 : UInt8) ∉ bad) (h1 : (61 : UInt8) ∉ bad) (h2 : toLower bad ∈ textNames ++ numberNames ++ rangeNames)
    (h3 : toLower bad ≠ b!"interleaved") (hsame : (t.parse (joinSep 59 before)).1 = t) :
    ∃ e, t.parse (joinSep 59 (before ++ bad :: after)) = (t, some e) := by
  obtain ⟨e, he⟩ := spoilt_bare t before after bad hb ha hs h1 h2 h3
  exact ⟨e, by rw [he, hsame]⟩

/-- C126 fails for every header with fields that change something before a name without a value: it is refused, and the change stays. -/
theorem C126_kept_refuted (t : Transport) (before after : List Bytes) (bad : Bytes) (hb : ∀ f ∈ before, (59 : UInt8) ∉ f ∧ FieldOk f)
    (ha : ∀ f ∈ after, (59 : UInt8) ∉ f) (hs : (59 : UInt8) ∉ bad) (h1 : (61 : UInt8) ∉ bad) (h2 : toLower bad ∈ textNames ++ numberNames ++ rangeNames)
    (h3 : toLower bad ≠ b!"interleaved") (hsame : (t.parse (joinSep 59 before)).1 ≠ t) :
    (t.parse (joinSep 59 (before ++ bad :: after))).2 ≠ none ∧ (t.parse (joinSep 59 (before ++ bad :: after))).1 ≠ t := by
  obtain ⟨e, he⟩ := spoilt_bare t before after bad hb ha hs h1 h2 h3
  rw [he]
  exact ⟨by simp, hsame⟩

/-- C126 fails for every multicast transport: a field `interleaved` without channels makes it unicast, although the header is refused. -/
theorem C126_interleaved_refuted (t : Transport) (after : List Bytes) (ha : ∀ f ∈ after, (59 : UInt8) ∉ f) (hm : t.isMulticast = true) :
    ∃ e, t.parse (joinSep 59 (b!"interleaved" :: after)) = ({ t with isMulticast := false }, some e) ∧ { t with isMulticast := false } ≠ t := by
  obtain ⟨hf, hbad⟩ := bare_field (bad := b!"interleaved") (by decide) (by decide)
  obtain ⟨t1, t2, e, _, hl, hv, he⟩ := C126_exact t [] after b!"interleaved" b!"interleaved" none (by simp) ha (by decide) hf hbad
  have e0 : (t.parse (joinSep 59 [])).1 = t := rfl
  rw [e0] at hl
  have e1 : t1 = t := by
    rcases hl with ⟨a, b, c, e, _⟩ | ⟨_, e⟩
    · have : (47 : UInt8) ∈ b!"interleaved" := by rw [e]; simp
      exact absurd this (by decide)
    · exact e
  subst e1
  rw [show toLower b!"interleaved" = b!"interleaved" by decide] at hv
  refine ⟨e, ?_, fun h => ?_⟩
  · rw [List.nil_append] at he
    rw [he]
    generalize hk : b!"interleaved" = k at hv
    cases hv with
    | bare _ h => exact absurd hk.symm h
    | interleaved => rfl
  · have := congrArg Transport.isMulticast h
    rw [hm] at this
    cases this

/-- Meeting the hypotheses: a server that changes the ports and forgets the address. -/
example : ∃ before bad, (∀ f ∈ before, (59 : UInt8) ∉ f ∧ FieldOk f) ∧ toLower bad ∈ textNames ++ numberNames ++ rangeNames ∧
    joinSep 59 (before ++ bad :: [b!"ttl=3"]) = b!"RTP/AVP;unicast;server_port=6000-6001;Source;ttl=3" ∧
    ((newTransport .unicast 0).parse (joinSep 59 (before ++ bad :: [b!"ttl=3"]))).1.serverPort = ⟨6000, 6001⟩ ∧
    ((newTransport .unicast 0).parse (joinSep 59 (before ++ bad :: [b!"ttl=3"]))).1.ttl = 0 := by
  refine ⟨[b!"RTP/AVP", b!"unicast", b!"server_port=6000-6001"], b!"Source", fun f hf => ?_, by decide, by decide, by decide, by decide⟩
  have hok : (transpField {} f).2 = none := by
    simp only [List.mem_cons, List.not_mem_nil, or_false] at hf
    rcases hf with rfl | rfl | rfl <;> decide
  refine ⟨?_, (transpField_ok {} f).1 hok⟩
  simp only [List.mem_cons, List.not_mem_nil, or_false] at hf
  rcases hf with rfl | rfl | rfl <;> decide

/-- A bad range and a bad number: what is stored. -/
example : ((newTransport .unicast 0).parse b!"RTP/AVP;server_port=6000-x;ttl=3").1.serverPort = ⟨6000, 6001⟩ ∧
    ((newTransport .multicast 0).parse b!"RTP/AVP;ttl=99999999999999999999").1.ttl = 2 ^ 63 - 1 := by decide

end Ouro
