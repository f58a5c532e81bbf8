import Verif.Lemmas.Order
import Verif.Props.Spoilt
import Verif.Spec.TransportOrder
/-! # C140: the order of the fields of a `Transport` header -/
namespace Ouro
open Spec

/-- What a name and a value tell about a part. -/
def keyTells (key : Bytes) (val : Option Bytes) : TPart → Option TVal
  | .tcp => none
  | .interleaved => none
  | .multicast => if key = b!"unicast" then some (.flag false) else if key = b!"multicast" then some (.flag true) else if key = b!"interleaved" then some (.flag false) else none
  | .append => if key = b!"append" then some (.flag true) else none
  | .channels => if key = b!"interleaved" then val.map fun v => .pair (parsePair v).1 else none
  | .port => if key = b!"port" then val.map fun v => .pair (parsePair v).1 else none
  | .clientPort => if key = b!"client_port" then val.map fun v => .pair (parsePair v).1 else none
  | .serverPort => if key = b!"server_port" then val.map fun v => .pair (parsePair v).1 else none
  | .layers => if key = b!"layers" then val.map fun v => .number (atoi v).1 else none
  | .ttl => if key = b!"ttl" then val.map fun v => .number (atoi v).1 else none
  | .destination => if key = b!"destination" then val.map .text else none
  | .source => if key = b!"source" then val.map .text else none
  | .ssrc => if key = b!"ssrc" then val.map .text else none
  | .mode => if key = b!"mode" then val.map .text else none

/-- The lower protocol a field names. -/
def lowerTells (f : Bytes) : Option TVal :=
  match split 47 f with
  | [_, _, low] => some (.flag (toUpper low = b!"TCP"))
  | _ => none

/-- What a field tells. -/
def fieldTells (f : Bytes) (k : TPart) : Option TVal :=
  if k = .tcp then lowerTells f
  else match splitN2 61 f with
  | key :: val :: _ => keyTells (toLower key) (some val) k
  | key :: [] => keyTells (toLower key) none k
  | [] => none

theorem part_ext {t u : Transport} (h : ∀ k : TPart, k.of t = k.of u) : t = u := by
  obtain ⟨a1, a2, a3, a4, a5, a6, a7, a8, a9, a10, a11, a12, a13, a14⟩ := t
  obtain ⟨b1, b2, b3, b4, b5, b6, b7, b8, b9, b10, b11, b12, b13, b14⟩ := u
  have e1 := h .tcp
  have e2 := h .multicast
  have e3 := h .interleaved
  have e4 := h .append
  have e5 := h .channels
  have e6 := h .port
  have e7 := h .clientPort
  have e8 := h .serverPort
  have e9 := h .layers
  have e10 := h .ttl
  have e11 := h .destination
  have e12 := h .source
  have e13 := h .ssrc
  have e14 := h .mode
  simp only [TPart.of, TVal.flag.injEq, TVal.pair.injEq, TVal.number.injEq, TVal.text.injEq] at *
  subst_vars
  rfl

theorem key_part (t : Transport) (key : Bytes) (val : Option Bytes) (h : (transpKey t key val).2 = none) (k : TPart) :
    k.of (transpKey t key val).1 = (keyTells key val k).getD (k.of t) := by
  by_cases h1 : key = b!"unicast"
  · subst h1; cases k <;> rfl
  by_cases h2 : key = b!"multicast"
  · subst h2; cases k <;> rfl
  by_cases h3 : key = b!"append"
  · subst h3; cases k <;> rfl
  by_cases h4 : key ∈ textNames ++ numberNames ++ rangeNames
  · simp only [textNames, numberNames, rangeNames, List.cons_append, List.nil_append, List.mem_cons, List.not_mem_nil, or_false] at h4
    rcases h4 with rfl | rfl | rfl | rfl | rfl | rfl | rfl | rfl | rfl | rfl
    all_goals
      cases val with
      | none => exact absurd h (by simp [transpKey, withVal])
      | some v => cases k <;> rfl
  · have hk : ∀ n ∈ textNames ++ numberNames ++ rangeNames, key ≠ n := fun n hn e => h4 (e ▸ hn)
    have g1 := hk b!"destination" (by decide)
    have g2 := hk b!"source" (by decide)
    have g3 := hk b!"ssrc" (by decide)
    have g4 := hk b!"mode" (by decide)
    have g5 := hk b!"ttl" (by decide)
    have g6 := hk b!"layers" (by decide)
    have g7 := hk b!"interleaved" (by decide)
    have g8 := hk b!"port" (by decide)
    have g9 := hk b!"client_port" (by decide)
    have g10 := hk b!"server_port" (by decide)
    have e : transpKey t key val = (t, none) := by
      unfold transpKey
      rw [if_neg h1, if_neg h2, if_neg g1, if_neg g2, if_neg g7, if_neg h3, if_neg g6, if_neg g5, if_neg g8, if_neg g9, if_neg g10, if_neg g3, if_neg g4]
    have e2 : keyTells key val k = none := by
      cases k <;> simp only [keyTells, if_neg h1, if_neg h2, if_neg h3, if_neg g1, if_neg g2, if_neg g3, if_neg g4, if_neg g5, if_neg g6, if_neg g7, if_neg g8, if_neg g9, if_neg g10]
    rw [e, e2]
    rfl

theorem lower_part (t : Transport) (f : Bytes) (k : TPart) : k.of (transpLower t f) = (if k = .tcp then lowerTells f else none).getD (k.of t) := by
  by_cases hk : k = .tcp
  · subst hk
    rw [if_pos rfl]
    unfold transpLower lowerTells
    generalize split 47 f = l
    rcases l with _ | ⟨a, _ | ⟨b, _ | ⟨c, _ | ⟨d, l⟩⟩⟩⟩ <;> rfl
  · rw [if_neg hk]
    unfold transpLower
    split
    · cases k <;> first | exact absurd rfl hk | rfl
    · rfl

theorem keyTells_tcp (key : Bytes) (val : Option Bytes) : keyTells key val .tcp = none := rfl

theorem field_part (t : Transport) (f : Bytes) (h : FieldOk f) (k : TPart) : k.of (transpField t f).1 = (fieldTells f k).getD (k.of t) := by
  have ho := (transpField_ok t f).2 h
  obtain ⟨key, val, hf, hs, hu⟩ := field_text f
  have e : transpField t f = transpKey (transpLower t f) (toLower key) val := by
    unfold transpField; rw [hs]; cases val <;> rfl
  have e2 : fieldTells f k = if k = .tcp then lowerTells f else keyTells (toLower key) val k := by
    unfold fieldTells; rw [hs]; cases val <;> rfl
  rw [e] at ho ⊢
  rw [key_part _ _ _ ho, lower_part, e2]
  by_cases hk : k = .tcp
  · subst hk
    rw [if_pos rfl, if_pos rfl, keyTells_tcp]
    rfl
  · rw [if_neg hk, if_neg hk]
    rfl

theorem fields_part (fs : List Bytes) : ∀ t : Transport, (∀ f ∈ fs, FieldOk f) → ∀ k : TPart, k.of (transpFields t fs).1 = (lastSaid fieldTells fs k).getD (k.of t) := by
  induction fs with
  | nil => intro t _ k; rfl
  | cons f fs ih =>
    intro t h k
    have hf := field_part t f (h f (by simp)) k
    have ho := (transpField_ok t f).2 (h f (by simp))
    rw [transpFields, lastSaid_cons]
    cases hk : transpField t f with
    | mk t' e =>
      rw [hk] at hf ho
      dsimp only at hf ho
      subst ho
      dsimp only
      rw [ih t' (fun g hg => h g (by simp [hg])), hf]

/-! ## What a field tells is what the specification says -/

theorem lowerTells_iff (f : Bytes) (v : TVal) : lowerTells f = some v ↔
    ∃ a b c : Bytes, f = a ++ 47 :: (b ++ 47 :: c) ∧ (47 : UInt8) ∉ a ∧ (47 : UInt8) ∉ b ∧ (47 : UInt8) ∉ c ∧ v = .flag (toUpper c = b!"TCP") := by
  constructor
  · intro h
    unfold lowerTells at h
    split at h
    · rename_i x y low e
      have hj := split_joinSep 47 f
      have hn := split_mem (c := 47) f
      rw [e] at hj hn
      injection h with h
      exact ⟨x, y, low, by rw [← hj]; simp [joinSep], hn x (by simp), hn y (by simp), hn low (by simp), h.symm⟩
    · cases h
  · rintro ⟨a, b, c, rfl, ha, hb, hc, rfl⟩
    unfold lowerTells
    rw [split_append _ ha, split_append _ hb, split_none hc]

theorem tells_sets (f : Bytes) (h : FieldOk f) (k : TPart) (v : TVal) : fieldTells f k = some v ↔ Sets f k v := by
  obtain ⟨key, val, hf, hs, hu⟩ := field_text f
  have e2 : fieldTells f k = if k = .tcp then lowerTells f else keyTells (toLower key) val k := by
    unfold fieldTells; rw [hs]; cases val <;> rfl
  have hn : Named f (toLower key) val := ⟨key, hf, rfl⟩
  have hu' : ∀ {name val'}, Named f name val' → toLower key = name ∧ val = val' := by
    rintro name val' ⟨key', h1, h2⟩
    obtain ⟨rfl, rfl⟩ := hu key' val' h1
    exact ⟨h2, rfl⟩
  obtain ⟨_, hnum, hran⟩ := h key val hf
  have hn1 : ∀ w, val = some w → toLower key ∈ numberNames → Numeral w (atoi w).1 := by
    intro w hw hm
    obtain ⟨w', i, e, hi⟩ := hnum hm
    rw [hw] at e; injection e with e; subst e
    rw [(atoi_iff w i).2 hi]; exact hi
  have hr1 : ∀ w, val = some w → toLower key ∈ rangeNames → RangeText w (parsePair w).1 := by
    intro w hw hm
    obtain ⟨w', p, e, hp⟩ := hran hm
    rw [hw] at e; injection e with e; subst e
    rw [(parsePair_iff w p).2 hp]; exact hp
  rw [e2]
  constructor
  · intro ht
    by_cases hk : k = .tcp
    · subst hk
      rw [if_pos rfl] at ht
      obtain ⟨a, b, c, rfl, ha, hb, hc, rfl⟩ := (lowerTells_iff f v).1 ht
      exact .lower ha hb hc
    · rw [if_neg hk] at ht
      cases k <;> simp only [keyTells] at ht
      case tcp => exact absurd rfl hk
      case interleaved => cases ht
      case multicast =>
        split at ht
        · next e => injection ht with ht; subst ht; rw [e] at hn; exact .unicast hn
        · split at ht
          · next e => injection ht with ht; subst ht; rw [e] at hn; exact .multicast hn
          · split at ht
            · next e => injection ht with ht; subst ht; rw [e] at hn; exact .single hn
            · cases ht
      case append =>
        split at ht
        · next e => injection ht with ht; subst ht; rw [e] at hn; exact .append hn
        · cases ht
      all_goals
        split at ht
        · next e =>
          cases val with
          | none => cases ht
          | some w =>
            injection ht with ht
            subst ht
            have a1 := hn1 w rfl
            have a2 := hr1 w rfl
            rw [e] at hn a1 a2
            first
            | exact .channels hn (a2 (by decide))
            | exact .port hn (a2 (by decide))
            | exact .clientPort hn (a2 (by decide))
            | exact .serverPort hn (a2 (by decide))
            | exact .layers hn (a1 (by decide))
            | exact .ttl hn (a1 (by decide))
            | exact .destination hn
            | exact .source hn
            | exact .ssrc hn
            | exact .mode hn
        · cases ht
  · intro hset
    cases hset with
    | lower ha hb hc => rw [if_pos rfl]; exact (lowerTells_iff _ _).2 ⟨_, _, _, rfl, ha, hb, hc, rfl⟩
    | unicast h => obtain ⟨e, _⟩ := hu' h; rw [e]; rfl
    | multicast h => obtain ⟨e, _⟩ := hu' h; rw [e]; rfl
    | single h => obtain ⟨e, _⟩ := hu' h; rw [e]; rfl
    | append h => obtain ⟨e, _⟩ := hu' h; rw [e]; rfl
    | channels h hr => obtain ⟨e, rfl⟩ := hu' h; rw [e]; simp [keyTells, (parsePair_iff _ _).2 hr]
    | port h hr => obtain ⟨e, rfl⟩ := hu' h; rw [e]; simp [keyTells, (parsePair_iff _ _).2 hr]
    | clientPort h hr => obtain ⟨e, rfl⟩ := hu' h; rw [e]; simp [keyTells, (parsePair_iff _ _).2 hr]
    | serverPort h hr => obtain ⟨e, rfl⟩ := hu' h; rw [e]; simp [keyTells, (parsePair_iff _ _).2 hr]
    | layers h hr => obtain ⟨e, rfl⟩ := hu' h; rw [e]; simp [keyTells, (atoi_iff _ _).2 hr]
    | ttl h hr => obtain ⟨e, rfl⟩ := hu' h; rw [e]; simp [keyTells, (atoi_iff _ _).2 hr]
    | destination h => obtain ⟨e, rfl⟩ := hu' h; rw [e]; rfl
    | source h => obtain ⟨e, rfl⟩ := hu' h; rw [e]; rfl
    | ssrc h => obtain ⟨e, rfl⟩ := hu' h; rw [e]; rfl
    | mode h => obtain ⟨e, rfl⟩ := hu' h; rw [e]; rfl

/-! ## Theorems -/

/-- **C140.** Whether a header is accepted does not depend on the order of its fields. -/
theorem C140_accepted (t : Transport) (fields fields' : List Bytes) (hp : fields'.Perm fields) (h : ∀ f ∈ fields, (59 : UInt8) ∉ f) :
    (t.parse (joinSep 59 fields')).2 = none ↔ (t.parse (joinSep 59 fields)).2 = none := by
  rw [parse_fields t fields h, parse_fields t fields' fun f hf => h f (hp.subset hf), transpFields_ok, transpFields_ok]
  exact ⟨fun g f hf => g f (hp.symm.subset hf), fun g f hf => g f (hp.subset hf)⟩

/-- **C140, the exact law.** The fields of an acceptable header may be put in any order, without a difference to any transport, exactly if no two of them disagree. -/
theorem C140_iff (fields : List Bytes) (h : ∀ f ∈ fields, (59 : UInt8) ∉ f) (hok : ∀ f ∈ fields, FieldOk f) :
    (∀ (t : Transport) (fields' : List Bytes), fields'.Perm fields → t.parse (joinSep 59 fields') = t.parse (joinSep 59 fields)) ↔ Consistent fields := by
  have hc : Consistent fields ↔ ∀ a ∈ fields, ∀ b ∈ fields, ∀ k v w, fieldTells a k = some v → fieldTells b k = some w → v = w := by
    constructor
    · intro hc a ha b hb k v w hv hw
      exact hc a ha b hb k v w ((tells_sets a (hok a ha) k v).1 hv) ((tells_sets b (hok b hb) k w).1 hw)
    · intro hc a ha b hb k v w hv hw
      exact hc a ha b hb k v w ((tells_sets a (hok a ha) k v).2 hv) ((tells_sets b (hok b hb) k w).2 hw)
  rw [hc]
  constructor
  · intro hall a ha b hb k v w hv hw
    have key : ∀ (t : Transport), ∀ a ∈ fields, ∀ v, fieldTells a k = some v → k.of (t.parse (joinSep 59 fields)).1 = v := by
      intro t a ha v hv
      obtain ⟨s, r, e⟩ := List.append_of_mem ha
      have hp : ((s ++ r) ++ [a]).Perm fields := by
        rw [e]
        exact (List.perm_append_singleton a (s ++ r)).trans List.perm_middle.symm
      rw [← hall t _ hp, parse_fields t _ fun f hf => h f (hp.subset hf), fields_part _ t fun f hf => hok f (hp.subset hf), lastSaid_end _ hv]
      rfl
    exact (key {} a ha v hv).symm.trans (key {} b hb w hw)
  · intro hag t fields' hp
    have := (order_iff fieldTells fields).2 hag fields' hp
    rw [parse_fields t fields h, parse_fields t fields' fun f hf => h f (hp.subset hf)]
    refine Prod.ext (part_ext fun k => ?_) ?_
    · rw [fields_part _ t fun f hf => hok f (hp.subset hf), fields_part _ t hok, this k]
    · rw [(transpFields_ok fields' t).2 fun f hf => hok f (hp.subset hf), (transpFields_ok fields t).2 hok]

/-- **C140, refuted.** A grammatical header whose last two fields may not be exchanged: `multicast` after `interleaved` is believed, before it is not. -/
theorem C140_refuted : ∃ (fields fields' : List Bytes), (∀ f ∈ fields, (59 : UInt8) ∉ f) ∧ (∀ f ∈ fields, FieldOk f) ∧ fields'.Perm fields ∧
    ((newTransport .tcp 0).parse (joinSep 59 fields')).1 ≠ ((newTransport .tcp 0).parse (joinSep 59 fields)).1 := by
  refine ⟨[b!"RTP/AVP/TCP", b!"multicast", b!"interleaved=0-1"], [b!"RTP/AVP/TCP", b!"interleaved=0-1", b!"multicast"], by decide, ?_, ?_, by decide⟩
  · rw [← transpFields_ok _ (newTransport .tcp 0)]
    decide
  · exact (List.Perm.swap _ _ _).cons _

/-- A server's answer whose fields agree. -/
def agreeing : List Bytes := [b!"RTP/AVP", b!"unicast", b!"client_port=50000-50001", b!"server_port=6000-6001", b!"ssrc=1A2B3C4D"]

/-- All parts. -/
def allParts : List TPart := [.tcp, .multicast, .interleaved, .append, .channels, .port, .clientPort, .serverPort, .layers, .ttl, .destination, .source, .ssrc, .mode]

/-- The hypotheses of `C140_iff` are met and its fields agree. -/
example : (∀ f ∈ agreeing, (59 : UInt8) ∉ f) ∧ (∀ f ∈ agreeing, FieldOk f) ∧ Consistent agreeing := by
  have hok : ∀ f ∈ agreeing, FieldOk f := by
    rw [← transpFields_ok _ (newTransport .unicast 0)]
    decide +kernel
  refine ⟨by decide, hok, fun a ha b hb k v w hv hw => ?_⟩
  have h1 := (tells_sets a (hok a ha) k v).2 hv
  have h2 := (tells_sets b (hok b hb) k w).2 hw
  have hall : ∀ a ∈ agreeing, ∀ b ∈ agreeing, ∀ k ∈ allParts, fieldTells a k = none ∨ fieldTells b k = none ∨ fieldTells a k = fieldTells b k := by decide +kernel
  rcases hall a ha b hb k (by cases k <;> decide) with e | e | e
  · rw [h1] at e; cases e
  · rw [h2] at e; cases e
  · rw [h1, h2] at e; injection e

/-- Not all fields are alike: the server's ports are set by one of them. -/
example : (((newTransport .unicast 0).parse (joinSep 59 agreeing.reverse)).1).serverPort = ⟨6000, 6001⟩ := by decide +kernel

end Ouro
