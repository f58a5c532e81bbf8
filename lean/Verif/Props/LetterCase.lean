import Verif.Spec.LetterCase
import Verif.Props.HeaderOrder
import Verif.Props.ParamOrder
import Verif.Props.Spoilt
import Verif.Props.Digest
/-! # C153: names in upper and lower case -/
namespace Ouro
open Spec

/-- Letters that are the same but for case. -/
theorem same_letter : ∀ a b : UInt8, lower1 a = lower1 b → upper1 a = upper1 b ∧ (a = 47 ↔ b = 47) := by
  have h1 : ∀ a : UInt8, upper1 (lower1 a) = upper1 a := forall_u8 (by decide +kernel)
  have h2 : ∀ a : UInt8, a = 47 ↔ lower1 a = 47 := forall_u8 (by decide +kernel)
  intro a b h
  exact ⟨by rw [← h1 a, ← h1 b, h], by rw [h2 a, h2 b, h]⟩

theorem toUpper_cons {c : UInt8} (h : c < 128) (s : Bytes) : toUpper (c :: s) = upper1 c :: toUpper s := by
  cases s with
  | nil => rfl
  | cons d t =>
    rw [toUpper, if_neg, if_neg]
    · rintro ⟨rfl, _⟩; exact absurd h (by decide)
    · rintro ⟨rfl, _⟩; exact absurd h (by decide)

/-- The parts between slashes of two texts that are the same but for the case of letters at their start. -/
theorem split_upper (r : Bytes) : ∀ a b : Bytes, Ascii a → Ascii b → lowerAscii a = lowerAscii b →
    (split 47 (a ++ r)).map toUpper = (split 47 (b ++ r)).map toUpper := by
  intro a
  induction a with
  | nil =>
    intro b _ _ h
    cases b with
    | nil => rfl
    | cons _ _ => cases h
  | cons x a ih =>
    intro b ha hb h
    cases b with
    | nil => cases h
    | cons y b =>
      have hx : lower1 x = lower1 y := (List.cons.inj h).1
      have i := ih b (fun c hc => ha c (by simp [hc])) (fun c hc => hb c (by simp [hc])) (List.cons.inj h).2
      obtain ⟨hu, hs⟩ := same_letter x y hx
      rw [List.cons_append, List.cons_append, split, split]
      by_cases hc : x = 47
      · rw [if_pos hc, if_pos (hs.1 hc), List.map_cons, List.map_cons, i]
      · rw [if_neg hc, if_neg (fun e => hc (hs.2 e))]
        revert i
        rcases h1 : split 47 (a ++ r) with _ | ⟨p, ps⟩
        · exact absurd h1 (split_ne_nil _ _)
        rcases h2 : split 47 (b ++ r) with _ | ⟨q, qs⟩
        · exact absurd h2 (split_ne_nil _ _)
        intro i
        dsimp only
        rw [List.map_cons, List.map_cons] at *
        rw [toUpper_cons (ha x (by simp)), toUpper_cons (hb y (by simp)), hu, (List.cons.inj i).1, (List.cons.inj i).2]

theorem transpLower_upper (t : Transport) {f g : Bytes} (h : (split 47 f).map toUpper = (split 47 g).map toUpper) : transpLower t f = transpLower t g := by
  unfold transpLower
  revert h
  generalize split 47 f = x
  generalize split 47 g = y
  intro h
  rcases x with _ | ⟨a, _ | ⟨b, _ | ⟨c, _ | ⟨d, l⟩⟩⟩⟩ <;> rcases y with _ | ⟨a', _ | ⟨b', _ | ⟨c', _ | ⟨d', l'⟩⟩⟩⟩ <;>
    simp only [List.map_cons, List.map_nil, List.cons.injEq, reduceCtorEq, and_false, and_true] at h <;> try rfl
  dsimp only
  rw [h.2.2]

theorem transpField_case (t : Transport) {f g : WField} (hf : f.WF) (hg : g.WF) (hn : lowerAscii f.name = lowerAscii g.name) (hv : f.value = g.value) :
    transpField t f.text = transpField t g.text := by
  have af : Ascii f.name := fun c hc => (hf.1 c hc).1
  have ag : Ascii g.name := fun c hc => (hg.1 c hc).1
  have nf : (61 : UInt8) ∉ f.name := fun hc => (hf.1 _ hc).2.1 rfl
  have ng : (61 : UInt8) ∉ g.name := fun hc => (hg.1 _ hc).2.1 rfl
  have hk : toLower f.name = toLower g.name := by rw [toLower_ascii af, toLower_ascii ag]; exact hn
  have hl : transpLower t f.text = transpLower t g.text := by
    apply transpLower_upper
    unfold WField.text
    rw [hv]
    exact split_upper _ _ _ af ag hn
  unfold transpField
  rw [hl]
  unfold WField.text
  rw [hv]
  cases g.value with
  | none => dsimp only; rw [List.append_nil, List.append_nil, splitN2_none nf, splitN2_none ng]; dsimp only; rw [hk]
  | some v => dsimp only; rw [splitN2_append _ nf, splitN2_append _ ng]; dsimp only; rw [hk]

theorem transpFields_case : ∀ (fs gs : List WField) (t : Transport), (∀ f ∈ fs, f.WF) → (∀ g ∈ gs, g.WF) → SameButNames fs gs →
    transpFields t (fs.map WField.text) = transpFields t (gs.map WField.text) := by
  intro fs
  induction fs with
  | nil =>
    intro gs t _ _ h
    cases gs with
    | nil => rfl
    | cons _ _ => cases h
  | cons f fs ih =>
    intro gs t hf hg h
    cases gs with
    | nil => cases h
    | cons g gs =>
      obtain ⟨h1, h2⟩ := List.cons.inj h
      rw [List.map_cons, List.map_cons, transpFields, transpFields, transpField_case t (hf f (by simp)) (hg g (by simp)) (Prod.mk.inj h1).1 (Prod.mk.inj h1).2]
      split
      · rfl
      · exact ih gs _ (fun x hx => hf x (by simp [hx])) (fun x hx => hg x (by simp [hx])) h2

theorem parse_fieldsText (t : Transport) (fs : List WField) (h : ∀ f ∈ fs, f.WF) : t.parse (fieldsText fs) = transpFields t (fs.map WField.text) := by
  have e : ∀ fs : List WField, fieldsText fs = joinSep 59 (fs.map WField.text) := by
    intro fs
    induction fs with
    | nil => rfl
    | cons f fs ih =>
      cases fs with
      | nil => rfl
      | cons g gs => rw [fieldsText, ih]; rfl; simp
  rw [e, parse_fields]
  intro x hx
  obtain ⟨f, hf, rfl⟩ := List.mem_map.1 hx
  intro hm
  rcases List.mem_append.1 hm with hm | hm
  · exact ((h f hf).1 _ hm).2.2 rfl
  · cases hv : f.value with
    | none => rw [hv] at hm; cases hm
    | some v =>
      rw [hv] at hm
      rcases List.mem_cons.1 hm with hm | hm
      · exact absurd hm (by decide)
      · exact (h f hf).2 v hv hm

/-- **C153**, part, for the Transport header: upper and lower case in the names of its fields and in the name of the lower protocol make no difference, to what is
understood or to what is refused, whatever the fields are and whatever the transport was before. -/
theorem C153_transport_partial (t : Transport) (fs gs : List WField) (hf : ∀ f ∈ fs, f.WF) (hg : ∀ g ∈ gs, g.WF) (h : SameButNames fs gs) :
    t.parse (fieldsText fs) = t.parse (fieldsText gs) := by
  rw [parse_fieldsText t fs hf, parse_fieldsText t gs hg, transpFields_case fs gs t hf hg h]

example : ∃ fs gs : List WField, (∀ f ∈ fs, f.WF) ∧ (∀ g ∈ gs, g.WF) ∧ SameButNames fs gs ∧ fieldsText fs = b!"RTP/AVP/TCP;unicast;interleaved=0-1;mode=PLAY" ∧
    fieldsText gs = b!"rtp/avp/tcp;UniCast;Interleaved=0-1;MODE=PLAY" := by
  refine ⟨[⟨b!"RTP/AVP/TCP", none⟩, ⟨b!"unicast", none⟩, ⟨b!"interleaved", some b!"0-1"⟩, ⟨b!"mode", some b!"PLAY"⟩],
    [⟨b!"rtp/avp/tcp", none⟩, ⟨b!"UniCast", none⟩, ⟨b!"Interleaved", some b!"0-1"⟩, ⟨b!"MODE", some b!"PLAY"⟩], ?_, ?_, rfl, rfl, rfl⟩ <;>
  · intro f hf
    simp only [List.mem_cons, List.not_mem_nil, or_false] at hf
    rcases hf with rfl | rfl | rfl | rfl <;> refine ⟨by decide, ?_⟩ <;> intro v hv <;> cases hv <;> decide

/-! ## Header lines -/

theorem setAll_case : ∀ (hs hs' : List SentHeader) (h : Header), (∀ e ∈ hs, e.WF) → (∀ e ∈ hs', e.WF) → SameButKeys hs hs' → setAll h hs = setAll h hs' := by
  intro hs
  induction hs with
  | nil =>
    intro hs' h _ _ he
    cases hs' with
    | nil => rfl
    | cons _ _ => cases he
  | cons a hs ih =>
    intro hs' h hw hw' he
    cases hs' with
    | nil => cases he
    | cons b hs' =>
      obtain ⟨h1, h2⟩ := List.cons.inj he
      have hk : canonKey a.name = canonKey b.name := (canonKey_same (hw a (by simp)).1.2 (hw' b (by simp)).1.2).2 (Prod.mk.inj h1).1
      have hs1 : h.set a.name a.value = h.set b.name b.value := by
        unfold Header.set
        rw [hk, show a.value = b.value from (Prod.mk.inj h1).2]
      show setAll (h.set a.name a.value) hs = setAll (h.set b.name b.value) hs'
      rw [hs1]
      exact ih hs' _ (fun x hx => hw x (by simp [hx])) (fun x hx => hw' x (by simp [hx])) h2

/-- **C153**, part, for the header lines of a response: upper and lower case in their names, and the blanks before their values, make no difference: the same response, or the
same error, and the client goes on reading at the same place. -/
theorem C153_headers_partial (l : Bytes) (hl : (10 : UInt8) ∉ l) (hs hs' : List SentHeader) (hw : ∀ h ∈ hs, h.WF) (hw' : ∀ h ∈ hs', h.WF) (hf : SameButKeys hs hs') (rest : List Ev)
    (r r' : Rdr) (he : r.err = none) (he' : r'.err = none) (hr : r.evs = (l ++ [10] ++ hs.flatMap SentHeader.text ++ [13, 10]).map .byte ++ rest)
    (hr' : r'.evs = (l ++ [10] ++ hs'.flatMap SentHeader.text ++ [13, 10]).map .byte ++ rest) :
    (unpackRsp r').1 = (unpackRsp r).1 ∧ ((∃ rsp, (unpackRsp r).1 = .ok rsp) → (unpackRsp r).2.evs = (unpackRsp r').2.evs) := by
  have hset := setAll_case hs hs' [] hw hw' hf
  obtain ⟨h1, h2⟩ := unpack_get_same l hl hs hs' hw hw' (fun name => by rw [hset]) rest r r' he he' hr hr'
  cases h : (unpackRsp r).1 with
  | error e => exact ⟨h1 e h, by rintro ⟨_, hx⟩; cases hx⟩
  | ok rsp =>
    obtain ⟨rsp', a, b, c, d, _, _, _, _, f⟩ := h2 rsp h
    refine ⟨?_, fun _ => f⟩
    rw [a, b, d, ← hset, ← c]

example : ∃ (hs hs' : List SentHeader) (r r' : Rdr), (∀ h ∈ hs, h.WF) ∧ (∀ h ∈ hs', h.WF) ∧ SameButKeys hs hs' ∧ r.err = none ∧ r'.err = none ∧
    r.evs = (b!"RTSP/1.0 200 OK\r" ++ [10] ++ b!"CSeq: 1\r\nSession: 12\r\nContent-Length: 2\r\n" ++ [13, 10]).map .byte ++ [.byte 97, .byte 98] ∧
    r'.evs = (b!"RTSP/1.0 200 OK\r" ++ [10] ++ b!"cseq:1\r\nSESSION: 12\r\ncontent-length:2\r\n" ++ [13, 10]).map .byte ++ [.byte 97, .byte 98] ∧
    hs.flatMap SentHeader.text = b!"CSeq: 1\r\nSession: 12\r\nContent-Length: 2\r\n" ∧ hs'.flatMap SentHeader.text = b!"cseq:1\r\nSESSION: 12\r\ncontent-length:2\r\n" := by
  refine ⟨[⟨b!"CSeq", b!" ", b!"1"⟩, ⟨b!"Session", b!" ", b!"12"⟩, ⟨b!"Content-Length", b!" ", b!"2"⟩], [⟨b!"cseq", b!"", b!"1"⟩, ⟨b!"SESSION", b!" ", b!"12"⟩, ⟨b!"content-length", b!"", b!"2"⟩],
    { buf := [], net := _, err := none }, { buf := [], net := _, err := none }, ?_, ?_, rfl, rfl, rfl, rfl, rfl, rfl, rfl⟩
  · simp only [SentHeader.WF, IsName, IsText]; decide
  · simp only [SentHeader.WF, IsName, IsText]; decide

/-! ## Descriptions -/

theorem encodingLine_fun {pt clock : Nat} {name : Bytes} (hn : EncodingName name) (m : Media) :
    lineFun (encodingLine pt name clock) m = sdpSlash (sdpField m (b!"rtpmap:" ++ natDigits pt)) (name ++ 47 :: natDigits clock) := by
  have hl : encodingLine pt name clock = b!"a=" ++ ((b!"rtpmap:" ++ natDigits pt) ++ 32 :: (name ++ 47 :: natDigits clock)) := by
    simp [encodingLine]
  obtain ⟨u, z, hu, hz⟩ := exists_last (natDigits_ne_nil clock)
  have ht : Trimmed (encodingLine pt name clock) :=
    trimmed_of 97 _ (b!"a=rtpmap:" ++ natDigits pt ++ 32 :: (name ++ 47 :: u)) z rfl (by decide) (by simp [encodingLine, hu]) (digit_plain _ (natDigits_digit _ _ hz))
  have no : ∀ c : UInt8, isDigit c = false → c ≠ 47 → (∀ x ∈ name, x ≠ c) → c ∉ name ++ 47 :: natDigits clock := by
    intro c h1 h2 h3 hm
    rcases List.mem_append.1 hm with hm | hm
    · exact h3 c hm rfl
    · rcases List.mem_cons.1 hm with hm | hm
      · exact h2 hm
      · exact digits_not_mem _ _ h1 hm
  rw [lineFun_attr hl ht, splitN2_append]
  · simp only [List.foldl_cons, List.foldl_nil]
    generalize sdpField m (b!"rtpmap:" ++ natDigits pt) = m1
    unfold sdpField
    rw [sdpColon_none _ (no 58 rfl (by decide) fun x hx => (hn x hx).2.2.1), sdpParams_none _ (no 59 rfl (by decide) fun x hx => (hn x hx).2.2.2)]
  · rw [List.mem_append]; rintro (h | h); exact absurd h (by decide); exact digits_not_mem _ _ rfl h

theorem encodingLine_plain {pt clock : Nat} {name : Bytes} (hn : EncodingName name) : isMLine (encodingLine pt name clock) = false ∧ (10 : UInt8) ∉ encodingLine pt name clock := by
  obtain ⟨u, z, hu, hz⟩ := exists_last (natDigits_ne_nil clock)
  have ht : Trimmed (encodingLine pt name clock) :=
    trimmed_of 97 _ (b!"a=rtpmap:" ++ natDigits pt ++ 32 :: (name ++ 47 :: u)) z rfl (by decide) (by simp [encodingLine, hu]) (digit_plain _ (natDigits_digit _ _ hz))
  constructor
  · unfold isMLine
    rw [trimSpace_id ht]
    rfl
  · unfold encodingLine
    intro hm
    rcases List.mem_append.1 hm with hm | hm
    · rcases List.mem_append.1 hm with hm | hm
      · exact absurd hm (by decide)
      · exact digits_not_mem _ _ rfl hm
    · rcases List.mem_cons.1 hm with hm | hm
      · exact absurd hm (by decide)
      · rcases List.mem_append.1 hm with hm | hm
        · exact absurd (hn _ hm).1 (by decide)
        · rcases List.mem_cons.1 hm with hm | hm
          · exact absurd hm (by decide)
          · exact digits_not_mem _ _ rfl hm

/-- **C153**, part, for the name of an encoding in a description: upper and lower case make no difference, whatever the lines before and behind are. -/
theorem C153_encoding_partial (pt clock : Nat) (a b : Bytes) (ha : EncodingName a) (hb : EncodingName b) (h : lowerAscii a = lowerAscii b) (before after : List Bytes)
    (hl : ∀ l ∈ before ++ after, (10 : UInt8) ∉ l) :
    sdpParse (unlines (before ++ encodingLine pt a clock :: after)) = sdpParse (unlines (before ++ encodingLine pt b clock :: after)) := by
  have asc : ∀ x, EncodingName x → Ascii x := fun x hx c hc => plain_lt c (hx c hc).1
  have hu : toUpper a = toUpper b := by
    have := split_upper [] a b (asc a ha) (asc b hb) h
    rw [List.append_nil, List.append_nil, split_none fun hc => (ha _ hc).2.1 rfl, split_none fun hc => (hb _ hc).2.1 rfl] at this
    exact (List.cons.inj this).1
  have hfun : lineFun (encodingLine pt a clock) = lineFun (encodingLine pt b clock) := by
    funext m
    rw [encodingLine_fun ha, encodingLine_fun hb]
    unfold sdpSlash
    rw [split_append _ fun hc => (ha _ hc).2.1 rfl, split_append _ fun hc => (hb _ hc).2.1 rfl, split_none (digits_not_mem _ _ rfl)]
    dsimp only
    rw [hu]
  have hline : ∀ st, sdpLine st (encodingLine pt a clock) = sdpLine st (encodingLine pt b clock) := by
    intro st
    rw [sdpLine_other st _ (encodingLine_plain ha).1, sdpLine_other st _ (encodingLine_plain hb).1, hfun]
  have lf : ∀ x, EncodingName x → ∀ l ∈ before ++ encodingLine pt x clock :: after, (10 : UInt8) ∉ l := by
    intro x hx l hm
    rcases List.mem_append.1 hm with hm | hm
    · exact hl l (List.mem_append_left _ hm)
    · rcases List.mem_cons.1 hm with rfl | hm
      · exact (encodingLine_plain hx).2
      · exact hl l (List.mem_append_right _ hm)
  rw [sdpParse_unlines _ (lf a ha), sdpParse_unlines _ (lf b hb), sdpLines_cat, sdpLines_cat]
  congr 2
  funext st
  rw [sdpLines, sdpLines, hline]

example : EncodingName b!"H264" ∧ EncodingName b!"h264" ∧ lowerAscii b!"H264" = lowerAscii b!"h264" ∧ encodingLine 96 b!"h264" 90000 = b!"a=rtpmap:96 h264/90000" := by
  unfold EncodingName
  decide +kernel

/-! ## Challenges -/

/-- **C153**, part, for the parameters of a challenge: upper and lower case in their names, as well as the white space around them, make no difference. -/
theorem C153_challenge_partial (uri : Bytes) (basic : Bool) (ps qs : List Param) (hne : ps ≠ []) (h : ∀ p ∈ ps, p.WF) (h' : ∀ p ∈ qs, p.WF)
    (hs : ps.map (fun p => (lowerAscii p.written, p.value)) = qs.map fun p => (lowerAscii p.written, p.value))
    (hl : ∀ p, ps.getLast? = some p → p.after = []) (hl' : ∀ p, qs.getLast? = some p → p.after = []) :
    newDigest uri ((if basic then b!"Basic " else b!"Digest ") ++ paramsText ps) = newDigest uri ((if basic then b!"Basic " else b!"Digest ") ++ paramsText qs) := by
  have h1 := newDigest_params uri [] [] basic ps hne h hl (by simp) (by simp)
  have h2 := newDigest_params uri [] [] basic qs (by rintro rfl; exact hne (List.map_eq_nil_iff.1 hs)) h' hl' (by simp) (by simp)
  rw [List.nil_append, List.append_nil] at h1 h2
  rw [h1, h2]
  have inj : ∀ a b : PName, a.text = b.text → a = b := by intro a b; cases a <;> cases b <;> decide
  have : ∀ (ps qs : List Param) (d : Digest), (∀ p ∈ ps, p.WF) → (∀ p ∈ qs, p.WF) →
      ps.map (fun p => (lowerAscii p.written, p.value)) = qs.map (fun p => (lowerAscii p.written, p.value)) →
      ps.foldl (fun d p => setParam d p.name p.value) d = qs.foldl (fun d p => setParam d p.name p.value) d := by
    intro ps
    induction ps with
    | nil =>
      intro qs d _ _ e
      cases qs with
      | nil => rfl
      | cons _ _ => cases e
    | cons p ps ih =>
      intro qs d hp hq e
      cases qs with
      | nil => cases e
      | cons q qs =>
        obtain ⟨e1, e2⟩ := List.cons.inj e
        have en : p.name = q.name := inj _ _ (by rw [← (hp p (by simp)).1, ← (hq q (by simp)).1]; exact (Prod.mk.inj e1).1)
        rw [List.foldl_cons, List.foldl_cons, en, show p.value = q.value from (Prod.mk.inj e1).2]
        exact ih qs _ (fun x hx => hp x (by simp [hx])) (fun x hx => hq x (by simp [hx])) e2
  rw [this ps qs _ h h' hs]

example : ∃ ps qs : List Param, (∀ p ∈ ps, p.WF) ∧ (∀ p ∈ qs, p.WF) ∧ ps.map (fun p => (lowerAscii p.written, p.value)) = qs.map (fun p => (lowerAscii p.written, p.value)) ∧
    paramsText ps = b!"realm=\"r\", nonce=\"n\"" ∧ paramsText qs = b!"REALM=\"r\",Nonce=\"n\"" := by
  refine ⟨[⟨.realm, b!"realm", b!"r", [], true, [], []⟩, ⟨.nonce, b!"nonce", b!"n", [], true, [32], []⟩], [⟨.realm, b!"REALM", b!"r", [], true, [], []⟩, ⟨.nonce, b!"Nonce", b!"n", [], true, [], []⟩],
    ?_, ?_, rfl, rfl, rfl⟩
  · simp only [Param.WF]; decide
  · simp only [Param.WF]; decide

/-! ## Where the case does make a difference -/

/-- **C153 does not hold in general**: the name of a format parameter in upper case is not known, and the parameter sets are lost; ... -/
theorem C153_parameter_refuted :
    (sdpParse (unlines [b!"m=video 0 RTP/AVP 96", b!"a=fmtp:96 packetization-mode=1; sprop-parameter-sets=Z0LAHg==,aM4="])).map (List.map Media.spropParameterSets) =
      .ok [[[0x67, 0x42, 0xC0, 0x1E], [0x68, 0xCE]]] ∧
    (sdpParse (unlines [b!"m=video 0 RTP/AVP 96", b!"a=fmtp:96 packetization-mode=1; Sprop-Parameter-Sets=Z0LAHg==,aM4="])).map (List.map Media.spropParameterSets) = .ok [[]] := by
  decide +kernel

/-- ... this is so for every description of one section with any such parameters: if `sprop-parameter-sets` is written in any other mixture of case, wherever it occurs, there
are no parameter sets; ... -/
theorem C153_parameters_refuted (l : Bytes) (hv : isVideoLine l = true) (hnl : (10 : UInt8) ∉ l) (pt : Nat) (ps : List (Bytes × Bytes)) (h : (Attr.fmtp pt ps).Printable)
    (hc : ∀ p ∈ ps, lowerAscii p.1 = b!"sprop-parameter-sets" → p.1 ≠ b!"sprop-parameter-sets") :
    ∃ m, sdpParse (unlines [l, (Attr.fmtp pt ps).line]) = .ok [m] ∧ m.spropParameterSets = [] := by
  rw [sdpParse_section l _ hv (fun x hx => by rw [List.mem_singleton.1 hx]; exact (printable_line h).1) (fun x hx => by
    rcases List.mem_cons.1 hx with rfl | hx
    · exact hnl
    · rw [List.mem_singleton.1 hx]; exact (printable_line h).2)]
  refine ⟨_, rfl, ?_⟩
  show (lineFun (Attr.fmtp pt ps).line (lineMedia l)).spropParameterSets = []
  rw [fmtp_line h]
  split
  · rw [(paramsFun_fields ps _).2.2.2.2.2]
    have : ps.filter (fun p => decide (p.1 = b!"sprop-parameter-sets")) = [] := by
      rw [List.filter_eq_nil_iff]
      intro p hp hd
      have e := of_decide_eq_true hd
      exact hc p hp (by rw [e]; decide) e
    rw [this]
    rfl
  · rfl

example : isVideoLine b!"m=video 0 RTP/AVP 96" = true ∧ (Attr.fmtp 96 [(b!"packetization-mode", b!"1"), (b!"Sprop-Parameter-Sets", b!"Z0LAHg==,aM4=")]).Printable ∧
    (∀ p ∈ [(b!"packetization-mode", b!"1"), (b!"Sprop-Parameter-Sets", b!"Z0LAHg==,aM4=")], lowerAscii p.1 = b!"sprop-parameter-sets" → p.1 ≠ b!"sprop-parameter-sets") := by
  refine ⟨by decide +kernel, ?_, by decide⟩
  simp only [Attr.Printable]
  decide

/-- ... and a challenge is refused, whatever its parameters are, if its scheme is not written exactly `Digest` or `Basic`. -/
theorem C153_scheme_refuted (uri scheme ps : Bytes) (z : UInt8) (hz : graphic z = true) (h : lowerAscii scheme = b!"digest" ∨ lowerAscii scheme = b!"basic")
    (hd : scheme ≠ b!"Digest") (hb : scheme ≠ b!"Basic") : newDigest uri (scheme ++ 32 :: (ps ++ [z])) = .error .malformed := by
  have first : ∀ c : UInt8, lower1 c = 100 ∨ lower1 c = 98 → plain c = true := forall_u8 (by decide +kernel)
  have ht : Trimmed (scheme ++ 32 :: (ps ++ [z])) := by
    match scheme, h with
    | [], h => exact absurd h (by decide)
    | c :: s, h =>
      refine trimmed_of c (s ++ 32 :: (ps ++ [z])) (c :: s ++ 32 :: ps) z rfl (first c ?_) (by simp) hz
      rcases h with h | h
      · exact .inl (List.cons.inj h).1
      · exact .inr (List.cons.inj h).1
  have hlen : scheme.length = 6 ∨ scheme.length = 5 := by
    rcases h with h | h
    · left; have := congrArg List.length h; simpa [lowerAscii] using this
    · right; have := congrArg List.length h; simpa [lowerAscii] using this
  refine C41_scheme _ _ ?_ ?_ <;> rw [trimSpace_id ht] <;> rintro ⟨t, ht⟩
  · rcases hlen with hl | hl
    · exact hd (List.append_inj (s₁ := scheme) (s₂ := b!"Digest") (t₁ := 32 :: (ps ++ [z])) (t₂ := 32 :: t) ht.symm hl).1
    · have := (List.append_inj (s₁ := scheme) (s₂ := b!"Diges") (t₁ := 32 :: (ps ++ [z])) (t₂ := 116 :: 32 :: t) ht.symm hl).2
      exact absurd (List.cons.inj this).1 (by decide)
  · rcases hlen with hl | hl
    · have := (List.append_inj (s₁ := scheme) (s₂ := b!"Basic ") (t₁ := 32 :: (ps ++ [z])) (t₂ := t) ht.symm hl).1
      rw [this] at h
      exact absurd h (by decide)
    · exact hb (List.append_inj (s₁ := scheme) (s₂ := b!"Basic") (t₁ := 32 :: (ps ++ [z])) (t₂ := 32 :: t) ht.symm hl).1

example : graphic 34 = true ∧ lowerAscii b!"digest" = b!"digest" ∧ b!"digest" ++ 32 :: (b!"realm=\"r\", nonce=\"n" ++ [34]) = b!"digest realm=\"r\", nonce=\"n\"" := by decide

end Ouro
