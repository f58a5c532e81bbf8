import Verif.Spec.SdpExact
import Verif.Props.Sdp
/-! # C36: what is taken from the attribute lines, exactly -/
namespace Ouro
open Spec

/-- The fields C36 speaks of. -/
structure SdpTook (m r : Media) (n : Option Int) (rm : Option (Nat × Nat)) (url : Option Bytes) (vals : List Bytes) : Prop where
  clock : r.timeScale = n.getD m.timeScale
  rtpmap : r.rtpmap = (rm.map fun p => (p.1 : Int)).getD m.rtpmap
  type : r.type = (rm.map fun _ => 96).getD m.type
  control : r.control = url.getD m.control
  sets : r.spropParameterSets = m.spropParameterSets ++ vals.flatMap setsOf
  payload : r.payloadType = m.payloadType

theorem sdpSlash_clock (m : Media) {f : Bytes}
    (hk : ∀ k t, split 47 f = k :: t → toUpper k ≠ b!"MPEG4-GENERIC" ∧ toUpper k ≠ b!"H264") :
    sdpSlash m f = { m with timeScale := (slashNumber f).getD m.timeScale } := by
  unfold sdpSlash slashNumber
  cases hs : split 47 f with
  | nil => rfl
  | cons k t =>
    cases t with
    | nil => rfl
    | cons k1 t =>
      obtain ⟨h1, h2⟩ := hk k _ hs
      dsimp only
      rw [if_neg h1, if_neg h2]
      show _ = { m with timeScale := ((some k1).bind fun a => if (atoi a).2.isNone = true then some (atoi a).1 else none).getD m.timeScale }
      cases ha : atoi k1 with
      | mk i e => cases e <;> simp [ha]

/-- One piece between semicolons. -/
theorem sdpParam_took (m : Media) (piece : Bytes) (h : ∀ c ∈ piece, plain c = true) :
    SdpTook m (sdpParam m piece) none none none
      (((cut 61 piece).bind fun p => if p.1 = b!"sprop-parameter-sets" then some p.2 else none).toList) := by
  unfold sdpParam splitN2
  cases hc : cut 61 piece with
  | none => exact ⟨rfl, rfl, rfl, rfl, by simp, rfl⟩
  | some p =>
    obtain ⟨k, v⟩ := p
    obtain ⟨e, hn⟩ := cut_some hc
    dsimp only
    have ht : trimSpace k = k := by
      apply trimSpace_id
      cases k with
      | nil => exact .inl rfl
      | cons a t =>
        obtain ⟨u, z, hu, hz⟩ := exists_last (s := a :: t) (by simp)
        exact trimmed_of a t u z rfl (h a (by rw [e]; simp)) hu (h z (by rw [e]; exact List.mem_append_left _ hz))
    rw [ht]
    obtain ⟨k1, k2, k3, k4, k5, k6⟩ := paramKey_fields m k v
    refine ⟨k1, k3, k4, k2, ?_, k5⟩
    rw [k6]
    by_cases hk : k = b!"sprop-parameter-sets"
    · simp [hk, setsOf]
    · simp [hk]

theorem SdpTook.trans {a b c : Media} {n1 n2 : Option Int} {r1 r2 : Option (Nat × Nat)} {c1 c2 : Option Bytes} {v1 v2 : List Bytes}
    (h1 : SdpTook a b n1 r1 c1 v1) (h2 : SdpTook b c n2 r2 c2 v2) :
    SdpTook a c (n2.or n1) (r2.or r1) (c2.or c1) (v1 ++ v2) := by
  obtain ⟨a1, a2, a3, a4, a5, a6⟩ := h1
  obtain ⟨b1, b2, b3, b4, b5, b6⟩ := h2
  refine ⟨?_, ?_, ?_, ?_, ?_, by rw [b6, a6]⟩
  · rw [b1, a1]; cases n2 <;> rfl
  · rw [b2, a2]; cases r2 <;> rfl
  · rw [b3, a3]; cases r2 <;> rfl
  · rw [b4, a4]; cases c2 <;> rfl
  · rw [b5, a5, List.append_assoc, List.flatMap_append]

theorem SdpTook.andThen {a b c : Media} {n : Option Int} {r : Option (Nat × Nat)} {u : Option Bytes} {v : List Bytes}
    (h1 : SdpTook a b n r u []) (h2 : SdpTook b c none none none v) : SdpTook a c n r u v := by
  have := h1.trans h2
  simpa using this

theorem pieces_took (ps : List Bytes) (h : ∀ p ∈ ps, ∀ c ∈ p, plain c = true) (m : Media) :
    SdpTook m (ps.foldl sdpParam m) none none none
      (ps.filterMap fun piece => (cut 61 piece).bind fun p => if p.1 = b!"sprop-parameter-sets" then some p.2 else none) := by
  induction ps generalizing m with
  | nil => exact ⟨rfl, rfl, rfl, rfl, by simp, rfl⟩
  | cons p t ih =>
    have := (sdpParam_took m p (h p (by simp))).trans (ih (fun x hx => h x (by simp [hx])) (sdpParam m p))
    rw [List.foldl_cons, List.filterMap_cons]
    cases hc : (cut 61 p).bind fun p => if p.1 = b!"sprop-parameter-sets" then some p.2 else none <;> rw [hc] at this <;> exact this

theorem split_chars {c : UInt8} (s : Bytes) : ∀ p ∈ split c s, ∀ x ∈ p, x ∈ s := by
  induction s with
  | nil => intro p hp; simp [split] at hp; subst hp; simp
  | cons a t ih =>
    intro p hp x hx
    unfold split at hp
    split at hp
    · rcases List.mem_cons.1 hp with rfl | hp
      · simp at hx
      · exact List.mem_cons_of_mem _ (ih p hp x hx)
    · split at hp
      · simp at hp; subst hp; simp at hx; simp [hx]
      · rename_i y ys hs
        rcases List.mem_cons.1 hp with rfl | hp
        · rcases List.mem_cons.1 hx with rfl | hx
          · simp
          · exact List.mem_cons_of_mem _ (ih y (by rw [hs]; simp) x hx)
        · exact List.mem_cons_of_mem _ (ih p (by rw [hs]; simp [hp]) x hx)

theorem split_prefix {c : UInt8} {a : Bytes} (ha : c ∉ a) (b : Bytes) : ∃ h, split c (a ++ b) = (a ++ h) :: (split c b).tail := by
  induction a with
  | nil =>
    cases hs : split c b with
    | nil => exact absurd hs (split_ne_nil _ _)
    | cons h t => exact ⟨h, by simp [hs]⟩
  | cons x t ih =>
    obtain ⟨h, e⟩ := ih (fun hm => ha (List.mem_cons_of_mem _ hm))
    refine ⟨h, ?_⟩
    rw [List.cons_append, split, if_neg (by intro e; exact ha (by simp [e])), e]
    rfl

theorem control_took {url : Bytes} (hg : (Attr.control url).Printable) (m : Media) :
    SdpTook m (lineFun (Attr.control url).line m) (Attr.control url).clock none (some url) (Attr.control url).sprops := by
  have hl : (Attr.control url).line = b!"a=" ++ (b!"control:" ++ url) := by simp [Attr.line]
  have hp : ∀ c ∈ (b!"control:" ++ url : Bytes), plain c = true := by
    intro c hc
    rcases List.mem_append.1 hc with h | h
    · exact (by decide : ∀ c ∈ b!"control:", plain c = true) c h
    · exact hg c h
  rw [lineFun_attr hl]
  · rw [splitN2_none]
    · simp only [List.foldl_cons, List.foldl_nil]
      unfold sdpField
      have e1 : sdpColon m (b!"control:" ++ url) = { m with control := url } := sdpColon_key m (k := b!"control") url (by decide)
      rw [e1, sdpSlash_clock]
      · have h1 : SdpTook m { m with control := url, timeScale := (slashNumber (b!"control:" ++ url)).getD m.timeScale }
            (slashNumber (b!"control:" ++ url)) none (some url) [] := ⟨rfl, rfl, rfl, rfl, by simp, rfl⟩
        refine h1.andThen ?_
        · unfold sdpParams
          have hfree : (59 : UInt8) ∉ b!"control:" := by decide
          obtain ⟨h, hs⟩ := split_prefix hfree url
          by_cases hlen : (split 59 (b!"control:" ++ url)).length > 1
          · rw [if_pos hlen]
            have := pieces_took (split 59 (b!"control:" ++ url)) (fun p hm c hc => hp c (split_chars _ p hm c hc))
              { m with control := url, timeScale := (slashNumber (b!"control:" ++ url)).getD m.timeScale }
            refine cast ?_ this
            congr 1
            rw [hs, List.filterMap_cons]
            have : ((cut 61 (b!"control:" ++ h)).bind fun p => if p.1 = b!"sprop-parameter-sets" then some p.2 else none) = none := by
              cases hc : cut 61 (b!"control:" ++ h) with
              | none => rfl
              | some p =>
                obtain ⟨k, v⟩ := p
                obtain ⟨e, _⟩ := cut_some hc
                show (if k = _ then _ else _) = none
                rw [if_neg]
                rintro rfl
                injection e with e _
                exact absurd e (by decide)
            rw [this]; rfl
          · rw [if_neg hlen]
            rw [hs] at hlen
            have : (split 59 url).tail = [] := by
              cases ht : (split 59 url).tail with
              | nil => rfl
              | cons a b => rw [ht] at hlen; exact absurd (by simp) hlen
            refine ⟨rfl, rfl, rfl, rfl, ?_, rfl⟩
            simp [Attr.sprops, this]
      · intro k t hk
        obtain ⟨r, hr, hr'⟩ := split_head hk
        cases k with
        | nil =>
          rcases hr' with rfl | ⟨r', rfl⟩
          · cases hr
          · injection hr with h _; exact absurd h (by decide)
        | cons c k =>
          have hr0 := hr
          injection hr with h1 h2
          have ha : Ascii (c :: k) := by
            intro b hb
            refine plain_lt b (hp b ?_)
            rw [hr0]; exact List.mem_append_left _ hb
          rw [toUpper_ascii ha, ← h1]
          constructor <;> (intro h; injection h with h _; exact absurd h (by decide))
    · intro h
      exact absurd (hp _ h) (by decide)
  · obtain ⟨u, z, hu, hz⟩ := exists_last (s := b!"control:" ++ url) (by simp)
    exact trimmed_of 97 _ (b!"a=" ++ u) z rfl (by decide) (by rw [hl, hu]; simp) (hp z hz)

theorem printable_trimmed {a : Attr} (h : a.Printable) : Trimmed a.line := by
  cases a with
  | rtpmap pt clock => exact attr_trimmed (a := .rtpmap pt clock) h
  | control url =>
    obtain ⟨u, z, hu, hz⟩ := exists_last (s := b!":" ++ url) (by simp)
    refine trimmed_of 97 _ (b!"a=control" ++ u) z rfl (by decide) ?_ ?_
    · rw [List.append_assoc, ← hu]; simp [Attr.line]
    · rcases List.mem_append.1 hz with hz | hz
      · exact (by decide : ∀ c ∈ b!":", plain c = true) z hz
      · exact h z hz
  | fmtp pt ps =>
    obtain ⟨u, z, hu, hz⟩ := paramText_last ps h.1 (fun p hp c hc => ((h.2 p hp).2 c hc).1)
    exact trimmed_of 97 _ (b!"a=fmtp:" ++ natDigits pt ++ 32 :: u) z rfl (by decide) (by simp [Attr.line, hu]) hz

theorem printable_chars {a : Attr} (h : a.Printable) : ∀ c ∈ a.line, plain c = true ∨ c = 32 := by
  cases a with
  | rtpmap pt clock => exact plain_append (plain_append (plain_append (by decide) (digits_plain _)) (by decide)) (digits_plain _)
  | control url => exact plain_append (by decide) fun c hc => .inl (h c hc)
  | fmtp pt ps =>
    refine plain_append (plain_append (by decide) (digits_plain _)) ?_
    show ∀ c ∈ b!" " ++ paramText ps, _
    refine plain_append (by decide) ?_
    refine paramText_mem ps (fun c => plain c = true ∨ c = 32) (.inl (by decide)) (.inl (by decide)) (.inr rfl) ?_
    intro p hp
    exact ⟨fun c hc => .inl ((h.2 p hp).1.2 c hc).1, fun c hc => .inl ((h.2 p hp).2 c hc).1⟩

theorem printable_line {a : Attr} (h : a.Printable) : isMLine a.line = false ∧ (10 : UInt8) ∉ a.line := by
  refine ⟨?_, fun hm => absurd (printable_chars h _ hm) (by decide)⟩
  unfold isMLine
  rw [trimSpace_id (printable_trimmed h)]
  cases a <;> rfl

theorem fmtp_took {pt : Nat} {ps : List (Bytes × Bytes)} (h : (Attr.fmtp pt ps).Printable) (m : Media) :
    SdpTook m (lineFun (Attr.fmtp pt ps).line m) (Attr.fmtp pt ps).clock none none (Attr.fmtp pt ps).sprops := by
  have htr := printable_trimmed h
  obtain ⟨hne, hps⟩ := h
  have hl : (Attr.fmtp pt ps).line = b!"a=" ++ ((b!"fmtp:" ++ natDigits pt) ++ 32 :: paramText ps) := by simp [Attr.line]
  have hch : ∀ c ∈ paramText ps, plain c = true ∨ c = 32 := by
    refine paramText_mem ps (fun c => plain c = true ∨ c = 32) (.inl (by decide)) (.inl (by decide)) (.inr rfl) ?_
    intro p hp
    exact ⟨fun c hc => .inl ((hps p hp).1.2 c hc).1, fun c hc => .inl ((hps p hp).2 c hc).1⟩
  have hasc : Ascii (paramText ps) := by
    intro c hc
    rcases hch c hc with h | rfl
    · exact plain_lt c h
    · decide
  match ps, hne with
  | (k, v) :: t, _ =>
  have hkv := hps (k, v) (by simp)
  have hpt : ∃ r, paramText ((k, v) :: t) = k ++ 61 :: r := by
    cases t with
    | nil => exact ⟨v, rfl⟩
    | cons q t => exact ⟨_, by rw [paramText_cons2]; simp; rfl⟩
  obtain ⟨r0, hpt⟩ := hpt
  rw [lineFun_attr hl htr]
  rw [splitN2_append]
  · simp only [List.foldl_cons, List.foldl_nil]
    have e1 : sdpField m (b!"fmtp:" ++ natDigits pt) = m := by
      unfold sdpField
      rw [sdpSlash_none, sdpParams_none]
      · rw [show (b!"fmtp:" ++ natDigits pt) = b!"fmtp" ++ 58 :: natDigits pt from rfl, sdpColon_key _ _ (by decide)]
        rfl
      · rw [List.mem_append]; rintro (h | h); exact absurd h (by decide); exact digits_not_mem _ _ rfl h
      · rw [List.mem_append]; rintro (h | h); exact absurd h (by decide); exact digits_not_mem _ _ rfl h
    rw [e1]
    unfold sdpField
    have e2 : sdpColon m (paramText ((k, v) :: t)) = m := by
      unfold sdpColon splitN2
      cases hc : cut 58 (paramText ((k, v) :: t)) with
      | none => rfl
      | some p =>
        obtain ⟨x, y⟩ := p
        dsimp only
        obtain ⟨hx, _⟩ := cut_some hc
        have : (61 : UInt8) ∈ x := by
          rw [hpt] at hx
          exact head_has_eq (c := 58) (by decide) (fun h => (hkv.1.2 _ h).2.2.2.2 rfl) hx (.inr ⟨y, rfl⟩)
        unfold sdpColonKey
        rw [if_neg, if_neg]
        · rintro rfl; exact absurd this (by decide)
        · rintro rfl; exact absurd this (by decide)
    rw [e2, sdpSlash_clock]
    · have h1 : SdpTook m { m with timeScale := (slashNumber (paramText ((k, v) :: t))).getD m.timeScale }
          (slashNumber (paramText ((k, v) :: t))) none none [] := ⟨rfl, rfl, rfl, rfl, by simp, rfl⟩
      refine h1.andThen ?_
      · generalize ({ m with timeScale := (slashNumber (paramText ((k, v) :: t))).getD m.timeScale } : Media) = m1
        unfold sdpParams
        have hsp := split_paramText (k, v) t (fun x hx => ⟨fun h => ((hps x hx).1.2 _ h).2.2.1 rfl, fun h => ((hps x hx).2 _ h).2 rfl⟩) [] (.inl rfl)
        rw [List.nil_append] at hsp
        rw [hsp]
        cases t with
        | nil => exact ⟨rfl, rfl, rfl, rfl, by simp [Attr.sprops], rfl⟩
        | cons q t =>
          rw [if_pos (by simp), List.foldl_cons, foldl_params]
          · have := sdpParam_eq m1 [] k v (.inl rfl) hkv.1.1 (fun c hc => ⟨(hkv.1.2 c hc).1, (hkv.1.2 c hc).2.1⟩)
            dsimp only
            rw [this]
            obtain ⟨k1, k2, k3, k4, k5, k6⟩ := paramsFun_fields ((k, v) :: q :: t) m1
            have he : paramsFun (q :: t) (sdpParamKey m1 k v) = paramsFun ((k, v) :: q :: t) m1 := rfl
            rw [he]
            refine ⟨k1, k3, k4, k2, ?_, k5⟩
            rw [k6, Attr.sprops, if_pos (by simp)]
            rfl
          · intro x hx
            have := (hps x (by simp only [List.mem_cons] at hx ⊢; exact .inr hx)).1
            exact ⟨this.1, fun c hc => ⟨(this.2 c hc).1, (this.2 c hc).2.1⟩⟩
    · intro x t' hx
      obtain ⟨r, hr, hr'⟩ := split_head hx
      have hm : (61 : UInt8) ∈ x := by
        rw [hpt] at hr
        exact head_has_eq (c := 47) (by decide) (fun h => (hkv.1.2 _ h).2.2.2.1 rfl) hr hr'
      have hm := toUpper_mem (s := x) (fun b hb => hasc b (by rw [hr]; exact List.mem_append_left _ hb)) hm
      constructor
      · intro h; rw [h] at hm; exact absurd hm (by decide)
      · intro h; rw [h] at hm; exact absurd hm (by decide)
  · rw [List.mem_append]; rintro (h | h); exact absurd h (by decide); exact digits_not_mem _ _ rfl h

/-- What one line says. -/
def Attr.map? : Attr → Option (Nat × Nat)
  | .rtpmap pt clock => some (pt, clock)
  | _ => none

def Attr.url? : Attr → Option Bytes
  | .control url => some url
  | _ => none

theorem attr_took {a : Attr} (h : a.Printable) (m : Media) :
    SdpTook m (lineFun a.line m) a.clock (Attr.map? a) (Attr.url? a) a.sprops := by
  cases a with
  | rtpmap pt clock =>
    rw [lineFun_rtpmap h.1 h.2]
    exact ⟨rfl, rfl, rfl, rfl, by simp [attrFun, Attr.sprops], rfl⟩
  | control url => exact control_took h m
  | fmtp pt ps => exact fmtp_took h m

theorem lines_took (attrs : List Attr) (h : ∀ a ∈ attrs, a.Printable) (m : Media) :
    SdpTook m ((attrs.map Attr.line).foldl (fun m x => lineFun x m) m) (attrs.filterMap Attr.clock).getLast? (lastRtpmap attrs)
      (lastControl attrs) (attrs.flatMap Attr.sprops) := by
  induction attrs generalizing m with
  | nil => exact ⟨rfl, rfl, rfl, rfl, by simp, rfl⟩
  | cons a t ih =>
    have := (attr_took (h a (by simp)) m).trans (ih (fun x hx => h x (by simp [hx])) (lineFun a.line m))
    rw [List.map_cons, List.foldl_cons, List.flatMap_cons]
    refine cast ?_ this
    congr 1
    · rw [List.filterMap_cons]
      cases a.clock with
      | none => simp
      | some n =>
        dsimp only
        rw [List.getLast?_cons]
        cases (t.filterMap Attr.clock).getLast? <;> rfl
    · cases a <;> simp [Attr.map?, lastRtpmap]
    · cases a <;> simp [Attr.url?, lastControl]

/-- **C36**, exact. What `Parse` takes from any printable attribute lines: the payload number and the codec are those of the last
`rtpmap` line and the control URL is that of the last `control` line, always; the clock rate is the last number any line gives
for one, which can be a number in a control URL or in a parameter; and the parameter sets are those of the `fmtp` lines with
two parameters at least, and those in control URLs with semicolons. -/
theorem C36_exact (l : Bytes) (attrs : List Attr) (hl : isVideoLine l = true) (hnl : (10 : UInt8) ∉ l)
    (hw : ∀ a ∈ attrs, a.Printable) :
    ∃ m, sdpParse (unlines (l :: attrs.map Attr.line)) = .ok [m] ∧
      m.timeScale = (attrs.filterMap Attr.clock).getLast?.getD 0 ∧
      m.rtpmap = ((lastRtpmap attrs).map fun p => (p.1 : Int)).getD 0 ∧
      m.type = ((lastRtpmap attrs).map fun _ => 96).getD 0 ∧
      m.control = (lastControl attrs).getD [] ∧
      m.spropParameterSets = (attrs.flatMap Attr.sprops).flatMap setsOf := by
  refine ⟨_, sdpParse_section l _ hl ?_ ?_, ?_⟩
  · intro x hx
    obtain ⟨a, ha, rfl⟩ := List.mem_map.1 hx
    exact (printable_line (hw a ha)).1
  · intro x hx
    rcases List.mem_cons.1 hx with rfl | hx
    · exact hnl
    · obtain ⟨a, ha, rfl⟩ := List.mem_map.1 hx
      exact (printable_line (hw a ha)).2
  · obtain ⟨i1, i2, i3, i4, i5, _⟩ := lines_took attrs hw (lineMedia l)
    exact ⟨i1, i2, i3, i4, i5⟩

/-- **C36**, exact: the clock rate is that of an `rtpmap` line exactly if the last number after it, of a later `rtpmap` line, in a control URL or a
parameter, is the same (or there is none after it). -/
theorem C36_clock_iff (l : Bytes) (before after : List Attr) (pt clock : Nat) (hl : isVideoLine l = true) (hnl : (10 : UInt8) ∉ l)
    (hw : ∀ a ∈ before ++ .rtpmap pt clock :: after, a.Printable) (m : Media)
    (hm : sdpParse (unlines (l :: (before ++ .rtpmap pt clock :: after).map Attr.line)) = .ok [m]) :
    m.timeScale = clock ↔ ∀ n, (after.filterMap Attr.clock).getLast? = some n → n = clock := by
  obtain ⟨m', h1, h2, _⟩ := C36_exact l _ hl hnl hw
  rw [h1] at hm
  injection hm with hm
  injection hm with hm
  subst hm
  rw [h2, List.filterMap_append, List.filterMap_cons, List.getLast?_append]
  have hc : (Attr.rtpmap pt clock).clock = some (clock : Int) := rfl
  rw [hc]
  dsimp only
  rw [List.getLast?_cons]
  cases (after.filterMap Attr.clock).getLast? with
  | none => simp
  | some n => simp

/-- A control URL with a number and with parameters, and a single parameter. -/
def attrsOdd : List Attr :=
  [.rtpmap 96 90000, .control b!"rtsp:/8/t;sprop-parameter-sets=Z0LAHg==", .fmtp 96 [(b!"sprop-parameter-sets", b!"aM4=")]]

example : (∀ a ∈ attrsOdd, a.Printable) ∧ attrsOdd.filterMap Attr.clock = [90000, 8] ∧
    attrsOdd.flatMap Attr.sprops = [b!"Z0LAHg=="] ∧ setsOf b!"Z0LAHg==" = [[0x67, 0x42, 0xC0, 0x1E]] := by
  refine ⟨?_, by decide, by decide, by decide⟩
  intro a ha
  simp only [attrsOdd, List.mem_cons, List.not_mem_nil, or_false] at ha
  rcases ha with rfl | rfl | rfl
  · exact ⟨by decide, by decide⟩
  · show ∀ c ∈ _, _
    decide
  · exact ⟨by decide, by decide⟩

/-- So with this section the clock rate is 8 and the parameter set is the one of the URL. -/
example : ∃ m, sdpParse (unlines (b!"m=video 0 RTP/AVP 96" :: attrsOdd.map Attr.line)) = .ok [m] ∧ m.timeScale = 8 ∧
    m.spropParameterSets = [[0x67, 0x42, 0xC0, 0x1E]] := ⟨_, rfl, by decide, by decide⟩

end Ouro
