import Verif.Lemmas.CleanSess
/-!
# No request of a session has a line feed where there should be none

The same as `Verif.Lemmas.Clean` and `Verif.Lemmas.CleanSess`, for the line feed.
-/
namespace Ouro.LF
open Spec

/-- No line feed in what a challenge sets. -/
structure NoFeed (d : Digest) : Prop where
  realm : (10 : UInt8) ∉ d.realm
  nonce : (10 : UInt8) ∉ d.nonce
  opq : (10 : UInt8) ∉ d.opaque_
  algorithm : (10 : UInt8) ∉ d.algorithm
  qop : (10 : UInt8) ∉ d.qop

theorem lower1_feed : ∀ c : UInt8, lower1 c = 10 → c = 10 := forall_u8 (by decide +kernel)

theorem toLower_feed : ∀ s : Bytes, (10 : UInt8) ∈ toLower s → (10 : UInt8) ∈ s := by
  intro s
  fun_induction toLower s <;> simp only [List.mem_cons, List.not_mem_nil, or_false, false_or]
  · exact fun h => h
  · exact fun h => (lower1_feed _ h.symm).symm
  · intro h; cases h
  · exact fun h => h.elim (fun h => .inl (lower1_feed _ h.symm).symm) (fun h => .inr (lower1_feed _ h.symm).symm)
  · rename_i ih
    rintro (h | h)
    · cases h
    · exact .inr (.inr (by simpa using ih h))
  · rename_i ih
    rintro (h | h)
    · cases h
    · exact .inr (.inr (.inr (ih h)))
  · rename_i ih
    rintro (h | h)
    · exact .inl (lower1_feed _ h.symm).symm
    · exact .inr (by simpa using ih h)

theorem digestAttr_noFeed {d r : Digest} {a v : Bytes} (h : digestAttr d a v = .ok r) (hd : NoFeed d) (hv : (10 : UInt8) ∉ v) :
    NoFeed r := by
  unfold digestAttr at h
  repeat' split at h
  all_goals cases h
  · exact { hd with realm := hv }
  · exact { hd with }
  · exact { hd with nonce := hv }
  · exact { hd with opq := hv }
  · exact { hd with }
  · exact { hd with algorithm := fun hm => hv (toLower_feed v hm) }
  · rename_i w t hs
    exact { hd with qop := fun hm => hv (split_sub v w (by rw [hs]; exact List.mem_cons_self) _ (toLower_feed w hm)) }
  · exact hd

theorem digestParts_noFeed {ps : List Bytes} {d r : Digest} (h : digestParts d ps = .ok r) (hd : NoFeed d)
    (hp : ∀ p ∈ ps, (10 : UInt8) ∉ p) : NoFeed r := by
  induction ps generalizing d with
  | nil => cases h; exact hd
  | cons p t ih =>
    rw [digestParts] at h
    cases hpt : digestPart d p with
    | error e => rw [hpt] at h; cases h
    | ok d1 =>
      rw [hpt] at h
      refine ih h ?_ fun x hx => hp x (List.mem_cons_of_mem _ hx)
      unfold digestPart at hpt
      dsimp only at hpt
      split at hpt
      · cases hpt; exact hd
      · split at hpt
        · rename_i key val hc
          split at hpt
          · refine digestAttr_noFeed hpt hd fun hm => hp p List.mem_cons_self (trimSpace_mem (s := p) ?_)
            rw [(cut_some hc).1]
            exact List.mem_append_right _ (List.mem_cons_of_mem _ (trimQuotes_mem _ _ hm))
          · cases hpt; exact hd
        · cases hpt; exact hd

theorem newDigest_noFeed {uri challenge : Bytes} {d : Digest} (h : newDigest uri challenge = .ok d) (hc : (10 : UInt8) ∉ challenge) :
    NoFeed d := by
  unfold newDigest at h
  split at h
  · cases h
  · rename_i basic rest hsc
    have hr : (10 : UInt8) ∉ rest := by
      intro hm
      apply hc
      apply trimSpace_mem
      unfold digestScheme at hsc
      split at hsc
      · cases hsc; exact List.drop_subset _ _ hm
      · split at hsc
        · cases hsc; exact List.drop_subset _ _ hm
        · cases hsc
    split at h
    · cases h
    · rename_i d1 hd
      have hi := digestParts_noFeed hd ⟨List.not_mem_nil, List.not_mem_nil, List.not_mem_nil, show (10 : UInt8) ∉ b!"md5" by decide, List.not_mem_nil⟩
        fun p hp hm => hr (split_sub rest p hp _ hm)
      split at h
      · split at h
        · cases h
        · cases h; exact hi
      · cases h; exact hi

theorem hexEncode_feed (b : Bytes) : (10 : UInt8) ∉ hexEncode b := by
  intro hm
  obtain ⟨x, -, hx⟩ := List.mem_flatMap.mp hm
  have key : ∀ n : Fin 16, hexDigit n.val ≠ 10 := by decide
  simp only [List.mem_cons, List.not_mem_nil, or_false] at hx
  rcases hx with h | h
  · exact key ⟨x.toNat / 16, by have := x.toNat_lt; omega⟩ h.symm
  · exact key ⟨x.toNat % 16, by omega⟩ h.symm

/-- A request all of whose texts are fit for the wire. -/
structure CleanReq (r : Request) : Prop where
  verb : (10 : UInt8) ∉ r.verb ∧ r.verb ≠ [] ∧ r.verb.head? ≠ some 78
  uri : (10 : UInt8) ∉ r.uri
  header : ∀ e ∈ r.header, (58 : UInt8) ∉ e.1 ∧ (10 : UInt8) ∉ e.1 ∧ (10 : UInt8) ∉ e.2
  session : (10 : UInt8) ∉ r.session
  auth : (10 : UInt8) ∉ r.auth

theorem itoa_noLF (i : Int) : (10 : UInt8) ∉ itoa i := by
  intro hm
  rcases itoa_bytes i _ hm with h | h
  · exact absurd h (by decide)
  · exact absurd h (by decide)

theorem sdpField_control (m : Media) (f : Bytes) (hm : (10 : UInt8) ∉ m.control) (hf : (10 : UInt8) ∉ f) : (10 : UInt8) ∉ (sdpField m f).control := by
  unfold sdpField
  rw [sdpParams_control, sdpSlash_control]
  unfold sdpColon
  split
  · rename_i key val t hs
    unfold sdpColonKey
    split
    · exact fun h => hf (splitN2_sub val (by rw [hs]; simp) _ h)
    · split <;> exact hm
  · exact hm

theorem sdpMedia_control {st st' : SdpState} {fields : List Bytes} (h : sdpMedia st fields = .ok st') (hs : ∀ m ∈ st.feeds, (10 : UInt8) ∉ m.control) :
    ∀ m ∈ st'.feeds, (10 : UInt8) ∉ m.control := by
  have hw : ∀ (pt : Int), ∀ m ∈ st.feeds ++ [({ payloadType := pt } : Media)], (10 : UInt8) ∉ m.control := by
    intro pt m hm
    rcases List.mem_append.1 hm with hm | hm
    · exact hs m hm
    · rw [List.mem_singleton] at hm; subst hm; exact List.not_mem_nil
  unfold sdpMedia at h
  simp only [bind, Except.bind] at h
  split at h
  · cases h
  · split at h
    · split at h
      · cases h
      · split at h
        · cases h
        · cases h; exact hw _
    · cases h; exact hs

theorem sdpLine_control {st st' : SdpState} {line : Bytes} (h : sdpLine st line = .ok st') (hs : ∀ m ∈ st.feeds, (10 : UInt8) ∉ m.control)
    (hl : (10 : UInt8) ∉ line) : ∀ m ∈ st'.feeds, (10 : UInt8) ∉ m.control := by
  unfold sdpLine at h
  split at h
  · rename_i key val hsp
    dsimp only at h
    split at h
    · exact sdpMedia_control h hs
    · split at h
      · split at h
        · cases h
          refine modifyLast_all (P := fun m => (10 : UInt8) ∉ m.control) ?_ _ hs
          intro m hm
          have hb : (10 : UInt8) ∉ val := fun hx => hl (trimSpace_mem (splitN2_sub val (by rw [hsp]; simp) _ hx))
          unfold splitN2
          cases hc2 : cut 32 val with
          | none => exact sdpField_control m val hm hb
          | some p =>
            obtain ⟨x, y⟩ := p
            obtain ⟨e2, hx⟩ := cut_some hc2
            dsimp only [List.foldl_cons, List.foldl_nil]
            exact sdpField_control _ y (sdpField_control m x hm (fun hh => hb (by rw [e2]; simp [hh]))) (fun hh => hb (by rw [e2]; simp [hh]))
        · cases h; exact hs
      · cases h; exact hs
  · cases h; exact hs

theorem sdpLines_control : ∀ (ls : List Bytes) {st st' : SdpState}, sdpLines st ls = .ok st' → (∀ m ∈ st.feeds, (10 : UInt8) ∉ m.control) →
    (∀ line ∈ ls, (10 : UInt8) ∉ line) → ∀ m ∈ st'.feeds, (10 : UInt8) ∉ m.control := by
  intro ls
  induction ls with
  | nil => intro st st' h hs _; cases h; exact hs
  | cons l ls ih =>
    intro st st' h hs hl
    rw [sdpLines] at h
    cases h1 : sdpLine st l with
    | error p => rw [h1] at h; cases h
    | ok st1 =>
      rw [h1] at h
      exact ih h (sdpLine_control h1 hs (hl l (by simp))) (fun x hx => hl x (List.mem_cons_of_mem _ hx))

theorem sdpParse_control {body : Bytes} {ms : List Media} (h : sdpParse body = .ok ms) : ∀ m ∈ ms, (10 : UInt8) ∉ m.control := by
  unfold sdpParse at h
  cases h1 : sdpLines ⟨[], false⟩ (split 10 body) with
  | error p => rw [h1] at h; cases h
  | ok st =>
    rw [h1] at h
    cases h
    exact sdpLines_control _ h1 (by simp) (split_mem body)

/-! ## Transports -/

/-- The texts a transport can hold. -/
structure CleanTransport (t : Transport) : Prop where
  destination : (10 : UInt8) ∉ t.destination
  source : (10 : UInt8) ∉ t.source
  ssrc : (10 : UInt8) ∉ t.ssrc
  mode : (10 : UInt8) ∉ t.mode

theorem newTransport_clean (proto : Proto) (k : Int) : CleanTransport (newTransport proto k) := by
  cases proto <;> exact ⟨List.not_mem_nil, List.not_mem_nil, List.not_mem_nil, show (10 : UInt8) ∉ b!"PLAY" by decide⟩

theorem string_clean {t : Transport} (h : CleanTransport t) : (10 : UInt8) ∉ t.string := by
  have hi : ∀ i : Int, (10 : UInt8) ∉ itoa i := itoa_noLF
  have hp : ∀ p : Pair, (10 : UInt8) ∉ p.string := by
    intro p hm
    unfold Pair.string at hm
    simp only [List.mem_append] at hm
    rcases hm with (hm | hm) | hm
    · exact hi _ hm
    · exact absurd hm (by decide)
    · exact hi _ hm
  have ite1 : ∀ (c : Prop) [Decidable c] (a b : Bytes), (10 : UInt8) ∉ a → (10 : UInt8) ∉ b → (10 : UInt8) ∉ (if c then a ++ b else []) := by
    intro c _ a b ha hb
    split
    · intro hm; rcases List.mem_append.1 hm with hm | hm
      · exact ha hm
      · exact hb hm
    · exact List.not_mem_nil
  have app : ∀ a b : Bytes, (10 : UInt8) ∉ a → (10 : UInt8) ∉ b → (10 : UInt8) ∉ a ++ b := by
    intro a b ha hb hm
    rcases List.mem_append.1 hm with hm | hm
    · exact ha hm
    · exact hb hm
  unfold Transport.string
  refine app _ _ (app _ _ (app _ _ (app _ _ (app _ _ (app _ _ (app _ _ (app _ _ (app _ _ (app _ _ (app _ _ (app _ _ (by decide) ?_) (ite1 _ _ _ (by decide) h.destination))
    (ite1 _ _ _ (by decide) h.source)) (ite1 _ _ _ (by decide) (hp _))) ?_) (ite1 _ _ _ (by decide) (hp _))) (ite1 _ _ _ (by decide) (hp _))) (ite1 _ _ _ (by decide) (hp _)))
    (ite1 _ _ _ (by decide) (hi _))) (ite1 _ _ _ (by decide) (hi _))) (ite1 _ _ _ (by decide) h.ssrc)) (ite1 _ _ _ (by decide) h.mode)
  · (repeat' split) <;> decide
  · split <;> decide

theorem withVal_clean {t : Transport} {val : Option Bytes} {f : Bytes → Transport × Option NumErr} (ht : CleanTransport t)
    (hv : ∀ v, val = some v → CleanTransport (f v).1) : CleanTransport (withVal t val f).1 := by
  unfold withVal
  split
  · exact ht
  · exact hv _ rfl

theorem transpKey_clean {t : Transport} {key : Bytes} {val : Option Bytes} (ht : CleanTransport t) (hv : ∀ v, val = some v → (10 : UInt8) ∉ v) :
    CleanTransport (transpKey t key val).1 := by
  have ite : ∀ (c : Prop) [Decidable c] (a b : Transport × Option TranspErr), CleanTransport a.1 → CleanTransport b.1 → CleanTransport (if c then a else b).1 := by
    intro c _ a b ha hb
    split
    · exact ha
    · exact hb
  unfold transpKey
  refine ite _ _ _ { ht with } (ite _ _ _ { ht with } (ite _ _ _ (withVal_clean ht fun v h => { ht with destination := hv v h })
    (ite _ _ _ (withVal_clean ht fun v h => { ht with source := hv v h }) (ite _ _ _ (withVal_clean { ht with } fun v h => { ht with }) (ite _ _ _ { ht with }
    (ite _ _ _ (withVal_clean ht fun v h => { ht with }) (ite _ _ _ (withVal_clean ht fun v h => { ht with }) (ite _ _ _ (withVal_clean ht fun v h => { ht with })
    (ite _ _ _ (withVal_clean ht fun v h => { ht with }) (ite _ _ _ (withVal_clean ht fun v h => { ht with }) (ite _ _ _ (withVal_clean ht fun v h => { ht with ssrc := hv v h })
    (ite _ _ _ (withVal_clean ht fun v h => { ht with mode := hv v h }) ht))))))))))))

theorem transpLower_clean {t : Transport} (f : Bytes) (ht : CleanTransport t) : CleanTransport (transpLower t f) := by
  unfold transpLower
  split
  · exact { ht with }
  · exact ht

theorem transpField_clean {t : Transport} {f : Bytes} (ht : CleanTransport t) (hf : (10 : UInt8) ∉ f) : CleanTransport (transpField t f).1 := by
  unfold transpField
  split
  · rename_i key val _ hs
    refine transpKey_clean (transpLower_clean f ht) ?_
    intro v hv; cases hv
    exact fun hm => hf (splitN2_sub _ (by rw [hs]; simp) _ hm)
  · exact transpKey_clean (transpLower_clean f ht) (by intro v hv; cases hv)
  · exact transpLower_clean f ht

theorem transpFields_clean : ∀ (fs : List Bytes) {t : Transport}, CleanTransport t → (∀ f ∈ fs, (10 : UInt8) ∉ f) → CleanTransport (transpFields t fs).1 := by
  intro fs
  induction fs with
  | nil => intro t ht _; exact ht
  | cons f fs ih =>
    intro t ht hf
    have h1 := transpField_clean ht (hf f (by simp))
    unfold transpFields
    split
    · rename_i t' e he
      rw [he] at h1; exact h1
    · rename_i t' he
      rw [he] at h1
      exact ih h1 (fun x hx => hf x (List.mem_cons_of_mem _ hx))

theorem parse_clean {t : Transport} {value : Bytes} (ht : CleanTransport t) (hv : (10 : UInt8) ∉ value) : CleanTransport (t.parse value).1 :=
  transpFields_clean _ ht fun f hf hm => hv (split_sub value f hf _ hm)

/-! ## Credentials -/

/-- The texts of an Authorization function and its digest. -/
structure CleanAuth (f : AuthFunc) (d : Digest) : Prop where
  text : ∀ a, f = .basic a ∨ f = .digest a → (10 : UInt8) ∉ a
  qop : (10 : UInt8) ∉ d.qop
  nc : (10 : UInt8) ∉ d.nc
  cnonce : (10 : UInt8) ∉ d.cnonce

theorem hexDigitsLoop_noLF : ∀ (fuel n : Nat), (10 : UInt8) ∉ hexDigitsLoop fuel n := by
  have key : ∀ n, n < 16 → hexDigit n ≠ 10 := fun n h => (by decide : ∀ n : Fin 16, hexDigit n.val ≠ 10) ⟨n, h⟩
  intro fuel
  induction fuel with
  | zero => intro n hm; rw [hexDigitsLoop, List.mem_singleton] at hm; exact key _ (Nat.mod_lt _ (by decide)) hm.symm
  | succ fuel ih =>
    intro n hm
    rw [hexDigitsLoop] at hm
    split at hm
    · rw [List.mem_singleton] at hm; exact key _ (by assumption) hm.symm
    · rcases List.mem_append.1 hm with hm | hm
      · exact ih _ hm
      · rw [List.mem_singleton] at hm; exact key _ (Nat.mod_lt _ (by decide)) hm.symm

theorem fmtHex8_noLF (n : Nat) : (10 : UInt8) ∉ fmtHex8 n := by
  intro hm
  unfold fmtHex8 at hm
  rcases List.mem_append.1 hm with hm | hm
  · exact absurd (List.eq_of_mem_replicate hm) (by decide)
  · exact hexDigitsLoop_noLF _ _ hm

theorem b64char_noLF (n : Nat) (h : n < 64) : b64char n ≠ 10 :=
  (by decide : ∀ n : Fin 64, b64char n.val ≠ 10) ⟨n, h⟩

theorem b64Encode_noLF (b : Bytes) : (10 : UInt8) ∉ b64Encode b := by
  have hu : ∀ x : UInt8, x.toNat < 256 := fun x => x.toNat_lt
  fun_induction b64Encode b with
  | case1 => simp
  | case2 a =>
    have := hu a
    simp only [List.mem_cons, List.not_mem_nil, or_false, not_or]
    exact ⟨(b64char_noLF _ (by omega)).symm, (b64char_noLF _ (by omega)).symm, by decide, by decide⟩
  | case3 a b =>
    have := hu a; have := hu b
    simp only [List.mem_cons, List.not_mem_nil, or_false, not_or]
    exact ⟨(b64char_noLF _ (by omega)).symm, (b64char_noLF _ (by omega)).symm, (b64char_noLF _ (by omega)).symm, by decide⟩
  | case4 a b c t ih =>
    have := hu a; have := hu b; have := hu c
    simp only [List.mem_cons, not_or]
    exact ⟨(b64char_noLF _ (by omega)).symm, (b64char_noLF _ (by omega)).symm, (b64char_noLF _ (by omega)).symm,
      (b64char_noLF _ (by omega)).symm, ih⟩

theorem app_noLF {a b : Bytes} (ha : (10 : UInt8) ∉ a) (hb : (10 : UInt8) ∉ b) : (10 : UInt8) ∉ a ++ b := by
  intro hm
  rcases List.mem_append.1 hm with hm | hm
  · exact ha hm
  · exact hb hm

theorem authenticate_clean {md5 : Bytes → Bytes} {rnd uri challenge user password : Bytes} {d d' : Digest} {f : AuthFunc} (hd : newDigest uri challenge = .ok d)
    (huri : (10 : UInt8) ∉ uri) (hch : (10 : UInt8) ∉ challenge) (huser : (10 : UInt8) ∉ user)
    (h : authenticate md5 rnd d user password = .ok (f, d')) : CleanAuth f d' := by
  have hn := newDigest_noFeed hd hch
  have hinit : d.nc = [] ∧ d.cnonce = [] := newDigest_counts hd
  have hu : (10 : UInt8) ∉ d.uri := by rw [(newDigest_init hd).1]; exact huri
  unfold authenticate at h
  rw [colonnade_ok, colonnade_ok] at h
  split at h
  · cases h
    refine ⟨?_, hn.qop, by rw [hinit.1]; exact List.not_mem_nil, by rw [hinit.2]; exact List.not_mem_nil⟩
    rintro a (h | h)
    · cases h; exact app_noLF (by decide) (b64Encode_noLF _)
    · cases h
  · cases h
    refine ⟨?_, ?_, ?_, ?_⟩
    · rintro a (h | h)
      · cases h
      · cases h
        dsimp only
        refine app_noLF (app_noLF (app_noLF (app_noLF (app_noLF (app_noLF (app_noLF (app_noLF (app_noLF (app_noLF (app_noLF (by decide) huser) (by decide)) hn.realm) (by decide)) hn.nonce)
          (by decide)) hu) (by decide)) hn.algorithm) ?_) (by decide)
        split
        · exact app_noLF (by decide) hn.opq
        · exact List.not_mem_nil
    · unfold digestNext; split <;> exact hn.qop
    · unfold digestNext; split
      · show (10 : UInt8) ∉ d.nc
        rw [hinit.1]; exact List.not_mem_nil
      · exact fmtHex8_noLF _
    · unfold digestNext; split
      · show (10 : UInt8) ∉ d.cnonce
        rw [hinit.2]; exact List.not_mem_nil
      · exact fun hm => hexEncode_feed rnd (List.take_subset _ _ hm)

theorem digestResponse_clean {md5 : Bytes → Bytes} {d d' : Digest} {verb body a : Bytes} (h : digestResponse md5 d verb body = .ok (a, d'))
    (hq : (10 : UInt8) ∉ d.qop) (hn : (10 : UInt8) ∉ d.nc) (hc : (10 : UInt8) ∉ d.cnonce) :
    (10 : UInt8) ∉ a ∧ d'.qop = d.qop ∧ d'.nc = d.nc ∧ d'.cnonce = d.cnonce := by
  unfold digestResponse at h
  simp only [colonnade_ok, bind, Except.bind, pure, Except.pure] at h
  have hm : ∀ x, (10 : UInt8) ∉ md5hex md5 x := fun x => hexEncode_feed _
  have key : ∀ (x : Bytes), (10 : UInt8) ∉ b!", qop=\"" ++ d.qop ++ b!"\", nc=" ++ d.nc ++ b!", cnonce=\"" ++ d.cnonce ++ b!"\", response=\"" ++ md5hex md5 x ++ b!"\"" := fun x =>
    app_noLF (app_noLF (app_noLF (app_noLF (app_noLF (app_noLF (app_noLF (app_noLF (by decide) hq) (by decide)) hn) (by decide)) hc) (by decide)) (hm x)) (by decide)
  have key0 : ∀ (x : Bytes), (10 : UInt8) ∉ b!", response=\"" ++ md5hex md5 x ++ b!"\"" := fun x => app_noLF (app_noLF (by decide) (hm x)) (by decide)
  obtain ⟨c, hcc⟩ : ∃ c, (if d.qop = b!"auth-int" then (Except.ok (colons verb [d.uri, md5hex md5 body]) : Except Panic Bytes) else Except.ok (colons verb [d.uri])) = .ok c := by
    split <;> exact ⟨_, rfl⟩
  rw [hcc] at h
  dsimp only at h
  split at h
  · cases h; exact ⟨key0 _, rfl, rfl, rfl⟩
  · by_cases h3 : d.algorithm = b!"md5-sess"
    · rw [if_pos h3] at h
      cases h; exact ⟨key _, rfl, rfl, rfl⟩
    · rw [if_neg h3] at h
      cases h; exact ⟨key _, rfl, rfl, rfl⟩

theorem authCall_clean {md5 : Bytes → Bytes} {f : AuthFunc} {d d' : Digest} {verb body a : Bytes} (hc : CleanAuth f d)
    (h : authCall md5 f d verb body = .ok (a, d')) : (10 : UInt8) ∉ a ∧ CleanAuth f d' := by
  cases f with
  | basic t => cases h; exact ⟨hc.text _ (.inl rfl), hc⟩
  | digest t =>
    unfold authCall at h
    dsimp only at h
    cases h1 : digestResponse md5 d verb body with
    | error p => rw [h1] at h; cases h
    | ok r =>
      obtain ⟨r, d1⟩ := r
      rw [h1] at h
      cases h
      obtain ⟨g1, g2, g3, g4⟩ := digestResponse_clean h1 hc.qop hc.nc hc.cnonce
      exact ⟨app_noLF (hc.text _ (.inr rfl)) g1, hc.text, by rw [g2]; exact hc.qop, by rw [g3]; exact hc.nc, by rw [g4]; exact hc.cnonce⟩


/-- A response as it can be read. -/
def PlainAnswer (rsp : Response) : Prop :=
  (10 : UInt8) ∉ rsp.status ∧ (∀ e ∈ rsp.header, (58 : UInt8) ∉ e.1 ∧ (10 : UInt8) ∉ e.1 ∧ (10 : UInt8) ∉ e.2) ∧
    (rsp.contentLength > 0 ↔ rsp.body ≠ none)

/-- The user's calls after `Open`, and plain answers. -/
def PlainOp : Op → Prop
  | .dial .. => False
  | .open_ .. => False
  | .item (.response rsp) => PlainAnswer rsp
  | _ => True

/-- What can get into a request. -/
structure CleanSess (s : Sess) : Prop where
  base : (10 : UInt8) ∉ s.baseURI
  user : ∀ u p, s.user = some (u, p) → (10 : UInt8) ∉ u
  auth : ∀ f d, s.auth = some (f, d) → CleanAuth f d
  queue : ∀ e ∈ s.queue, CleanReq e.2
  session : (10 : UInt8) ∉ s.session
  feeds : ∀ f ∈ s.feeds, (10 : UInt8) ∉ f.media.control ∧ CleanTransport f.transp
  out : ∀ r q res, .sent r q res ∈ s.out → CleanReq q
  got : ∀ rsp, .got rsp ∈ s.out → PlainAnswer rsp

theorem get_noLF {h : Header} (hh : ∀ e ∈ h, (58 : UInt8) ∉ e.1 ∧ (10 : UInt8) ∉ e.1 ∧ (10 : UInt8) ∉ e.2) (k : Bytes) : (10 : UInt8) ∉ h.get k := by
  unfold Header.get Header.at
  cases hf : h.find? (fun e => e.1 = canonKey k) with
  | none => exact List.not_mem_nil
  | some e => exact (hh e (List.mem_of_find?_eq_some hf)).2.2

theorem callAuth_clean {w : World} {s s' : Sess} {verb a : Bytes} (h : callAuth w s verb = .ok (a, s')) (hc : CleanSess s) :
    (10 : UInt8) ∉ a ∧ CleanSess s' := by
  unfold callAuth at h
  split at h
  · cases h; exact ⟨List.not_mem_nil, hc⟩
  · rename_i f d hs
    split at h
    · cases h
    · rename_i a' d' ha
      cases h
      obtain ⟨h1, h2⟩ := authCall_clean (hc.auth _ _ hs) ha
      exact ⟨h1, { hc with auth := fun f' d'' he => by cases he; exact h2 }⟩

theorem writeReq_clean {w : World} {s s' : Sess} {r : Bool} {q : Request} {e : Option SErr} (h : writeReq w s r q = .ok (s', e)) (hc : CleanSess s) (hq : CleanReq q) : CleanSess s' := by
  have key : ∀ res, CleanSess { s with out := .sent r q res :: s.out } := by
    intro res
    refine { hc with out := ?_, got := ?_ }
    · intro r' q' res' hm
      rcases List.mem_cons.1 hm with he | hm
      · cases he; exact hq
      · exact hc.out _ _ _ hm
    · intro rsp hm
      rcases List.mem_cons.1 hm with he | hm
      · cases he
      · exact hc.got _ hm
  unfold writeReq at h
  split at h
  · cases h
  · dsimp only at h
    split at h <;> (cases h; exact key _)

theorem enqueue_clean {s : Sess} {q : Request} (hc : CleanSess s) (hq : CleanReq q) : CleanReq (enqueue s q).1 ∧ CleanSess (enqueue s q).2 := by
  have h1 : CleanReq (enqueue s q).1 := ⟨hq.verb, hq.uri, hq.header, hc.session, hq.auth⟩
  refine ⟨h1, { hc with queue := ?_ }⟩
  intro e he
  simp only [enqueue] at he
  rcases List.mem_append.1 he with he | he
  · exact hc.queue e ((List.mem_filter.1 he).1)
  · rw [List.mem_singleton] at he; subst he; exact h1

theorem command_clean {w : World} {s s' : Sess} {verb uri : Bytes} {hs : Header} {e : Option SErr} (h : command w s verb uri hs = .ok (s', e)) (hc : CleanSess s)
    (hv : (10 : UInt8) ∉ verb ∧ verb ≠ [] ∧ verb.head? ≠ some 78) (hu : (10 : UInt8) ∉ uri) (hh : ∀ x ∈ hs.foldl (fun (h : Header) e => h.set e.1 e.2) [], (58 : UInt8) ∉ x.1 ∧ (10 : UInt8) ∉ x.1 ∧ (10 : UInt8) ∉ x.2) : CleanSess s' := by
  unfold command at h
  split at h
  · cases h; exact hc
  · split at h
    · cases h
    · rename_i a s1 ha
      obtain ⟨h1, h2⟩ := callAuth_clean ha hc
      dsimp only at h
      have h3 : CleanSess { s1 with cseq := s1.cseq + 1 } := { h2 with }
      have h4 := enqueue_clean (q := { verb, uri, auth := a, header := hs.foldl (fun h e => h.set e.1 e.2) [] }) h3 ⟨hv, hu, hh, List.not_mem_nil, h1⟩
      exact writeReq_clean h h4.2 h4.1

theorem simple_clean {w : World} {s s' : Sess} {verb : Bytes} {e : Option SErr} (h : command w s verb s.baseURI [] = .ok (s', e)) (hc : CleanSess s) (hv : (10 : UInt8) ∉ verb ∧ verb ≠ [] ∧ verb.head? ≠ some 78) : CleanSess s' :=
  command_clean h hc hv hc.base (by intro x hx; cases hx)

theorem describe_clean {w : World} {s s' : Sess} {e : Option SErr} (h : Sess.describe w s = .ok (s', e)) (hc : CleanSess s) : CleanSess s' := by
  refine command_clean (deref_ok h) hc (by decide) hc.base ?_
  intro x hx
  rw [canon_one, List.mem_singleton] at hx
  subst hx; decide

theorem setupLoop_clean {w : World} : ∀ (fs : List Feed) {done : List Feed} {s s' : Sess} {e : Option SErr}, setupLoop w done fs s = .ok (s', e) → CleanSess s →
    (∀ f ∈ done ++ fs, (10 : UInt8) ∉ f.media.control ∧ CleanTransport f.transp) → CleanSess s' := by
  intro fs
  induction fs with
  | nil => intro done s s' e h hc _; cases h; exact hc
  | cons f fs ih =>
    intro done s s' e h hc hf
    have hff := hf f (by simp)
    have huri : (10 : UInt8) ∉ (setupURI s.baseURI f.media.control) := by
      unfold setupURI
      split
      · exact hff.1
      · exact app_noLF (app_noLF hc.base (by decide)) hff.1
    unfold setupLoop at h
    split at h
    · cases h
    · rename_i s1 e1 h1
      cases h
      refine command_clean h1 hc (by decide) huri ?_
      intro x hx
      rw [canon_one, List.mem_singleton] at hx
      subst hx
      exact ⟨show (58 : UInt8) ∉ canonKey b!"Transport" by decide, show (10 : UInt8) ∉ canonKey b!"Transport" by decide, string_clean hff.2⟩
    · rename_i s1 h1
      have hc1 : CleanSess s1 := by
        refine command_clean h1 hc (by decide) huri ?_
        intro x hx
        rw [canon_one, List.mem_singleton] at hx
        subst hx
        exact ⟨show (58 : UInt8) ∉ canonKey b!"Transport" by decide, show (10 : UInt8) ∉ canonKey b!"Transport" by decide, string_clean hff.2⟩
      have hall : ∀ g ∈ done ++ { f with cseq := (s1.cseq : Int) } :: fs, (10 : UInt8) ∉ g.media.control ∧ CleanTransport g.transp := by
        intro g hg
        rcases List.mem_append.1 hg with hg | hg
        · exact hf g (by simp [hg])
        · rcases List.mem_cons.1 hg with rfl | hg
          · exact hff
          · exact hf g (by simp [hg])
      exact ih h { hc1 with feeds := hall } (by intro g hg; exact hall g (by simpa using hg))

theorem setupAnswer_clean {w : World} {rsp : Response} (hv : (10 : UInt8) ∉ rsp.header.get b!"Transport") : ∀ (fs : List Feed) {done : List Feed} {s s' : Sess} {e : Option SErr},
    setupAnswer w rsp done fs s = .ok (s', e) → CleanSess s → (∀ f ∈ done ++ fs, (10 : UInt8) ∉ f.media.control ∧ CleanTransport f.transp) → CleanSess s' := by
  intro fs
  induction fs with
  | nil => intro done s s' e h hc _; cases h; exact hc
  | cons f fs ih =>
    intro done s s' e h hc hf
    have hff := hf f (by simp)
    unfold setupAnswer at h
    split at h
    · split at h
      · cases h
      · rename_i f' e' hts
        have hf' : (10 : UInt8) ∉ f'.media.control ∧ CleanTransport f'.transp := by
          unfold Feed.transportSetup at hts
          have hp := parse_clean hff.2 hv
          split at hts
          · rename_i t e1 ht
            rw [ht] at hp
            cases hts
            exact ⟨hff.1, hp⟩
          · rename_i t ht
            rw [ht] at hp
            cases hl : spropLoop w.inf f.sets f.media.spropParameterSets with
            | error p => rw [hl] at hts; cases hts
            | ok r =>
              rw [hl] at hts
              obtain ⟨ps, o⟩ := r
              cases o with
              | none => cases hts; exact ⟨hff.1, hp⟩
              | some o => cases hts; exact ⟨hff.1, hp⟩
        have hall : ∀ g ∈ done ++ f' :: fs, (10 : UInt8) ∉ g.media.control ∧ CleanTransport g.transp := by
          intro g hg
          rcases List.mem_append.1 hg with hg | hg
          · exact hf g (by simp [hg])
          · rcases List.mem_cons.1 hg with rfl | hg
            · exact hf'
            · exact hf g (by simp [hg])
        have hc1 : CleanSess { s with feedidx := s.feedidx + 1, feeds := done ++ f' :: fs } := { hc with feeds := hall }
        have hsink : ∀ {t t' : Sess} {c : UInt8} {p : Int} {o : Option SErr}, addSink w t c p = (t', o) → CleanSess t → CleanSess t' := by
          intro t t' c p o ha ht
          unfold addSink at ha
          split at ha
          · cases ha; exact { ht with }
          · cases ha; exact ht
          · cases ha; exact ht
        dsimp only at h
        split at h
        · cases h; exact hc1
        · split at h
          · exact ih h hc1 (by intro g hg; exact hall g (by simpa using hg))
          · split at h
            · rename_i s2 e2 hs2
              cases h; exact hsink hs2 hc1
            · rename_i s2 hs2
              split at h
              · rename_i s3 e3 hs3
                cases h; exact hsink hs3 (hsink hs2 hc1)
              · rename_i s3 hs3
                exact ih h (hsink hs3 (hsink hs2 hc1)) (by intro g hg; exact hall g (by simpa using hg))
    · exact ih h hc (by intro g hg; exact hf g (by simpa using hg))

theorem checkReady_clean {s : Sess} (hc : CleanSess s) : CleanSess (checkReady s) := by
  unfold checkReady notify
  split
  · refine { hc with out := ?_, got := ?_ }
    · intro r q res hm
      simp only [List.mem_cons] at hm
      rcases hm with hm | hm | hm
      · cases hm
      · cases hm
      · exact hc.out _ _ _ hm
    · intro rsp hm
      simp only [List.mem_cons] at hm
      rcases hm with hm | hm | hm
      · cases hm
      · cases hm
      · exact hc.got _ hm
  · exact hc

theorem notify_clean {s : Sess} (n : Nat) (hc : CleanSess s) : CleanSess (notify s n) := by
  refine { hc with out := ?_, got := ?_ }
  · intro r q res hm
    rcases List.mem_cons.1 hm with hm | hm
    · cases hm
    · exact hc.out _ _ _ hm
  · intro rsp hm
    rcases List.mem_cons.1 hm with hm | hm
    · cases hm
    · exact hc.got _ hm

theorem handleSetup_clean {w : World} {s s' : Sess} {rsp : Response} {e : Option SErr} (h : handleSetup w s rsp = .ok (s', e)) (hc : CleanSess s)
    (hv : (10 : UInt8) ∉ rsp.header.get b!"Transport") : CleanSess s' := by
  unfold handleSetup at h
  split at h
  · split at h
    · cases h
    · rename_i s1 e1 h1
      cases h; exact setupAnswer_clean hv _ h1 hc (by simpa using hc.feeds)
    · rename_i s1 h1
      cases h; exact checkReady_clean (setupAnswer_clean hv _ h1 hc (by simpa using hc.feeds))
  · split at h
    · cases h; exact checkReady_clean { hc with }
    · cases h; exact checkReady_clean hc

theorem remove_clean {s : Sess} (n : Int) (hc : CleanSess s) : CleanSess (s.remove n) :=
  { hc with queue := fun e he => hc.queue e ((List.mem_filter.1 he).1) }

theorem retry_clean {w : World} {s s' : Sess} {q : Request} {ch : Bytes} {e : Option SErr} (h : retry w s q ch = .ok (s', e)) (hc : CleanSess s) (hq : CleanReq q)
    (hch : (10 : UInt8) ∉ ch) : CleanSess s' := by
  unfold retry at h
  split at h
  · cases h
  · rename_i s1 e1 h1
    cases h
    unfold authorize at h1
    repeat' split at h1
    all_goals cases h1
    all_goals exact hc
  · rename_i s1 h1
    have hc1 : CleanSess s1 := by
      unfold authorize at h1
      split at h1
      · cases h1
      · rename_i d hd
        split at h1
        · cases h1
        · rename_i u p hu
          split at h1
          · cases h1
          · rename_i f d' ha
            cases h1
            exact { hc with auth := fun f' d'' he => by cases he; exact authenticate_clean hd hc.base hch (hc.user _ _ hu) ha }
    split at h
    · cases h
    · rename_i a s2 ha
      obtain ⟨g1, g2⟩ := callAuth_clean ha hc1
      have g3 := enqueue_clean (q := { q with auth := a }) g2 { hq with auth := g1 }
      exact writeReq_clean h g3.2 g3.1

theorem learnSession_clean {s : Sess} {v : Bytes} (hc : CleanSess s) (hv : (10 : UInt8) ∉ v) : CleanSess (learnSession s v) := by
  unfold learnSession
  split
  · split
    · rename_i f t hs
      exact { hc with session := fun hm => hv (split_sub v f (by rw [hs]; simp) _ hm) }
    · exact hc
  · exact hc

theorem feedsFrom_clean (proto : Proto) : ∀ (ms : List Media) (k : Nat), (∀ m ∈ ms, (10 : UInt8) ∉ m.control) → ∀ f ∈ feedsFrom proto k ms, (10 : UInt8) ∉ f.media.control ∧ CleanTransport f.transp := by
  intro ms
  induction ms with
  | nil => intro k _ f hf; cases hf
  | cons m ms ih =>
    intro k hm f hf
    rw [feedsFrom] at hf
    rcases List.mem_cons.1 hf with rfl | hf
    · exact ⟨hm m (by simp), newTransport_clean _ _⟩
    · exact ih (k + 1) (fun x hx => hm x (List.mem_cons_of_mem _ hx)) f hf

theorem answer_clean {w : World} {s s' : Sess} {verb : Bytes} {rsp : Response} {e : Option SErr} (h : answer w s verb rsp = .ok (s', e)) (hc : CleanSess s)
    (hr : PlainAnswer rsp) : CleanSess s' := by
  unfold answer at h
  split at h
  · split at h
    · exact describe_clean h { hc with }
    · cases h; exact hc
  · split at h
    · split at h
      · rename_i body hb
        split at h
        · cases h
        · rename_i feeds hf
          have hall : ∀ f ∈ feeds, (10 : UInt8) ∉ f.media.control ∧ CleanTransport f.transp := by
            unfold parseFeeds at hf
            cases hp : sdpParse body with
            | error p => rw [hp] at hf; cases hf
            | ok ms =>
              rw [hp] at hf
              cases hf
              exact feedsFrom_clean _ ms 0 (sdpParse_control hp)
          exact setupLoop_clean feeds h { hc with feeds := hall } (by simpa using hall)
      · cases h; exact hc
    · split at h
      · cases h; split
        · exact notify_clean _ hc
        · exact hc
      · split at h
        · cases h; split
          · exact notify_clean _ hc
          · exact hc
        · split at h
          · cases h; split
            · exact notify_clean _ hc
            · exact hc
          · split at h
            · exact handleSetup_clean h hc (get_noLF hr.2.1 _)
            · cases h; exact hc

theorem step_clean {w : World} {s s' : Sess} {op : Op} {e : Option SErr} (h : step w s op = .ok (s', e)) (hc : CleanSess s) (hop : PlainOp op) : CleanSess s' := by
  cases op with
  | dial => exact hop.elim
  | open_ => exact hop.elim
  | options => exact simple_clean (deref_ok h) hc (by decide)
  | describe => exact describe_clean h hc
  | setup => exact setupLoop_clean s.feeds h hc (by simpa using hc.feeds)
  | play => exact simple_clean (deref_ok h) hc (by decide)
  | pause => exact simple_clean (deref_ok h) hc (by decide)
  | teardown => exact simple_clean (deref_ok h) hc (by decide)
  | keepAlive due =>
    have h := deref_ok h
    split at h
    · refine command_clean h hc (by decide) hc.base ?_
      intro x hx
      rw [canon_one, List.mem_singleton] at hx
      subst hx
      exact ⟨show (58 : UInt8) ∉ canonKey b!"Session" by decide, show (10 : UInt8) ∉ canonKey b!"Session" by decide, hc.session⟩
    · cases h; exact hc
  | item i =>
    cases i with
    | frame ch p =>
      cases h
      refine { hc with out := ?_, got := ?_ }
      · intro r q res hm
        rcases List.mem_cons.1 hm with hm | hm
        · cases hm
        · exact hc.out _ _ _ hm
      · intro rsp hm
        rcases List.mem_cons.1 hm with hm | hm
        · cases hm
        · exact hc.got _ hm
    | response rsp =>
      have hc0 : CleanSess { s with out := .got rsp :: s.out } := by
        refine { hc with out := ?_, got := ?_ }
        · intro r q res hm
          rcases List.mem_cons.1 hm with hm | hm
          · cases hm
          · exact hc.out _ _ _ hm
        · intro rsp' hm
          rcases List.mem_cons.1 hm with hm | hm
          · cases hm; exact hop
          · exact hc.got _ hm
      have hpl : PlainAnswer rsp := hop
      have h : handleRtsp w { s with out := .got rsp :: s.out } rsp = .ok (s', e) := h
      unfold handleRtsp at h
      split at h
      · cases h; exact hc0
      · rename_i req hfind
        have hq : CleanReq req := by
          unfold Sess.find at hfind
          cases hf : s.queue.find? (fun e => e.1 = rsp.cseq) with
          | none => rw [hf] at hfind; cases hfind
          | some x =>
            rw [hf] at hfind
            cases hfind
            exact hc.queue _ (List.mem_of_find?_eq_some hf)
        split at h
        · exact retry_clean h (remove_clean _ hc0) hq (get_noLF hpl.2.1 _)
        · exact answer_clean h (learnSession_clean (remove_clean _ hc0) (get_noLF hpl.2.1 _)) hpl

theorem run_clean {w : World} : ∀ (ops : List Op) {s s' : Sess}, run w s ops = .ok s' → CleanSess s → (∀ op ∈ ops, PlainOp op) → CleanSess s' := by
  intro ops
  induction ops with
  | nil => intro s s' h hc _; cases h; exact hc
  | cons op ops ih =>
    intro s s' h hc hop
    rw [run] at h
    split at h
    · cases h
    · rename_i s1 e1 h1
      exact ih h (step_clean h1 hc (hop op (by simp))) (fun o ho => hop o (List.mem_cons_of_mem _ ho))

/-- The session when the connection has been made. -/
theorem dial_clean {uri : Bytes} {proto : Proto} {user : Option (Bytes × Bytes)} (hu : (10 : UInt8) ∉ uri) (hn : ∀ u p, user = some (u, p) → (10 : UInt8) ∉ u) :
    CleanSess { newSession with opened := true, baseURI := uri, proto := proto, user := user } := by
  refine ⟨hu, hn, ?_, ?_, List.not_mem_nil, ?_, ?_, ?_⟩
  · intro f d h; cases h
  · intro e h; cases h
  · intro f h; cases h
  · intro r q res h; cases h
  · intro rsp h; cases h

end Ouro.LF
