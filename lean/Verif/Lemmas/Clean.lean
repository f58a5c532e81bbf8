import Verif.Lemmas.Wire
import Verif.Props.Dial
import Verif.Props.Session
/-! # Which texts get into requests -/
namespace Ouro
open Spec

/-! ## Descriptions -/

theorem dropSpace_suffix {len : Bytes → Nat} : ∀ (n : Nat) (s : Bytes), dropSpace len n s <:+ s := by
  intro n
  induction n with
  | zero => intro s; exact List.suffix_refl _
  | succ n ih =>
    intro s
    rw [dropSpace]
    split
    · exact List.suffix_refl _
    · exact (ih _).trans (List.drop_suffix _ _)

theorem trimSpace_infix (s : Bytes) : trimSpace s <:+: s := by
  unfold trimSpace
  have h1 := dropSpace_suffix (len := spaceLen) s.length s
  have h2 := dropSpace_suffix (len := spaceLenRev) (dropSpace spaceLen s.length s).length (dropSpace spaceLen s.length s).reverse
  have h3 : (dropSpace spaceLenRev (dropSpace spaceLen s.length s).length (dropSpace spaceLen s.length s).reverse).reverse <+: dropSpace spaceLen s.length s := by
    rw [← List.reverse_suffix, List.reverse_reverse]; exact h2
  exact h3.isInfix.trans h1.isInfix

theorem spaceLenRev_cr (t : Bytes) : spaceLenRev (13 :: t) = 1 := by
  match t with
  | [] => rfl
  | [_] => rfl
  | _ :: _ :: _ => rfl

theorem trimSpace_noCR {line t : Bytes} (h : line = t ∨ line = t ++ [13]) (ht : (13 : UInt8) ∉ t) : (13 : UInt8) ∉ trimSpace line := by
  rcases h with rfl | rfl
  · exact fun hm => ht (trimSpace_mem hm)
  · unfold trimSpace
    dsimp only
    have hs := dropSpace_suffix (len := spaceLen) (t ++ [13]).length (t ++ [13])
    generalize dropSpace spaceLen (t ++ [13]).length (t ++ [13]) = u at hs
    obtain ⟨p, hp⟩ := hs
    rcases List.eq_nil_or_concat u with rfl | ⟨v, z, rfl⟩
    · simp [dropSpace]
    · rw [List.concat_eq_append, ← List.append_assoc] at hp
      have he := List.append_inj' hp rfl
      have hz : z = 13 := by simpa using he.2
      subst hz
      have hv : (13 : UInt8) ∉ v := fun hm => ht (by rw [← he.1]; simp [hm])
      rw [List.concat_eq_append, List.length_append, List.length_singleton, List.reverse_append, List.reverse_singleton, List.singleton_append,
        dropSpace, if_neg (by rw [spaceLenRev_cr]; decide), spaceLenRev_cr]
      intro hm
      rw [List.mem_reverse] at hm
      have := dropSpace_mem _ _ _ hm
      rw [List.drop_succ_cons, List.drop_zero, List.mem_reverse] at this
      exact hv this

theorem sdpSlash_control (m : Media) (f : Bytes) : (sdpSlash m f).control = m.control := by
  unfold sdpSlash
  split
  · dsimp only
    split <;> (repeat' split) <;> rfl
  · rfl

theorem sdpParam_control (m : Media) (f : Bytes) : (sdpParam m f).control = m.control := by
  unfold sdpParam sdpParamKey
  (repeat' split) <;> rfl

theorem sdpParams_control (m : Media) (f : Bytes) : (sdpParams m f).control = m.control := by
  unfold sdpParams
  split
  · generalize split 59 f = l
    induction l generalizing m with
    | nil => rfl
    | cons a l ih => rw [List.foldl_cons, ih, sdpParam_control]
  · rfl

theorem sdpField_control (m : Media) (f : Bytes) (hm : IsWord m.control) (hcr : (13 : UInt8) ∉ f)
    (hsp : (32 : UInt8) ∉ f ∨ ¬ b!"control:" <+: f) : IsWord (sdpField m f).control := by
  unfold sdpField
  rw [sdpParams_control, sdpSlash_control]
  unfold sdpColon
  split
  · rename_i key val t hs
    unfold splitN2 at hs
    cases hc : cut 58 f with
    | none => rw [hc] at hs; cases hs
    | some p =>
      obtain ⟨a, b⟩ := p
      rw [hc] at hs
      simp only [List.cons.injEq] at hs
      obtain ⟨rfl, rfl, -⟩ := hs
      obtain ⟨e, -⟩ := cut_some hc
      unfold sdpColonKey
      split
      · rename_i hk
        subst hk
        refine ⟨fun h => ?_, fun h => hcr (by rw [e]; simp [h])⟩
        rcases hsp with hsp | hsp
        · exact hsp (by rw [e]; simp [h])
        · exact hsp ⟨b, by rw [e]; rfl⟩
      · split <;> exact hm
  · exact hm

theorem modifyLast_all {P : Media → Prop} {f : Media → Media} (hf : ∀ m, P m → P (f m)) : ∀ l : List Media, (∀ m ∈ l, P m) → ∀ m ∈ modifyLast f l, P m := by
  intro l
  induction l with
  | nil => intro h m hm; exact h m hm
  | cons a l ih =>
    intro h m hm
    cases l with
    | nil =>
      rw [modifyLast, List.mem_singleton] at hm
      subst hm; exact hf _ (h a (by simp))
    | cons b l =>
      rw [modifyLast] at hm
      rcases List.mem_cons.1 hm with rfl | hm
      · exact h _ (by simp)
      · exact ih (fun x hx => h x (List.mem_cons_of_mem _ hx)) m hm

theorem sdpMedia_control {st st' : SdpState} {fields : List Bytes} (h : sdpMedia st fields = .ok st') (hs : ∀ m ∈ st.feeds, IsWord m.control) :
    ∀ m ∈ st'.feeds, IsWord m.control := by
  have hw : ∀ (pt : Int), ∀ m ∈ st.feeds ++ [({ payloadType := pt } : Media)], IsWord m.control := by
    intro pt m hm
    rcases List.mem_append.1 hm with hm | hm
    · exact hs m hm
    · rw [List.mem_singleton] at hm; subst hm; exact ⟨List.not_mem_nil, List.not_mem_nil⟩
  unfold sdpMedia at h
  simp only [bind, Except.bind] at h
  split at h
  · cases h
  · split at h
    · split at h
      · cases h
      · split at h
        · cases h
        · cases h; exact hw _
    · cases h; exact hs

theorem sdpLine_control {st st' : SdpState} {line : Bytes} (h : sdpLine st line = .ok st') (hs : ∀ m ∈ st.feeds, IsWord m.control)
    (hl : (∃ t, (line = t ∨ line = t ++ [13]) ∧ (13 : UInt8) ∉ t) ∧ ¬ b!" control:" <:+: line) : ∀ m ∈ st'.feeds, IsWord m.control := by
  obtain ⟨⟨t, ht, htc⟩, hno⟩ := hl
  have hcr := trimSpace_noCR ht htc
  have hno' : ¬ b!" control:" <:+: trimSpace line := fun hc => hno (hc.trans (trimSpace_infix line))
  unfold sdpLine at h
  split at h
  · rename_i key val hsp
    unfold splitN2 at hsp
    cases hc : cut 61 (trimSpace line) with
    | none => rw [hc] at hsp; cases hsp
    | some p =>
      obtain ⟨a, b⟩ := p
      rw [hc] at hsp
      simp only [List.cons.injEq, and_true] at hsp
      obtain ⟨rfl, rfl⟩ := hsp
      obtain ⟨e, -⟩ := cut_some hc
      dsimp only at h
      split at h
      · exact sdpMedia_control h hs
      · split at h
        · split at h
          · cases h
            refine modifyLast_all (P := fun m => IsWord m.control) ?_ _ hs
            intro m hm
            have hbcr : (13 : UInt8) ∉ b := fun hx => hcr (by rw [e]; simp [hx])
            unfold splitN2
            cases hc2 : cut 32 b with
            | none => exact sdpField_control m b hm hbcr (.inl (cut_none.1 hc2))
            | some p =>
              obtain ⟨x, y⟩ := p
              obtain ⟨e2, hx⟩ := cut_some hc2
              dsimp only [List.foldl_cons, List.foldl_nil]
              refine sdpField_control _ y (sdpField_control m x hm (fun hh => hbcr (by rw [e2]; simp [hh])) (.inl hx)) (fun hh => hbcr (by rw [e2]; simp [hh])) (.inr ?_)
              rintro ⟨z, hz⟩
              refine hno' ⟨a ++ 61 :: x, z, ?_⟩
              rw [e, e2, ← hz]
              simp
          · cases h; exact hs
        · cases h; exact hs
  · cases h; exact hs

theorem sdpLines_control : ∀ (ls : List Bytes) {st st' : SdpState}, sdpLines st ls = .ok st' → (∀ m ∈ st.feeds, IsWord m.control) →
    (∀ line ∈ ls, (∃ t, (line = t ∨ line = t ++ [13]) ∧ (13 : UInt8) ∉ t) ∧ ¬ b!" control:" <:+: line) → ∀ m ∈ st'.feeds, IsWord m.control := by
  intro ls
  induction ls with
  | nil => intro st st' h hs _; cases h; exact hs
  | cons l ls ih =>
    intro st st' h hs hl
    rw [sdpLines] at h
    cases h1 : sdpLine st l with
    | error p => rw [h1] at h; cases h
    | ok st1 =>
      rw [h1] at h
      exact ih h (sdpLine_control h1 hs (hl l (by simp))) (fun x hx => hl x (List.mem_cons_of_mem _ hx))

theorem sdpParse_control {body : Bytes} {ms : List Media} (h : sdpParse body = .ok ms) (hb : PlainBody body) : ∀ m ∈ ms, IsWord m.control := by
  unfold sdpParse at h
  cases h1 : sdpLines ⟨[], false⟩ (split 10 body) with
  | error p => rw [h1] at h; cases h
  | ok st =>
    rw [h1] at h
    cases h
    exact sdpLines_control _ h1 (by simp) hb

/-! ## Transports -/

/-- The texts a transport can hold. -/
structure CleanTransport (t : Transport) : Prop where
  destination : (13 : UInt8) ∉ t.destination
  source : (13 : UInt8) ∉ t.source
  ssrc : (13 : UInt8) ∉ t.ssrc
  mode : (13 : UInt8) ∉ t.mode

theorem newTransport_clean (proto : Proto) (k : Int) : CleanTransport (newTransport proto k) := by
  cases proto <;> exact ⟨List.not_mem_nil, List.not_mem_nil, List.not_mem_nil, show (13 : UInt8) ∉ b!"PLAY" by decide⟩

theorem string_clean {t : Transport} (h : CleanTransport t) : (13 : UInt8) ∉ t.string := by
  have hi : ∀ i : Int, (13 : UInt8) ∉ itoa i := itoa_noCR
  have hp : ∀ p : Pair, (13 : UInt8) ∉ p.string := by
    intro p hm
    unfold Pair.string at hm
    simp only [List.mem_append] at hm
    rcases hm with (hm | hm) | hm
    · exact hi _ hm
    · exact absurd hm (by decide)
    · exact hi _ hm
  have ite1 : ∀ (c : Prop) [Decidable c] (a b : Bytes), (13 : UInt8) ∉ a → (13 : UInt8) ∉ b → (13 : UInt8) ∉ (if c then a ++ b else []) := by
    intro c _ a b ha hb
    split
    · intro hm; rcases List.mem_append.1 hm with hm | hm
      · exact ha hm
      · exact hb hm
    · exact List.not_mem_nil
  have app : ∀ a b : Bytes, (13 : UInt8) ∉ a → (13 : UInt8) ∉ b → (13 : UInt8) ∉ a ++ b := by
    intro a b ha hb hm
    rcases List.mem_append.1 hm with hm | hm
    · exact ha hm
    · exact hb hm
  unfold Transport.string
  refine app _ _ (app _ _ (app _ _ (app _ _ (app _ _ (app _ _ (app _ _ (app _ _ (app _ _ (app _ _ (app _ _ (app _ _ (by decide) ?_) (ite1 _ _ _ (by decide) h.destination))
    (ite1 _ _ _ (by decide) h.source)) (ite1 _ _ _ (by decide) (hp _))) ?_) (ite1 _ _ _ (by decide) (hp _))) (ite1 _ _ _ (by decide) (hp _))) (ite1 _ _ _ (by decide) (hp _)))
    (ite1 _ _ _ (by decide) (hi _))) (ite1 _ _ _ (by decide) (hi _))) (ite1 _ _ _ (by decide) h.ssrc)) (ite1 _ _ _ (by decide) h.mode)
  · (repeat' split) <;> decide
  · split <;> decide

theorem withVal_clean {t : Transport} {val : Option Bytes} {f : Bytes → Transport × Option NumErr} (ht : CleanTransport t)
    (hv : ∀ v, val = some v → CleanTransport (f v).1) : CleanTransport (withVal t val f).1 := by
  unfold withVal
  split
  · exact ht
  · exact hv _ rfl

theorem transpKey_clean {t : Transport} {key : Bytes} {val : Option Bytes} (ht : CleanTransport t) (hv : ∀ v, val = some v → (13 : UInt8) ∉ v) :
    CleanTransport (transpKey t key val).1 := by
  have ite : ∀ (c : Prop) [Decidable c] (a b : Transport × Option TranspErr), CleanTransport a.1 → CleanTransport b.1 → CleanTransport (if c then a else b).1 := by
    intro c _ a b ha hb
    split
    · exact ha
    · exact hb
  unfold transpKey
  refine ite _ _ _ { ht with } (ite _ _ _ { ht with } (ite _ _ _ (withVal_clean ht fun v h => { ht with destination := hv v h })
    (ite _ _ _ (withVal_clean ht fun v h => { ht with source := hv v h }) (ite _ _ _ (withVal_clean { ht with } fun v h => { ht with }) (ite _ _ _ { ht with }
    (ite _ _ _ (withVal_clean ht fun v h => { ht with }) (ite _ _ _ (withVal_clean ht fun v h => { ht with }) (ite _ _ _ (withVal_clean ht fun v h => { ht with })
    (ite _ _ _ (withVal_clean ht fun v h => { ht with }) (ite _ _ _ (withVal_clean ht fun v h => { ht with }) (ite _ _ _ (withVal_clean ht fun v h => { ht with ssrc := hv v h })
    (ite _ _ _ (withVal_clean ht fun v h => { ht with mode := hv v h }) ht))))))))))))

theorem transpLower_clean {t : Transport} (f : Bytes) (ht : CleanTransport t) : CleanTransport (transpLower t f) := by
  unfold transpLower
  split
  · exact { ht with }
  · exact ht

theorem splitN2_sub {c : UInt8} {s : Bytes} : ∀ p ∈ splitN2 c s, ∀ x ∈ p, x ∈ s := by
  intro p hp x hx
  unfold splitN2 at hp
  cases hc : cut c s with
  | none => rw [hc] at hp; simp only [List.mem_singleton] at hp; subst hp; exact hx
  | some q =>
    obtain ⟨a, b⟩ := q
    obtain ⟨e, -⟩ := cut_some hc
    rw [hc] at hp
    simp only [List.mem_cons, List.not_mem_nil, or_false] at hp
    rcases hp with rfl | rfl
    · rw [e]; simp [hx]
    · rw [e]; simp [hx]

theorem transpField_clean {t : Transport} {f : Bytes} (ht : CleanTransport t) (hf : (13 : UInt8) ∉ f) : CleanTransport (transpField t f).1 := by
  unfold transpField
  split
  · rename_i key val _ hs
    refine transpKey_clean (transpLower_clean f ht) ?_
    intro v hv; cases hv
    exact fun hm => hf (splitN2_sub _ (by rw [hs]; simp) _ hm)
  · exact transpKey_clean (transpLower_clean f ht) (by intro v hv; cases hv)
  · exact transpLower_clean f ht

theorem transpFields_clean : ∀ (fs : List Bytes) {t : Transport}, CleanTransport t → (∀ f ∈ fs, (13 : UInt8) ∉ f) → CleanTransport (transpFields t fs).1 := by
  intro fs
  induction fs with
  | nil => intro t ht _; exact ht
  | cons f fs ih =>
    intro t ht hf
    have h1 := transpField_clean ht (hf f (by simp))
    unfold transpFields
    split
    · rename_i t' e he
      rw [he] at h1; exact h1
    · rename_i t' he
      rw [he] at h1
      exact ih h1 (fun x hx => hf x (List.mem_cons_of_mem _ hx))

theorem parse_clean {t : Transport} {value : Bytes} (ht : CleanTransport t) (hv : (13 : UInt8) ∉ value) : CleanTransport (t.parse value).1 :=
  transpFields_clean _ ht fun f hf hm => hv (split_sub value f hf _ hm)

/-! ## Credentials -/

/-- The texts of an Authorization function and its digest. -/
structure CleanAuth (f : AuthFunc) (d : Digest) : Prop where
  text : ∀ a, f = .basic a ∨ f = .digest a → (13 : UInt8) ∉ a
  qop : (13 : UInt8) ∉ d.qop
  nc : (13 : UInt8) ∉ d.nc
  cnonce : (13 : UInt8) ∉ d.cnonce

theorem hexDigitsLoop_noCR : ∀ (fuel n : Nat), (13 : UInt8) ∉ hexDigitsLoop fuel n := by
  have key : ∀ n, n < 16 → hexDigit n ≠ 13 := fun n h => (by decide : ∀ n : Fin 16, hexDigit n.val ≠ 13) ⟨n, h⟩
  intro fuel
  induction fuel with
  | zero => intro n hm; rw [hexDigitsLoop, List.mem_singleton] at hm; exact key _ (Nat.mod_lt _ (by decide)) hm.symm
  | succ fuel ih =>
    intro n hm
    rw [hexDigitsLoop] at hm
    split at hm
    · rw [List.mem_singleton] at hm; exact key _ (by assumption) hm.symm
    · rcases List.mem_append.1 hm with hm | hm
      · exact ih _ hm
      · rw [List.mem_singleton] at hm; exact key _ (Nat.mod_lt _ (by decide)) hm.symm

theorem fmtHex8_noCR (n : Nat) : (13 : UInt8) ∉ fmtHex8 n := by
  intro hm
  unfold fmtHex8 at hm
  rcases List.mem_append.1 hm with hm | hm
  · exact absurd (List.eq_of_mem_replicate hm) (by decide)
  · exact hexDigitsLoop_noCR _ _ hm

theorem b64char_noCR (n : Nat) (h : n < 64) : b64char n ≠ 13 :=
  (by decide : ∀ n : Fin 64, b64char n.val ≠ 13) ⟨n, h⟩

theorem b64Encode_noCR (b : Bytes) : (13 : UInt8) ∉ b64Encode b := by
  have hu : ∀ x : UInt8, x.toNat < 256 := fun x => x.toNat_lt
  fun_induction b64Encode b with
  | case1 => simp
  | case2 a =>
    have := hu a
    simp only [List.mem_cons, List.not_mem_nil, or_false, not_or]
    exact ⟨(b64char_noCR _ (by omega)).symm, (b64char_noCR _ (by omega)).symm, by decide, by decide⟩
  | case3 a b =>
    have := hu a; have := hu b
    simp only [List.mem_cons, List.not_mem_nil, or_false, not_or]
    exact ⟨(b64char_noCR _ (by omega)).symm, (b64char_noCR _ (by omega)).symm, (b64char_noCR _ (by omega)).symm, by decide⟩
  | case4 a b c t ih =>
    have := hu a; have := hu b; have := hu c
    simp only [List.mem_cons, not_or]
    exact ⟨(b64char_noCR _ (by omega)).symm, (b64char_noCR _ (by omega)).symm, (b64char_noCR _ (by omega)).symm,
      (b64char_noCR _ (by omega)).symm, ih⟩

theorem app_noCR {a b : Bytes} (ha : (13 : UInt8) ∉ a) (hb : (13 : UInt8) ∉ b) : (13 : UInt8) ∉ a ++ b := by
  intro hm
  rcases List.mem_append.1 hm with hm | hm
  · exact ha hm
  · exact hb hm

theorem digestAttr_counts {d r : Digest} {a v : Bytes} (h : digestAttr d a v = .ok r) : r.nc = d.nc ∧ r.cnonce = d.cnonce := by
  unfold digestAttr at h
  repeat' split at h
  all_goals cases h <;> exact ⟨rfl, rfl⟩

theorem digestPart_counts {d r : Digest} {p : Bytes} (h : digestPart d p = .ok r) : r.nc = d.nc ∧ r.cnonce = d.cnonce := by
  unfold digestPart at h
  dsimp only at h
  repeat' split at h
  all_goals first | exact digestAttr_counts h | (cases h; exact ⟨rfl, rfl⟩)

theorem digestParts_counts : ∀ (ps : List Bytes) {d r : Digest}, digestParts d ps = .ok r → r.nc = d.nc ∧ r.cnonce = d.cnonce := by
  intro ps
  induction ps with
  | nil => intro d r h; cases h; exact ⟨rfl, rfl⟩
  | cons p ps ih =>
    intro d r h
    rw [digestParts] at h
    cases hp : digestPart d p with
    | error e => rw [hp] at h; cases h
    | ok d1 =>
      rw [hp] at h
      have h1 := digestPart_counts hp
      have h2 := ih h
      exact ⟨h2.1.trans h1.1, h2.2.trans h1.2⟩

theorem newDigest_counts {uri challenge : Bytes} {d : Digest} (h : newDigest uri challenge = .ok d) : d.nc = [] ∧ d.cnonce = [] := by
  unfold newDigest at h
  split at h
  · cases h
  · split at h
    · cases h
    · rename_i d1 hd
      have hi := digestParts_counts _ hd
      split at h
      · split at h
        · cases h
        · cases h; exact hi
      · cases h; exact hi

theorem authenticate_clean {md5 : Bytes → Bytes} {rnd uri challenge user password : Bytes} {d d' : Digest} {f : AuthFunc} (hd : newDigest uri challenge = .ok d)
    (huri : (13 : UInt8) ∉ uri) (hch : (13 : UInt8) ∉ challenge) (huser : (13 : UInt8) ∉ user)
    (h : authenticate md5 rnd d user password = .ok (f, d')) : CleanAuth f d' := by
  have hn := newDigest_noReturn hd hch
  have hinit : d.nc = [] ∧ d.cnonce = [] := newDigest_counts hd
  have hu : (13 : UInt8) ∉ d.uri := by rw [(newDigest_init hd).1]; exact huri
  unfold authenticate at h
  rw [colonnade_ok, colonnade_ok] at h
  split at h
  · cases h
    refine ⟨?_, hn.qop, by rw [hinit.1]; exact List.not_mem_nil, by rw [hinit.2]; exact List.not_mem_nil⟩
    rintro a (h | h)
    · cases h; exact app_noCR (by decide) (b64Encode_noCR _)
    · cases h
  · cases h
    refine ⟨?_, ?_, ?_, ?_⟩
    · rintro a (h | h)
      · cases h
      · cases h
        dsimp only
        refine app_noCR (app_noCR (app_noCR (app_noCR (app_noCR (app_noCR (app_noCR (app_noCR (app_noCR (app_noCR (app_noCR (by decide) huser) (by decide)) hn.realm) (by decide)) hn.nonce)
          (by decide)) hu) (by decide)) hn.algorithm) ?_) (by decide)
        split
        · exact app_noCR (by decide) hn.opq
        · exact List.not_mem_nil
    · unfold digestNext; split <;> exact hn.qop
    · unfold digestNext; split
      · show (13 : UInt8) ∉ d.nc
        rw [hinit.1]; exact List.not_mem_nil
      · exact fmtHex8_noCR _
    · unfold digestNext; split
      · show (13 : UInt8) ∉ d.cnonce
        rw [hinit.2]; exact List.not_mem_nil
      · exact fun hm => hexEncode_return rnd (List.take_subset _ _ hm)

theorem digestResponse_clean {md5 : Bytes → Bytes} {d d' : Digest} {verb body a : Bytes} (h : digestResponse md5 d verb body = .ok (a, d'))
    (hq : (13 : UInt8) ∉ d.qop) (hn : (13 : UInt8) ∉ d.nc) (hc : (13 : UInt8) ∉ d.cnonce) :
    (13 : UInt8) ∉ a ∧ d'.qop = d.qop ∧ d'.nc = d.nc ∧ d'.cnonce = d.cnonce := by
  unfold digestResponse at h
  simp only [colonnade_ok, bind, Except.bind, pure, Except.pure] at h
  have hm : ∀ x, (13 : UInt8) ∉ md5hex md5 x := fun x => hexEncode_return _
  have key : ∀ (x : Bytes), (13 : UInt8) ∉ b!", qop=\"" ++ d.qop ++ b!"\", nc=" ++ d.nc ++ b!", cnonce=\"" ++ d.cnonce ++ b!"\", response=\"" ++ md5hex md5 x ++ b!"\"" := fun x =>
    app_noCR (app_noCR (app_noCR (app_noCR (app_noCR (app_noCR (app_noCR (app_noCR (by decide) hq) (by decide)) hn) (by decide)) hc) (by decide)) (hm x)) (by decide)
  have key0 : ∀ (x : Bytes), (13 : UInt8) ∉ b!", response=\"" ++ md5hex md5 x ++ b!"\"" := fun x => app_noCR (app_noCR (by decide) (hm x)) (by decide)
  obtain ⟨c, hcc⟩ : ∃ c, (if d.qop = b!"auth-int" then (Except.ok (colons verb [d.uri, md5hex md5 body]) : Except Panic Bytes) else Except.ok (colons verb [d.uri])) = .ok c := by
    split <;> exact ⟨_, rfl⟩
  rw [hcc] at h
  dsimp only at h
  split at h
  · cases h; exact ⟨key0 _, rfl, rfl, rfl⟩
  · by_cases h3 : d.algorithm = b!"md5-sess"
    · rw [if_pos h3] at h
      cases h; exact ⟨key _, rfl, rfl, rfl⟩
    · rw [if_neg h3] at h
      cases h; exact ⟨key _, rfl, rfl, rfl⟩

theorem authCall_clean {md5 : Bytes → Bytes} {f : AuthFunc} {d d' : Digest} {verb body a : Bytes} (hc : CleanAuth f d)
    (h : authCall md5 f d verb body = .ok (a, d')) : (13 : UInt8) ∉ a ∧ CleanAuth f d' := by
  cases f with
  | basic t => cases h; exact ⟨hc.text _ (.inl rfl), hc⟩
  | digest t =>
    unfold authCall at h
    dsimp only at h
    cases h1 : digestResponse md5 d verb body with
    | error p => rw [h1] at h; cases h
    | ok r =>
      obtain ⟨r, d1⟩ := r
      rw [h1] at h
      cases h
      obtain ⟨g1, g2, g3, g4⟩ := digestResponse_clean h1 hc.qop hc.nc hc.cnonce
      exact ⟨app_noCR (hc.text _ (.inr rfl)) g1, hc.text, by rw [g2]; exact hc.qop, by rw [g3]; exact hc.nc, by rw [g4]; exact hc.cnonce⟩

end Ouro
