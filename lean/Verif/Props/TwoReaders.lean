import Verif.Spec.TwoReaders
/-! # C139: frames after a session has been opened again -/
namespace Ouro
open Spec

/-! ## Bytes are not made up -/

/-- The bytes frames take. -/
def worth (fs : List (UInt8 × Bytes)) : Nat := (fs.map fun f => 4 + f.2.length).sum

/-- The bytes of a frame a goroutine has taken. -/
def heldBy (pc : GPc) (new : Bytes) : Nat :=
  match pc with
  | .channel => if new = [] then 0 else 1
  | .length _ => 2
  | .body _ _ => 4
  | .send _ p => 4 + p.length
  | _ => 0

theorem heldBy_mono (pc : GPc) {a b : Bytes} (h : a.length ≤ b.length) : heldBy pc a ≤ heldBy pc b := by
  cases pc <;> simp only [heldBy, Nat.le_refl]
  by_cases ha : a = []
  · simp [ha]
  · by_cases hb : b = []
    · subst hb
      cases a with
      | nil => exact absurd rfl ha
      | cons => simp at h
    · simp [ha, hb]

theorem worth_append (a b : List (UInt8 × Bytes)) : worth (a ++ b) = worth a + worth b := by simp [worth]

theorem afterLine_length (b : Bytes) : (afterLine b).length ≤ b.length := by
  induction b with
  | nil => exact Nat.le_refl _
  | cons x b ih =>
    rw [afterLine]
    split
    · simp
    · simp only [List.length_cons]; omega

theorem gcall_worth (pc pc' : GPc) (bs bs' : Bytes) (h : gcall pc bs = some (pc', bs')) :
    heldBy pc' bs' + bs'.length ≤ heldBy pc bs + bs.length ∧ bs'.length ≤ bs.length := by
  unfold gcall at h
  split at h
  · injection h with h; injection h with h1 h2; subst h2
    split at h1 <;> subst h1 <;> simp [heldBy]
  · injection h with h; injection h with h1 h2; subst h1; subst h2
    simp only [heldBy, List.length_cons]
    split <;> omega
  · injection h with h; injection h with h1 h2; subst h1; subst h2
    simp [heldBy]; omega
  · injection h with h; injection h with h1 h2; subst h1; subst h2
    simp [heldBy]; omega
  · split at h
    · injection h with h; injection h with h1 h2; subst h1; subst h2
      simp [heldBy]
    · split at h
      · injection h with h; injection h with h1 h2; subst h1; subst h2
        simp only [heldBy, List.length_take, List.length_drop]
        omega
      · cases h
  · cases h

theorem glate_worth (pc : GPc) (bs : Bytes) (h : gcall pc bs = none) :
    heldBy (glate pc bs).1 (glate pc bs).2 + (glate pc bs).2.length ≤ heldBy pc bs + bs.length ∧ (glate pc bs).2.length ≤ bs.length := by
  cases pc with
  | discard =>
    cases bs with
    | nil => simp [glate, heldBy]
    | cons b bs => simp [gcall] at h
  | length ch => simp [glate, heldBy]; omega
  | _ => simp [glate, heldBy]

/-- Only the first call can be on the old connection. -/
def OldPeek (g : Gor) : Prop := g.on = some false → g.pc = .peek

/-- A goroutine in a call, or about to begin one. -/
def gcalls (s : TwoReaders) (g : Gor) (t : GTurn) : Gor × TwoReaders :=
  match g.on with
  | none =>
    match t with
    | .go => ({ g with on := some true }, s)
    | _ => (g, s)
  | some c =>
    match gcall g.pc (if c then s.new else s.old), t with
    | some (pc', bs), .go => ({ pc := pc' }, if c then { s with new := bs } else { s with old := bs })
    | none, .timeout => ({ pc := (glate g.pc (if c then s.new else s.old)).1 },
        if c then { s with new := (glate g.pc s.new).2 } else { s with old := (glate g.pc s.old).2 })
    | _, _ => (g, s)

/-- What a step must not do. -/
def NoMore (s : TwoReaders) (g : Gor) (r : Gor × TwoReaders) : Prop :=
  OldPeek r.1 ∧ r.2.new.length ≤ s.new.length ∧ worth r.2.data + heldBy r.1.pc r.2.new + r.2.new.length ≤ worth s.data + heldBy g.pc s.new + s.new.length

theorem noMore_stay (s : TwoReaders) (g : Gor) (he : OldPeek g) : NoMore s g (g, s) := ⟨he, Nat.le_refl _, Nat.le_refl _⟩

theorem early_fresh (pc : GPc) : OldPeek { pc := pc } := fun h => by cases h

theorem peek_held (bs new bs' : Bytes) (pc' : GPc) (h : gcall .peek bs = some (pc', bs')) : heldBy pc' new = 0 := by
  cases bs with
  | nil => simp [gcall] at h
  | cons b bs =>
    simp only [gcall, Option.some.injEq, Prod.mk.injEq] at h
    rw [← h.1]
    split <;> rfl

theorem gcalls_noMore (s : TwoReaders) (g : Gor) (t : GTurn) (he : OldPeek g) : NoMore s g (gcalls s g t) := by
  unfold gcalls
  split
  · split
    · exact ⟨fun h => (by cases h), Nat.le_refl _, Nat.le_refl _⟩
    · exact noMore_stay s g he
  · next c hon =>
    split
    · next pc' bs hc =>
      cases c with
      | true =>
        have := gcall_worth g.pc pc' s.new bs (by simpa using hc)
        refine ⟨early_fresh _, this.2, ?_⟩
        show worth s.data + heldBy pc' bs + bs.length ≤ _
        omega
      | false =>
        have hp := he hon
        rw [hp] at hc
        have := peek_held _ s.new _ _ hc
        refine ⟨early_fresh _, Nat.le_refl _, ?_⟩
        show worth s.data + heldBy pc' s.new + s.new.length ≤ _
        omega
    · next hc =>
      cases c with
      | true =>
        have := glate_worth g.pc s.new (by simpa using hc)
        refine ⟨early_fresh _, this.2, ?_⟩
        show worth s.data + heldBy (glate g.pc s.new).1 (glate g.pc s.new).2 + (glate g.pc s.new).2.length ≤ _
        omega
      | false =>
        have hp := he hon
        refine ⟨early_fresh _, Nat.le_refl _, ?_⟩
        show worth s.data + heldBy (glate g.pc s.old).1 s.new + s.new.length ≤ _
        rw [hp]
        exact Nat.le_refl _
    · exact noMore_stay s g he

theorem gmove_worth (s : TwoReaders) (g : Gor) (t : GTurn) (he : OldPeek g) : NoMore s g (gmove s g t) := by
  obtain ⟨pc, on⟩ := g
  cases pc with
  | gone => exact noMore_stay s _ he
  | send ch p =>
    cases t with
    | go =>
      refine ⟨early_fresh _, Nat.le_refl _, ?_⟩
      show worth (s.data ++ [(ch, p)]) + 0 + s.new.length ≤ worth s.data + (4 + p.length) + s.new.length
      rw [worth_append]
      simp only [worth, List.map_cons, List.map_nil, List.sum_cons, List.sum_nil]
      omega
    | timeout => exact noMore_stay s _ he
    | answer k f => exact noMore_stay s _ he
  | response =>
    cases t with
    | go => exact noMore_stay s _ he
    | timeout => exact noMore_stay s _ he
    | answer k f =>
      simp only [gmove]
      split
      · have h1 := afterLine_length s.new
        have h2 : ((afterLine s.new).drop k).length ≤ s.new.length := by rw [List.length_drop]; omega
        refine ⟨early_fresh _, h2, ?_⟩
        have h3 : ∀ new, heldBy (if f = true then GPc.gone else GPc.peek) new = 0 := by intro new; cases f <;> rfl
        dsimp only
        rw [h3]
        omega
      · refine ⟨early_fresh _, Nat.zero_le _, ?_⟩
        show worth s.data + 0 + 0 ≤ _
        omega
  | peek => exact gcalls_noMore s _ t he
  | discard => exact gcalls_noMore s _ t he
  | channel => exact gcalls_noMore s _ t he
  | length ch => exact gcalls_noMore s _ t he
  | body ch n => exact gcalls_noMore s _ t he

/-- All bytes there are. -/
def allBytes (s : TwoReaders) : Nat := worth s.data + heldBy s.first.pc s.new + heldBy s.second.pc s.new + s.new.length

theorem gmove_keeps (s : TwoReaders) (g : Gor) (t : GTurn) : (gmove s g t).2.first = s.first ∧ (gmove s g t).2.second = s.second := by
  unfold gmove
  repeat' split
  all_goals exact ⟨rfl, rfl⟩

theorem qturn_worth (s : TwoReaders) (x : Bool × GTurn) (h1 : OldPeek s.first) (h2 : OldPeek s.second) :
    OldPeek (qturn s x).first ∧ OldPeek (qturn s x).second ∧ allBytes (qturn s x) ≤ allBytes s := by
  obtain ⟨b, t⟩ := x
  cases b with
  | true =>
    obtain ⟨a, c, d⟩ := gmove_worth s s.first t h1
    have k := (gmove_keeps s s.first t).2
    refine ⟨a, ?_, ?_⟩
    · show OldPeek (gmove s s.first t).2.second
      rw [k]; exact h2
    · show worth (gmove s s.first t).2.data + heldBy (gmove s s.first t).1.pc (gmove s s.first t).2.new + heldBy (gmove s s.first t).2.second.pc (gmove s s.first t).2.new +
        (gmove s s.first t).2.new.length ≤ _
      rw [k]
      have := heldBy_mono s.second.pc c
      unfold allBytes
      omega
  | false =>
    obtain ⟨a, c, d⟩ := gmove_worth s s.second t h2
    have k := (gmove_keeps s s.second t).1
    refine ⟨?_, a, ?_⟩
    · show OldPeek (gmove s s.second t).2.first
      rw [k]; exact h1
    · show worth (gmove s s.second t).2.data + heldBy (gmove s s.second t).2.first.pc (gmove s s.second t).2.new + heldBy (gmove s s.second t).1.pc (gmove s s.second t).2.new +
        (gmove s s.second t).2.new.length ≤ _
      rw [k]
      have := heldBy_mono s.first.pc c
      unfold allBytes
      omega

theorem qturns_worth (ts : List (Bool × GTurn)) : ∀ s : TwoReaders, OldPeek s.first → OldPeek s.second →
    OldPeek (qturns s ts).first ∧ OldPeek (qturns s ts).second ∧ allBytes (qturns s ts) ≤ allBytes s := by
  induction ts with
  | nil => intro s h1 h2; exact ⟨h1, h2, Nat.le_refl _⟩
  | cons x ts ih =>
    intro s h1 h2
    obtain ⟨a, b, c⟩ := qturn_worth s x h1 h2
    obtain ⟨d, e, f⟩ := ih (qturn s x) a b
    exact ⟨d, e, Nat.le_trans f c⟩

theorem worth_data (s : TwoReaders) : worth s.data ≤ allBytes s := by unfold allBytes; omega

theorem framesBytes_cons (f : UInt8 × Bytes) (fs : List (UInt8 × Bytes)) :
    framesBytes (f :: fs) = 36 :: f.1 :: UInt8.ofNat (f.2.length / 256) :: UInt8.ofNat (f.2.length % 256) :: (f.2 ++ framesBytes fs) := by
  simp [framesBytes, framesOf, Msg.bytes]

theorem framesBytes_length (fs : List (UInt8 × Bytes)) : (framesBytes fs).length = worth fs := by
  induction fs with
  | nil => rfl
  | cons f fs ih =>
    rw [framesBytes_cons]
    simp only [List.length_cons, List.length_append, ih, worth, List.map_cons, List.sum_cons]
    omega

/-! ## One goroutine -/

/-- The second goroutine is in a frame that it reads as it was sent; `fs` are to come, with the one it is in. -/
inductive InFrame : Gor → Bytes → List (UInt8 × Bytes) → Prop
  | peek (on : Option Bool) (h : on ≠ some false) (fs) : InFrame ⟨.peek, on⟩ (framesBytes fs) fs
  | discard (on : Option Bool) (h : on ≠ some false) (f fs) : InFrame ⟨.discard, on⟩ (framesBytes (f :: fs)) (f :: fs)
  | channel (on : Option Bool) (h : on ≠ some false) (f fs) : InFrame ⟨.channel, on⟩ ((framesBytes (f :: fs)).drop 1) (f :: fs)
  | length (on : Option Bool) (h : on ≠ some false) (f fs) : InFrame ⟨.length f.1, on⟩ ((framesBytes (f :: fs)).drop 2) (f :: fs)
  | body (on : Option Bool) (h : on ≠ some false) (f fs) : InFrame ⟨.body f.1 f.2.length, on⟩ ((framesBytes (f :: fs)).drop 4) (f :: fs)
  | send (f fs) : InFrame ⟨.send f.1 f.2, none⟩ (framesBytes fs) (f :: fs)

/-- The state while the first goroutine has ended. -/
structure FirstGone (all : List (UInt8 × Bytes)) (s : TwoReaders) (rest : List (UInt8 × Bytes)) : Prop where
  gone : s.first.pc = .gone
  frame : InFrame s.second s.new rest
  data : s.data ++ rest = all

theorem lengths (n : Nat) (h : n ≤ 2048) : 256 * (UInt8.ofNat (n / 256)).toNat + (UInt8.ofNat (n % 256)).toNat = n := by
  rw [UInt8.toNat_ofNat', UInt8.toNat_ofNat']
  omega

theorem gmove_gone (s : TwoReaders) (g : Gor) (t : GTurn) (h : g.pc = .gone) : gmove s g t = (g, s) := by
  unfold gmove
  rw [h]

theorem call_peek (f : UInt8 × Bytes) (fs : List (UInt8 × Bytes)) : gcall .peek (framesBytes (f :: fs)) = some (.discard, framesBytes (f :: fs)) := by
  rw [framesBytes_cons]; rfl

theorem call_discard (f : UInt8 × Bytes) (fs : List (UInt8 × Bytes)) :
    gcall .discard (framesBytes (f :: fs)) = some (.channel, (framesBytes (f :: fs)).drop 1) := by
  rw [framesBytes_cons]; rfl

theorem call_channel (f : UInt8 × Bytes) (fs : List (UInt8 × Bytes)) :
    gcall .channel ((framesBytes (f :: fs)).drop 1) = some (.length f.1, (framesBytes (f :: fs)).drop 2) := by
  rw [framesBytes_cons]; rfl

theorem call_length (f : UInt8 × Bytes) (fs : List (UInt8 × Bytes)) (h : f.2.length ≤ 2048) :
    gcall (.length f.1) ((framesBytes (f :: fs)).drop 2) = some (.body f.1 f.2.length, (framesBytes (f :: fs)).drop 4) := by
  rw [framesBytes_cons]
  show some (GPc.body f.1 (256 * (UInt8.ofNat (f.2.length / 256)).toNat + (UInt8.ofNat (f.2.length % 256)).toNat), _) = _
  rw [lengths _ h]
  rfl

theorem call_body (f : UInt8 × Bytes) (fs : List (UInt8 × Bytes)) (h : f.2.length ≤ 2048) :
    gcall (.body f.1 f.2.length) ((framesBytes (f :: fs)).drop 4) = some (.send f.1 f.2, framesBytes fs) := by
  rw [framesBytes_cons]
  show (if bufSize < f.2.length then _ else if f.2.length ≤ (f.2 ++ framesBytes fs).length then
    some (GPc.send f.1 ((f.2 ++ framesBytes fs).take f.2.length), (f.2 ++ framesBytes fs).drop f.2.length) else none) = _
  rw [if_neg (by unfold bufSize; omega), if_pos (by simp)]
  simp

/-- Turns the second goroutine still needs. -/
def needs (g : Gor) (rest : List (UInt8 × Bytes)) : Nat :=
  let o := if g.on = none then 1 else 0
  11 * rest.length + (match g.pc with
    | .peek => 20
    | .discard => 18
    | .channel => 16
    | .length _ => 14
    | .body _ _ => 12
    | _ => 10) + o

theorem gone_go (all : List (UInt8 × Bytes)) (hl : ∀ f ∈ all, f.2.length ≤ 2048) (s : TwoReaders) (rest : List (UInt8 × Bytes)) (h : FirstGone all s rest) :
    ∃ rest', FirstGone all (qturn s (false, .go)) rest' ∧ (rest ≠ [] → needs (qturn s (false, .go)).second rest' < needs s.second rest) := by
  obtain ⟨hg, hf, hd⟩ := h
  obtain ⟨old, new, first, second, data⟩ := s
  dsimp only at hg hf hd
  cases hf with
  | peek on hon fs =>
    cases on with
    | none => exact ⟨_, ⟨hg, .peek (some true) (by simp) _, hd⟩, fun _ => by simp [qturn, gmove, needs]⟩
    | some c =>
      cases c with
      | false => exact absurd rfl hon
      | true =>
        cases rest with
        | nil => exact ⟨[], ⟨hg, .peek (some true) (by simp) [], hd⟩, fun h => absurd rfl h⟩
        | cons f fs =>
          have e : qturn ⟨old, framesBytes (f :: fs), first, ⟨.peek, some true⟩, data⟩ (false, .go) =
              ⟨old, framesBytes (f :: fs), first, ⟨.discard, none⟩, data⟩ := by simp [qturn, gmove, call_peek]
          rw [e]
          exact ⟨_, ⟨hg, .discard _ (by simp) f fs, hd⟩, fun _ => by simp [needs]⟩
  | discard on hon f fs =>
    cases on with
    | none => exact ⟨_, ⟨hg, .discard (some true) (by simp) _ _, hd⟩, fun _ => by simp [qturn, gmove, needs]⟩
    | some c =>
      cases c with
      | false => exact absurd rfl hon
      | true =>
        have e : qturn ⟨old, framesBytes (f :: fs), first, ⟨.discard, some true⟩, data⟩ (false, .go) =
            ⟨old, (framesBytes (f :: fs)).drop 1, first, ⟨.channel, none⟩, data⟩ := by simp only [qturn, gmove, Bool.false_eq_true, if_false, if_true, call_discard]
        rw [e]
        exact ⟨_, ⟨hg, .channel _ (by simp) f fs, hd⟩, fun _ => by simp [needs]⟩
  | channel on hon f fs =>
    cases on with
    | none => exact ⟨_, ⟨hg, .channel (some true) (by simp) _ _, hd⟩, fun _ => by simp [qturn, gmove, needs]⟩
    | some c =>
      cases c with
      | false => exact absurd rfl hon
      | true =>
        have e : qturn ⟨old, (framesBytes (f :: fs)).drop 1, first, ⟨.channel, some true⟩, data⟩ (false, .go) =
            ⟨old, (framesBytes (f :: fs)).drop 2, first, ⟨.length f.1, none⟩, data⟩ := by simp only [qturn, gmove, Bool.false_eq_true, if_false, if_true, call_channel]
        rw [e]
        exact ⟨_, ⟨hg, .length _ (by simp) f fs, hd⟩, fun _ => by simp [needs]⟩
  | length on hon f fs =>
    cases on with
    | none => exact ⟨_, ⟨hg, .length (some true) (by simp) _ _, hd⟩, fun _ => by simp [qturn, gmove, needs]⟩
    | some c =>
      cases c with
      | false => exact absurd rfl hon
      | true =>
        have hfl : f.2.length ≤ 2048 := hl f (by rw [← hd]; simp)
        have e : qturn ⟨old, (framesBytes (f :: fs)).drop 2, first, ⟨.length f.1, some true⟩, data⟩ (false, .go) =
            ⟨old, (framesBytes (f :: fs)).drop 4, first, ⟨.body f.1 f.2.length, none⟩, data⟩ := by
          simp only [qturn, gmove, Bool.false_eq_true, if_false, if_true, call_length f fs hfl]
        rw [e]
        exact ⟨_, ⟨hg, .body _ (by simp) f fs, hd⟩, fun _ => by simp [needs]⟩
  | body on hon f fs =>
    cases on with
    | none => exact ⟨_, ⟨hg, .body (some true) (by simp) _ _, hd⟩, fun _ => by simp [qturn, gmove, needs]⟩
    | some c =>
      cases c with
      | false => exact absurd rfl hon
      | true =>
        have hfl : f.2.length ≤ 2048 := hl f (by rw [← hd]; simp)
        have e : qturn ⟨old, (framesBytes (f :: fs)).drop 4, first, ⟨.body f.1 f.2.length, some true⟩, data⟩ (false, .go) =
            ⟨old, framesBytes fs, first, ⟨.send f.1 f.2, none⟩, data⟩ := by
          simp only [qturn, gmove, Bool.false_eq_true, if_false, if_true, call_body f fs hfl]
        rw [e]
        exact ⟨_, ⟨hg, .send f fs, hd⟩, fun _ => by simp [needs]⟩
  | send f fs =>
    refine ⟨fs, ⟨hg, .peek none (by simp) _, ?_⟩, fun _ => ?_⟩
    · show (data ++ [(f.1, f.2)]) ++ fs = all
      rw [← hd]; simp
    · simp only [qturn, gmove, needs, Bool.false_eq_true, if_false, if_true, List.length_cons]
      omega

theorem gone_turn (all : List (UInt8 × Bytes)) (hl : ∀ f ∈ all, f.2.length ≤ 2048) (s : TwoReaders) (rest : List (UInt8 × Bytes)) (h : FirstGone all s rest) (x : Bool × GTurn) :
    ∃ rest', FirstGone all (qturn s x) rest' := by
  obtain ⟨b, t⟩ := x
  cases b with
  | true =>
    refine ⟨rest, ?_⟩
    show FirstGone all { (gmove s s.first t).2 with first := (gmove s s.first t).1 } rest
    rw [gmove_gone s s.first t h.gone]
    exact ⟨h.gone, h.frame, h.data⟩
  | false =>
    cases t with
    | go =>
      obtain ⟨r, hr, _⟩ := gone_go all hl s rest h
      exact ⟨r, hr⟩
    | answer k f =>
      refine ⟨rest, ?_⟩
      have e : gmove s s.second (.answer k f) = (s.second, s) := by
        obtain ⟨hg, hf, hd⟩ := h
        obtain ⟨old, new, first, second, data⟩ := s
        dsimp only at hf ⊢
        cases hf with
        | send f fs => rfl
        | _ on _ =>
          cases on with
          | none => rfl
          | some c => simp [gmove]
      show FirstGone all { (gmove s s.second _).2 with second := (gmove s s.second _).1 } rest
      rw [e]
      exact ⟨h.gone, h.frame, h.data⟩
    | timeout =>
      refine ⟨rest, ?_⟩
      obtain ⟨hg, hf, hd⟩ := h
      obtain ⟨old, new, first, second, data⟩ := s
      dsimp only at hg hf hd
      show FirstGone all { (gmove _ second .timeout).2 with second := (gmove _ second .timeout).1 } rest
      cases hf with
      | peek on hon fs =>
        cases on with
        | none => exact ⟨hg, .peek _ (by simp) _, hd⟩
        | some c =>
          cases c with
          | false => exact absurd rfl hon
          | true =>
            cases rest with
            | nil => exact ⟨hg, .peek none (by simp) [], hd⟩
            | cons f fs =>
              simp only [gmove, if_true, call_peek]
              exact ⟨hg, .peek _ (by simp) _, hd⟩
      | discard on hon f fs =>
        cases on with
        | none => exact ⟨hg, .discard _ (by simp) _ _, hd⟩
        | some c =>
          cases c with
          | false => exact absurd rfl hon
          | true =>
            simp only [gmove, if_true, call_discard]
            exact ⟨hg, .discard _ (by simp) _ _, hd⟩
      | channel on hon f fs =>
        cases on with
        | none => exact ⟨hg, .channel _ (by simp) _ _, hd⟩
        | some c =>
          cases c with
          | false => exact absurd rfl hon
          | true =>
            simp only [gmove, if_true, call_channel]
            exact ⟨hg, .channel _ (by simp) _ _, hd⟩
      | length on hon f fs =>
        have hfl : f.2.length ≤ 2048 := hl f (by rw [← hd]; simp)
        cases on with
        | none => exact ⟨hg, .length _ (by simp) _ _, hd⟩
        | some c =>
          cases c with
          | false => exact absurd rfl hon
          | true =>
            simp only [gmove, if_true, call_length f fs hfl]
            exact ⟨hg, .length _ (by simp) _ _, hd⟩
      | body on hon f fs =>
        have hfl : f.2.length ≤ 2048 := hl f (by rw [← hd]; simp)
        cases on with
        | none => exact ⟨hg, .body _ (by simp) _ _, hd⟩
        | some c =>
          cases c with
          | false => exact absurd rfl hon
          | true =>
            simp only [gmove, if_true, call_body f fs hfl]
            exact ⟨hg, .body _ (by simp) _ _, hd⟩
      | send f fs => exact ⟨hg, .send f fs, hd⟩

theorem gone_turns (all : List (UInt8 × Bytes)) (hl : ∀ f ∈ all, f.2.length ≤ 2048) (ts : List (Bool × GTurn)) :
    ∀ (s : TwoReaders) (rest : List (UInt8 × Bytes)), FirstGone all s rest → ∃ rest', FirstGone all (qturns s ts) rest' := by
  induction ts with
  | nil => intro s rest h; exact ⟨rest, h⟩
  | cons x ts ih =>
    intro s rest h
    obtain ⟨r, hr⟩ := gone_turn all hl s rest h x
    exact ih _ r hr

/-- All that is missing can be delivered. -/
theorem gone_ends (all : List (UInt8 × Bytes)) (hl : ∀ f ∈ all, f.2.length ≤ 2048) : ∀ (n : Nat) (s : TwoReaders) (rest : List (UInt8 × Bytes)),
    needs s.second rest ≤ n → FirstGone all s rest → ∃ ts, (qturns s ts).data = all := by
  intro n
  induction n with
  | zero =>
    intro s rest hn h
    exfalso
    simp only [needs] at hn
    split at hn <;> omega
  | succ n ih =>
    intro s rest hn h
    by_cases hr : rest = []
    · subst hr
      exact ⟨[], (List.append_nil _).symm.trans h.data⟩
    · obtain ⟨r, ha, hlt⟩ := gone_go all hl s rest h
      obtain ⟨ts, hts⟩ := ih _ r (by have := hlt hr; omega) ha
      exact ⟨(false, .go) :: ts, hts⟩

theorem qturns_append (s : TwoReaders) (a b : List (Bool × GTurn)) : qturns s (a ++ b) = qturns (qturns s a) b := by simp [qturns]

/-! ## Theorems -/

/-- **C139 (partial).** A session whose goroutine has ended and that is opened again delivers all frames of the new connection as they were sent: no schedule prevents it. -/
theorem C139_alone_partial (fs : List (UInt8 × Bytes)) (hl : ∀ f ∈ fs, f.2.length ≤ 2048) : Intact (reopened false (framesBytes fs)) fs := by
  intro ts
  obtain ⟨r, hr⟩ := gone_turns fs hl ts (reopened false (framesBytes fs)) fs ⟨rfl, .peek none (by simp) fs, rfl⟩
  obtain ⟨ts', h⟩ := gone_ends fs hl _ _ r (Nat.le_refl _) hr
  exact ⟨ts', by rw [qturns_append]; exact h⟩

/-- **C139 (partial).** At every moment of every schedule, what has been delivered are the first frames that were sent. -/
theorem C139_prefix_partial (fs : List (UInt8 × Bytes)) (hl : ∀ f ∈ fs, f.2.length ≤ 2048) (ts : List (Bool × GTurn)) :
    (qturns (reopened false (framesBytes fs)) ts).data <+: fs := by
  obtain ⟨r, hr⟩ := gone_turns fs hl ts (reopened false (framesBytes fs)) fs ⟨rfl, .peek none (by simp) fs, rfl⟩
  exact ⟨r, hr.data⟩

/-- The second goroutine reads the channel, then the first one is told that its old connection is silent and looks at the length. -/
def looks : List (Bool × GTurn) :=
  [(false, .go), (false, .go), (false, .go), (false, .go), (false, .go), (false, .go), (true, .timeout), (true, .go), (true, .go)]

/-- The schedule that spoils the first frame: the first goroutine takes the length for a response. -/
def spoil : List (Bool × GTurn) := looks ++ [(true, .answer 0 true)]

theorem afterLine_lt (b : UInt8) (bs : Bytes) : (afterLine (b :: bs)).length ≤ bs.length := by
  rw [afterLine]
  split
  · exact Nat.le_refl _
  · exact afterLine_length bs

theorem spoil_worth (f : UInt8 × Bytes) (fs : List (UInt8 × Bytes)) (hl : f.2.length ≤ 2048) :
    OldPeek (qturns (reopened true (framesBytes (f :: fs))) spoil).first ∧ OldPeek (qturns (reopened true (framesBytes (f :: fs))) spoil).second ∧
      allBytes (qturns (reopened true (framesBytes (f :: fs))) spoil) < worth (f :: fs) := by
  have hw : worth (f :: fs) = 4 + (f.2 ++ framesBytes fs).length := by
    rw [List.length_append, framesBytes_length]
    simp only [worth, List.map_cons, List.sum_cons]
    omega
  have hn : UInt8.ofNat (f.2.length / 256) ≠ 36 := by
    intro h
    have := congrArg UInt8.toNat h
    rw [UInt8.toNat_ofNat'] at this
    have e : (36 : UInt8).toNat = 36 := rfl
    rw [e] at this
    omega
  rw [framesBytes_cons, hw]
  generalize UInt8.ofNat (f.2.length / 256) = a at hn
  generalize UInt8.ofNat (f.2.length % 256) = b
  generalize f.2 ++ framesBytes fs = c
  have e : qturns (reopened true (36 :: f.1 :: a :: b :: c)) looks = ⟨[], a :: b :: c, ⟨.response, none⟩, ⟨.length f.1, none⟩, []⟩ := by
    simp [qturns, looks, qturn, gmove, reopened, gcall, glate, hn]
  rw [spoil, qturns_append, e]
  have hal := afterLine_lt a (b :: c)
  simp only [qturns, List.foldl_cons, List.foldl_nil, qturn, gmove, if_true, List.drop_zero]
  split
  · refine ⟨early_fresh _, early_fresh _, ?_⟩
    simp only [allBytes, worth, List.map_nil, List.sum_nil, heldBy]
    simp only [List.length_cons] at hal
    omega
  · refine ⟨early_fresh _, early_fresh _, ?_⟩
    simp only [allBytes, worth, List.map_nil, List.sum_nil, heldBy, List.length_nil]
    omega

/-- **C139, the exact law.** A session that is opened again while frames arrive on its new connection is sure to deliver them as they were sent exactly if the goroutine of
the first `Open` has ended before; otherwise there is a schedule after which they are never delivered. -/
theorem C139_iff (alive : Bool) (fs : List (UInt8 × Bytes)) (hl : ∀ f ∈ fs, f.2.length ≤ 2048) :
    Intact (reopened alive (framesBytes fs)) fs ↔ (alive = false ∨ fs = []) := by
  constructor
  · intro h
    cases alive with
    | false => exact Or.inl rfl
    | true =>
      cases fs with
      | nil => exact Or.inr rfl
      | cons f fs =>
        exfalso
        obtain ⟨a, b, c⟩ := spoil_worth f fs (hl f (List.mem_cons_self ..))
        obtain ⟨ts, ht⟩ := h spoil
        rw [qturns_append] at ht
        obtain ⟨_, _, d⟩ := qturns_worth ts _ a b
        have := worth_data (qturns (qturns (reopened true (framesBytes (f :: fs))) spoil) ts)
        rw [ht] at this
        omega
  · rintro (rfl | rfl)
    · exact C139_alone_partial fs hl
    · intro ts
      refine ⟨[], ?_⟩
      rw [List.append_nil]
      have h1 : OldPeek (reopened alive (framesBytes [])).first := by
        cases alive
        · exact early_fresh _
        · intro _; rfl
      obtain ⟨_, _, d⟩ := qturns_worth ts _ h1 (early_fresh _)
      have e : allBytes (reopened alive (framesBytes [])) = 0 := by cases alive <;> rfl
      have := worth_data (qturns (reopened alive (framesBytes [])) ts)
      generalize (qturns (reopened alive (framesBytes [])) ts).data = l at this
      cases l with
      | nil => rfl
      | cons x l =>
        simp only [worth, List.map_cons, List.sum_cons] at this
        omega

/-- Two frames. -/
def twoFrames : List (UInt8 × Bytes) := [(0, [7, 8, 9]), (2, [5])]

/-- **C139, refuted.** The goroutine of the first `Open` is alive: after this schedule nothing is ever delivered as it was sent. -/
theorem C139_refuted : ¬ ∀ (alive : Bool) (fs : List (UInt8 × Bytes)), (∀ f ∈ fs, f.2.length ≤ 2048) → Intact (reopened alive (framesBytes fs)) fs := by
  intro h
  have := (C139_iff true twoFrames (by decide)).mp (h true twoFrames (by decide))
  rcases this with h | h
  · cases h
  · cases h

example : (qturns (reopened false (framesBytes twoFrames)) (List.replicate 22 (false, .go))).data = twoFrames := by decide +kernel

example : (qturns (reopened true (framesBytes twoFrames)) (List.replicate 22 (false, .go))).data = twoFrames := by decide +kernel

example : (qturns (reopened true (framesBytes twoFrames)) (spoil ++ List.replicate 22 (false, .go))).data = [] := by decide +kernel

/-- The second goroutine reads the length of a frame, the first one finds a frame in its payload. -/
example : (qturns (reopened true (framesBytes [(0, [36, 1, 0, 1, 99])])) (List.replicate 8 (false, .go) ++ (true, .timeout) :: List.replicate 11 (true, .go))).data =
    [(1, [99])] := by decide +kernel

end Ouro
