import Verif.Lemmas.Session
import Verif.Spec.Commands
/-! # `process` before OPTIONS is sent -/
namespace Ouro
open Spec

/-- What can have happened before the first request. -/
def Incoming0 (o : List Out) : Prop := ∀ x ∈ o, (∃ ch p, x = .data ch p) ∨ ∃ rsp, x = .got rsp

/-- A session that is connected and has sent nothing. -/
def dialled (uri : Bytes) (proto : Proto) (user : Option (Bytes × Bytes)) (o : List Out) : Sess :=
  { newSession with opened := true, baseURI := uri, proto := proto, user := user, out := o }

theorem incoming0_cons {o : List Out} (h : Incoming0 o) {x : Out} (hx : (∃ ch p, x = .data ch p) ∨ ∃ rsp, x = .got rsp) : Incoming0 (x :: o) := by
  intro y hy
  rcases List.mem_cons.1 hy with rfl | hy
  · exact hx
  · exact h y hy

theorem dialled_item {w : World} {uri : Bytes} {proto : Proto} {user : Option (Bytes × Bytes)} {o : List Out} {i : Item} {s : Sess} {e : Option SErr}
    (h : handleItem w (dialled uri proto user o) i = .ok (s, e)) :
    (∃ ch p, i = .frame ch p ∧ e = none ∧ s = dialled uri proto user (.data ch p :: o)) ∨
    (∃ rsp, i = .response rsp ∧ e = some .badResponse ∧ s = dialled uri proto user (.got rsp :: o)) := by
  cases i with
  | frame ch p => injection h with h; injection h with h1 h2; exact .inl ⟨ch, p, rfl, h2.symm, h1.symm⟩
  | response rsp => injection h with h; injection h with h1 h2; exact .inr ⟨rsp, rfl, h2.symm, h1.symm⟩

theorem dialled_early {w : World} {uri : Bytes} {proto : Proto} {user : Option (Bytes × Bytes)} (early : List Op) : ∀ {o : List Out} {s : Sess},
    Incoming0 o → (∀ op ∈ early, ByItself op) → run w (dialled uri proto user o) early = .ok s → ∃ o', s = dialled uri proto user o' ∧ Incoming0 o' := by
  induction early with
  | nil => intro o s ho _ h; injection h with h; exact ⟨o, h.symm, ho⟩
  | cons op early ih =>
    intro o s ho hop h
    unfold run at h
    cases hs : step w (dialled uri proto user o) op with
    | error p => rw [hs] at h; cases h
    | ok r =>
      obtain ⟨t, e⟩ := r
      rw [hs] at h
      have ho' := hop op (by simp)
      have hop' : ∀ op ∈ early, ByItself op := fun x hx => hop x (by simp [hx])
      cases op with
      | keepAlive due =>
        have : step w (dialled uri proto user o) (.keepAlive due) = .ok (dialled uri proto user o, none) := by
          show (if _ then _ else _) = _
          exact if_neg fun h => absurd (show 0 > stageInit from h.2.2.1) (by decide)
        rw [this] at hs
        injection hs with hs; injection hs with hs _
        subst hs
        exact ih ho hop' h
      | item i =>
        rcases dialled_item hs with ⟨ch, p, _, _, rfl⟩ | ⟨rsp, _, _, rfl⟩
        · exact ih (incoming0_cons ho (.inl ⟨ch, p, rfl⟩)) hop' h
        · exact ih (incoming0_cons ho (.inr ⟨rsp, rfl⟩)) hop' h
      | _ => cases ho'

theorem run_parts {w : World} (a : List Op) : ∀ {b : List Op} {s u : Sess}, run w s (a ++ b) = .ok u → ∃ t, run w s a = .ok t ∧ run w t b = .ok u := by
  induction a with
  | nil => intro b s u h; exact ⟨s, rfl, h⟩
  | cons op a ih =>
    intro b s u h
    rw [List.cons_append] at h
    unfold run at h
    cases hs : step w s op with
    | error p => rw [hs] at h; cases h
    | ok r =>
      obtain ⟨t, e⟩ := r
      rw [hs] at h
      obtain ⟨v, h1, h2⟩ := ih h
      refine ⟨v, ?_, h2⟩
      unfold run
      rw [hs]
      exact h1

theorem run_glue {w : World} (a : List Op) : ∀ {b : List Op} {s t u : Sess}, run w s a = .ok t → run w t b = .ok u → run w s (a ++ b) = .ok u := by
  induction a with
  | nil => intro b s t u h h2; injection h with h; subst h; exact h2
  | cons op a ih =>
    intro b s t u h h2
    rw [List.cons_append]
    unfold run at h ⊢
    cases hs : step w s op with
    | error p => rw [hs] at h; cases h
    | ok r => obtain ⟨t, e⟩ := r; rw [hs] at h; exact ih h h2

/-- How every plain history begins: things come in, then OPTIONS is sent. -/
theorem plain_begin {w : World} {s : Sess} (h : PlainReachable w s) : ∃ uri proto user early o t e ops, Incoming0 o ∧ (∀ op ∈ ops, Plain op) ∧
    (∀ op ∈ early, ByItself op) ∧ run w newSession (.dial uri proto user :: early) = .ok (dialled uri proto user o) ∧
    command w (dialled uri proto user o) verbOptions uri [] = .ok (t, e) ∧ run w t ops = .ok s := by
  obtain ⟨uri, proto, user, early, ops, he, hop, hr⟩ := h
  obtain ⟨d, h1, h2⟩ := run_parts (.dial uri proto user :: early) hr
  obtain ⟨o, rfl, ho⟩ := dialled_early (o := []) early (fun x hx => by (cases hx)) he (show run w (dialled uri proto user []) early = .ok d from h1)
  unfold run at h2
  cases hs : step w (dialled uri proto user o) .options with
  | error p => rw [hs] at h2; cases h2
  | ok r =>
    obtain ⟨t, e⟩ := r
    rw [hs] at h2
    exact ⟨uri, proto, user, early, o, t, e, ops, ho, hop, he, h1, hs, h2⟩

theorem plain_of {w : World} {uri : Bytes} {proto : Proto} {user : Option (Bytes × Bytes)} {early ops : List Op} {o : List Out} {t s : Sess} {e : Option SErr}
    (he : ∀ op ∈ early, ByItself op) (hop : ∀ op ∈ ops, Plain op) (h1 : run w newSession (.dial uri proto user :: early) = .ok (dialled uri proto user o))
    (h2 : command w (dialled uri proto user o) verbOptions uri [] = .ok (t, e)) (h3 : run w t ops = .ok s) : PlainReachable w s := by
  refine ⟨uri, proto, user, early, ops, he, hop, run_glue _ h1 ?_⟩
  unfold run
  rw [show step w (dialled uri proto user o) .options = .ok (t, e) from h2]
  exact h3

/-- `open_` is `dial` and `options`. -/
theorem plain_open {w : World} {uri : Bytes} {proto : Proto} {user : Option (Bytes × Bytes)} {ops : List Op} {s : Sess} (hop : ∀ op ∈ ops, Plain op)
    (h : run w newSession (.open_ uri proto user :: ops) = .ok s) : PlainReachable w s :=
  ⟨uri, proto, user, [], ops, fun _ h => by (cases h), hop, h⟩

theorem incoming0_stageNow {o : List Out} (h : Incoming0 o) : stageNow o = 0 := by
  induction o with
  | nil => rfl
  | cons x o ih =>
    have h' : Incoming0 o := fun y hy => h y (by simp [hy])
    rcases h x (by simp) with ⟨ch, p, rfl⟩ | ⟨rsp, rfl⟩ <;> exact ih h'

theorem incoming0_pending {o : List Out} (h : Incoming0 o) (c : Int) : pending c o = none := by
  induction o with
  | nil => rfl
  | cons x o ih =>
    have ih := ih fun y hy => h y (by simp [hy])
    rcases h x (by simp) with ⟨ch, p, rfl⟩ | ⟨rsp, rfl⟩
    · exact ih
    · show (if _ then _ else _) = _
      rw [ih]; split <;> rfl

theorem incoming0_setupsSent {o : List Out} (h : Incoming0 o) : setupsSent o = 0 := by
  induction o with
  | nil => rfl
  | cons x o ih =>
    have ih := ih fun y hy => h y (by simp [hy])
    rcases h x (by simp) with ⟨ch, p, rfl⟩ | ⟨rsp, rfl⟩ <;> exact ih

theorem incoming0_setupsAnswered {o : List Out} (h : Incoming0 o) : setupsAnswered o = 0 := by
  induction o with
  | nil => rfl
  | cons x o ih =>
    have h' : Incoming0 o := fun y hy => h y (by simp [hy])
    have ih := ih h'
    rcases h x (by simp) with ⟨ch, p, rfl⟩ | ⟨rsp, rfl⟩
    · exact ih
    · show setupsAnswered o + _ = 0
      rw [ih, incoming0_pending h', if_neg (by simp)]

end Ouro
