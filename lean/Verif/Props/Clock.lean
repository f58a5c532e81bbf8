import Verif.Props.Deadlock
import Verif.Props.Crash
import Verif.Spec.Clock
/-!
# C116: each phase lasts its five seconds
-/
namespace Ouro
open Spec

/-- What the client may only do when its time has come. -/
def Late : Act → Prop
  | .wire (.sent false req _) => req.verb = b!"PAUSE" ∨ req.verb = b!"TEARDOWN"
  | .ended .finished => True
  | _ => False

/-- New acts: nothing that must wait, no stage. -/
def Early (a : Act) : Prop := ¬ Late a ∧ ∀ k, a ≠ .stage k

theorem early_own {req : Request} {res : IORes} (h : Own req.verb) : Early (.wire (.sent false req res)) := by
  refine ⟨fun hl => ?_, fun k e => by (cases e)⟩
  rcases h with h | h | h <;> rcases hl with hl | hl <;> (rw [h] at hl; revert hl; decide)

theorem Early.out {o : Out} (h : ∀ req res, o ≠ .sent false req res) : Early (.wire o) := by
  refine ⟨fun hl => ?_, fun k e => by (cases e)⟩
  cases o with
  | sent r req res =>
    cases r with
    | false => exact h req res rfl
    | true => exact hl
  | got | started | data | notified => exact hl

theorem read_new {w : World} {c c' : Client} (h : clientRead w c = .ok c') : ∃ as, c'.trace = as ++ c.trace ∧ ∀ a ∈ as, Early a := by
  unfold clientRead at h
  split at h
  · split at h
    · injection h with h; subst h; exact ⟨[], rfl, fun a ha => by (cases ha)⟩
    · injection h with h; subst h; exact ⟨[], rfl, fun a ha => by (cases ha)⟩
    · next item r _ =>
      cases hs : handleItem w c.sess item with
      | error p => rw [hs] at h; cases h
      | ok r' =>
        obtain ⟨s, e⟩ := r'
        rw [hs] at h
        injection h with h; subst h
        have key : ∀ o : List Out, s.out = o ++ c.sess.out → (∀ x ∈ o, Early (.wire x)) →
            ∃ as, ({ c with rdr := r, running := goesOn e }.adopt s).trace = as ++ c.trace ∧ ∀ a ∈ as, Early a := by
          intro o ho hx
          rw [adopt_eq { c with rdr := r, running := goesOn e } (o := o) ho]
          refine ⟨o.map .wire, rfl, fun a ha => ?_⟩
          obtain ⟨x, hm, rfl⟩ := List.mem_map.1 ha
          exact hx x hm
        cases item with
        | frame ch p =>
          injection hs with hs; injection hs with hs _; subst hs
          refine key [.data ch p] rfl (fun x hx => ?_)
          rw [List.mem_singleton] at hx; subst hx; exact .out (fun _ _ e => by (cases e))
        | response rsp =>
          cases response_effect hs with
          | plain own ho hown hst hq hset =>
            refine key (own ++ [.got rsp]) (by rw [ho]; simp) (fun x hx => ?_)
            rcases List.mem_append.1 hx with hx | hx
            · obtain ⟨req, res, rfl, hv⟩ := hown x hx; exact early_own hv
            · rw [List.mem_singleton] at hx; subst hx; exact .out (fun _ _ e => by (cases e))
          | retried req res ho hst hq hin =>
            refine key [.sent true req res, .got rsp] ho (fun x hx => ?_)
            simp only [List.mem_cons, List.not_mem_nil, or_false] at hx
            rcases hx with rfl | rfl <;> exact .out (fun _ _ e => by (cases e))
          | granted st v ho hst hv hc hq =>
            refine key [.notified st, .got rsp] ho (fun x hx => ?_)
            simp only [List.mem_cons, List.not_mem_nil, or_false] at hx
            rcases hx with rfl | rfl <;> exact .out (fun _ _ e => by (cases e))
          | ready sinks ho hst hq hin hall =>
            refine key [.started sinks, .notified 1, .got rsp] ho (fun x hx => ?_)
            simp only [List.mem_cons, List.not_mem_nil, or_false] at hx
            rcases hx with rfl | rfl | rfl <;> exact .out (fun _ _ e => by (cases e))
  · injection h with h; subst h; exact ⟨[], rfl, fun a ha => by (cases ha)⟩

/-- A request of the client, and the end if it could not be written. -/
theorem order_new {w : World} {c c' : Client} {verb uri : Bytes} {hs : Header} (ho : c.sess.opened = true)
    (h : c.order (c.sess.deref (command w c.sess verb uri hs)) = .ok c') :
    ∃ (as : List Act) (req : Request) (res : IORes), c'.trace = as ++ .wire (.sent false req res) :: c.trace ∧ req.verb = verb ∧
      (as = [] ∨ as = [.ended .fatal]) ∧ c'.armed = c.armed ∧ c'.fired = c.fired := by
  rw [deref_open ho] at h
  obtain ⟨s, req, res, e, _, hout, hverb, _, _, hcase⟩ := order_out ho h
  have ha := adopt_eq c (s := s) (o := [.sent false req res]) hout
  rcases hcase with ⟨_, rfl⟩ | ⟨_, rfl⟩
  · rw [ha]; exact ⟨[], req, res, rfl, hverb, .inl rfl, rfl, rfl⟩
  · rw [ha]; exact ⟨[.ended .fatal], req, res, rfl, hverb, .inr rfl, rfl, rfl⟩

theorem packet_new {c c' : Client} (h : clientPacket c = .ok c') :
    (∃ as, c'.trace = as ++ c.trace ∧ ∀ a ∈ as, Early a) ∧ c'.armed = c.armed ∧ c'.fired = c.fired := by
  have one : ∀ ch p, Early (.packet ch p) := fun ch p => ⟨fun h => h, fun k e => by (cases e)⟩
  have bad : Early (.ended .badPacket) := ⟨fun h => h, fun k e => by (cases e)⟩
  unfold clientPacket at h
  split at h
  · injection h with h; subst h; exact ⟨⟨[], rfl, fun a ha => by (cases ha)⟩, rfl, rfl⟩
  · next ch payload rest hd =>
    have ends : ∀ a ∈ [Act.ended .badPacket, .packet ch payload], Early a := fun a ha => by
      simp only [List.mem_cons, List.not_mem_nil, or_false] at ha
      rcases ha with rfl | rfl
      · exact bad
      · exact one _ _
    dsimp only at h
    split at h
    · split at h
      · cases h
      · injection h with h; subst h; exact ⟨⟨_, rfl, ends⟩, rfl, rfl⟩
      · split at h
        · cases h
        · injection h with h; subst h; exact ⟨⟨_, rfl, ends⟩, rfl, rfl⟩
        · next sink hp =>
          injection h with h; subst h
          refine ⟨⟨(sink.units.map Act.unit).reverse ++ [.packet ch payload], by simp, fun a ha => ?_⟩, rfl, rfl⟩
          rcases List.mem_append.1 ha with ha | ha
          · rw [List.mem_reverse, List.mem_map] at ha; obtain ⟨u, _, rfl⟩ := ha; exact ⟨fun h => h, fun k e => by (cases e)⟩
          · rw [List.mem_singleton] at ha; subst ha; exact one _ _
    · split at h
      · cases h
      · injection h with h; subst h; exact ⟨⟨_, rfl, ends⟩, rfl, rfl⟩
      · injection h with h; subst h
        exact ⟨⟨[.packet ch payload], rfl, fun a ha => by rw [List.mem_singleton] at ha; subst ha; exact one _ _⟩, rfl, rfl⟩

/-- What a step adds to the trace. -/
theorem cstep_new {w : World} {c c' : Client} {e : CEv} (ho : c.sess.opened = true) (h : cstep w c e = .ok c') :
    ∃ as, c'.trace = as ++ c.trace ∧ (c'.fired = true → c.fired = true ∨ e = .expire) ∧
      (((∀ a ∈ as, Early a) ∧ resets c e = false) ∨
       (e = .timer ∧ c.fired = true ∧ ∀ a ∈ as, ∀ k, a ≠ .stage k) ∨
       (∃ k ks more, e = .stage ∧ c.ended = false ∧ c.states = k :: ks ∧ as = more ++ [.stage k] ∧ ∀ a ∈ more, Early a)) := by
  have none' : ∀ a ∈ ([] : List Act), Early a := fun a ha => by (cases ha)
  unfold cstep at h
  split at h
  · next hen => injection h with h; subst h; exact ⟨[], rfl, .inl, .inl ⟨none', by unfold resets; rw [hen]; rfl⟩⟩
  · next hne =>
    have other : e ≠ .stage → resets c e = false := fun he => by
      unfold resets
      rw [decide_eq_false he, Bool.and_false, Bool.false_and]
    cases e with
    | read =>
      obtain ⟨as, h1, h2⟩ := read_new h
      refine ⟨as, h1, ?_, .inl ⟨h2, other (by decide)⟩⟩
      have : c'.fired = c.fired := by
        dsimp only at h
        unfold clientRead at h
        split at h
        · split at h
          · injection h with h; subst h; rfl
          · injection h with h; subst h; rfl
          · split at h
            · cases h
            · injection h with h; subst h; rfl
        · injection h with h; subst h; rfl
      rw [this]; exact .inl
    | timer =>
      dsimp only at h
      unfold clientTimer at h
      split at h
      · next hf =>
        dsimp only at h
        have asked : ∀ {v u : Bytes} {hs : Header}, ({ c with fired := false, trace := .timer :: c.trace } : Client).order (c.sess.deref (command w c.sess v u hs)) = .ok c' →
            ∃ as, c'.trace = as ++ c.trace ∧ (∀ a ∈ as, ∀ k, a ≠ .stage k) := by
          intro v u hs h
          obtain ⟨as, req, res, h1, _, h3, _⟩ := order_new (c := { c with fired := false, trace := .timer :: c.trace }) ho h
          refine ⟨as ++ [.wire (.sent false req res), .timer], by rw [h1]; simp, fun a ha k e => ?_⟩
          subst e
          rcases h3 with rfl | rfl <;> simp at ha
        split at h
        · obtain ⟨as, h1, h2⟩ := asked h
          exact ⟨as, h1, fun _ => .inl hf, .inr (.inl ⟨rfl, hf, h2⟩)⟩
        · split at h
          · obtain ⟨as, h1, h2⟩ := asked h
            exact ⟨as, h1, fun _ => .inl hf, .inr (.inl ⟨rfl, hf, h2⟩)⟩
          · split at h
            · injection h with h; subst h
              exact ⟨[.ended .finished, .timer], rfl, fun _ => .inl hf, .inr (.inl ⟨rfl, hf, fun a ha k e => by subst e; simp at ha⟩)⟩
            · injection h with h; subst h
              exact ⟨[.timer], rfl, fun _ => .inl hf, .inr (.inl ⟨rfl, hf, fun a ha k e => by subst e; simp at ha⟩)⟩
      · injection h with h; subst h; exact ⟨[], rfl, .inl, .inl ⟨none', other (by decide)⟩⟩
    | stage =>
      dsimp only at h
      unfold clientStage at h
      split at h
      · next hn => injection h with h; subst h; exact ⟨[], rfl, .inl, .inl ⟨none', by unfold resets; rw [hn, Bool.and_false]⟩⟩
      · next k ks hks =>
        have hne' : c.ended = false := by cases hc : c.ended with | false => rfl | true => exact absurd hc hne
        dsimp only at h
        split at h
        · obtain ⟨as, req, res, h1, hv, h3, h4, h5⟩ := order_new (c := { c with states := ks, state := k, trace := .stage k :: c.trace }) ho h
          refine ⟨as ++ [.wire (.sent false req res)] ++ [.stage k], by rw [h1]; simp, fun hf => .inl (h5 ▸ hf),
            .inr (.inr ⟨k, ks, as ++ [.wire (.sent false req res)], rfl, hne', hks, rfl, fun a ha => ?_⟩)⟩
          have hp : Early (.wire (.sent false req res)) := by
            refine ⟨fun hl => ?_, fun k e => by (cases e)⟩
            rcases hl with hl | hl <;> (rw [hv] at hl; revert hl; decide)
          rcases List.mem_append.1 ha with ha | ha
          · rcases h3 with rfl | rfl
            · cases ha
            · rw [List.mem_singleton] at ha; subst ha; exact ⟨fun h => h, fun k e => by (cases e)⟩
          · rw [List.mem_singleton] at ha; subst ha; exact hp
        · split at h
          · injection h with h; subst h
            exact ⟨[.stage k], rfl, .inl, .inr (.inr ⟨k, ks, [], rfl, hne', hks, rfl, none'⟩)⟩
          · split at h
            · injection h with h; subst h
              exact ⟨[.stage k], rfl, .inl, .inr (.inr ⟨k, ks, [], rfl, hne', hks, rfl, none'⟩)⟩
            · split at h
              · injection h with h; subst h
                exact ⟨[.stage k], rfl, .inl, .inr (.inr ⟨k, ks, [], rfl, hne', hks, rfl, none'⟩)⟩
              · injection h with h; subst h
                exact ⟨[.stage k], rfl, .inl, .inr (.inr ⟨k, ks, [], rfl, hne', hks, rfl, none'⟩)⟩
    | expire =>
      injection h with h; subst h
      refine ⟨[], ?_, fun _ => .inr rfl, .inl ⟨none', other (by decide)⟩⟩
      split <;> rfl
    | packet =>
      obtain ⟨⟨as, h1, h2⟩, _, h4⟩ := packet_new h
      exact ⟨as, h1, fun hf => .inl (h4 ▸ hf), .inl ⟨h2, other (by decide)⟩⟩

/-- Everything that must wait came five seconds after each stage that set the timer. -/
def Spaced : List (Nat × Act) → Prop
  | [] => True
  | (t, a) :: older => (Late a → ∀ u k, (u, Act.stage k) ∈ older → 2 ≤ k → u + fiveSeconds ≤ t) ∧ Spaced older

theorem Spaced.mem {l : List (Nat × Act)} (h : Spaced l) {newer older : List (Nat × Act)} {t : Nat} {a : Act} (e : l = newer ++ (t, a) :: older)
    (ha : Late a) {u k : Nat} (hu : (u, Act.stage k) ∈ older) (hk : 2 ≤ k) : u + fiveSeconds ≤ t := by
  induction newer generalizing l with
  | nil => subst e; exact h.1 ha u k hu hk
  | cons x newer ih => subst e; obtain ⟨t', a'⟩ := x; exact ih h.2 rfl

/-- New entries. -/
theorem Spaced.append {t : Nat} (as : List Act) {l : List (Nat × Act)} (hl : Spaced l)
    (h : ∀ more a rest, as = more ++ a :: rest → Late a → ∀ u k, (u, Act.stage k) ∈ rest.map (fun a => (t, a)) ++ l → 2 ≤ k → u + fiveSeconds ≤ t) :
    Spaced (as.map (fun a => (t, a)) ++ l) := by
  induction as with
  | nil => exact hl
  | cons a as ih => exact ⟨h [] a as rfl, ih fun more b rest e => h (a :: more) b rest (by rw [e]; rfl)⟩

theorem lastTold_append {t : Nat} {as : List Act} {l : List (Nat × Act)} (h : ∀ a ∈ as, ∀ k, a ≠ .stage k) : lastTold (as.map (fun a => (t, a)) ++ l) = lastTold l := by
  induction as with
  | nil => rfl
  | cons a as ih =>
    rw [← ih fun b hb => h b (List.mem_cons_of_mem _ hb)]
    cases a with
    | stage k => exact absurd rfl (h _ (List.mem_cons_self ..) k)
    | wire | ended | timer | packet | unit => rfl

/-- The invariant, at time `now`. -/
structure KInv (w : World) (now : Nat) (x : Timed) : Prop where
  inv : CInv w x.client
  just : Just x.client.trace
  log : x.log.map (·.2) = x.client.trace
  set : ∀ u k, (u, Act.stage k) ∈ x.log → 2 ≤ k → u ≤ x.set
  past : x.set ≤ now
  told : ∀ u k, lastTold x.log = some (u, k) → 2 ≤ k → x.set = u
  fired : x.client.fired = true → x.set + fiveSeconds ≤ now
  spaced : Spaced x.log

theorem tstep_kinv {w : World} {x x' : Timed} {now t : Nat} {e : CEv} (ht : now ≤ t) (hi : KInv w now x) (hti : TInv x.client)
    (h : tstep w x t e = .ok x') : KInv w t x' ∧ TInv x'.client := by
  unfold tstep at h
  split at h
  · injection h with h; subst h
    exact ⟨⟨hi.inv, hi.just, hi.log, hi.set, Nat.le_trans hi.past ht, hi.told, fun hf => Nat.le_trans (hi.fired hf) ht, hi.spaced⟩, hti⟩
  · next hexp =>
    cases hs : cstep w x.client e with
    | error p => rw [hs] at h; cases h
    | ok c' =>
      rw [hs] at h
      injection h with h; subst h
      have hopen := (plain_static hi.inv.reach).1
      have hti' := cstep_tinv hti hopen hs
      obtain ⟨as, h1, h2, h3⟩ := cstep_new hopen hs
      have htake : c'.trace.take (c'.trace.length - x.client.trace.length) = as := by
        rw [h1, List.length_append, Nat.add_sub_cancel, List.take_left]
      have hstage : ∀ {bs : List Act} {u k : Nat}, (∀ a ∈ bs, ∀ k, a ≠ .stage k) → (u, Act.stage k) ∈ bs.map (fun a => (t, a)) ++ x.log → (u, Act.stage k) ∈ x.log := by
        intro bs u k hb hm
        rcases List.mem_append.1 hm with hm | hm
        · obtain ⟨a, ha, he⟩ := List.mem_map.1 hm
          injection he with _ he
          exact absurd he (hb a ha k)
        · exact hm
      have htold : ∀ {k : Nat} {ks : List Nat}, x.client.ended = false → x.client.states = k :: ks → x.client.fired = false ∧ 1 ≤ k ∧ k ≤ 4 := by
        intro k ks hne hks
        obtain ⟨n, _, _, hp⟩ := hi.inv.course
        cases hp hne with
        | waiting k' hk hs' => rw [hs'] at hks; cases hks
        | told k' hk hs' hst' ht' => rw [hs'] at hks; injection hks with hks _; exact ⟨ht'.2, by omega, by omega⟩
        | timing k' h1 hk hs' => rw [hs'] at hks; cases hks
      have hpast : x.set ≤ (if resets x.client e then t else x.set) ∧ (if resets x.client e then t else x.set) ≤ t := by
        have := hi.past
        split <;> omega
      have hreset : ∀ {k : Nat} {ks : List Nat}, x.client.ended = false → x.client.states = k :: ks → 2 ≤ k → resets x.client .stage = true := by
        intro k ks hne hks hk
        obtain ⟨_, _, h4⟩ := htold hne hks
        unfold resets
        rw [hks, hne]
        have : k = stagePlay ∨ k = stagePause ∨ k = stageDone := by
          show k = 2 ∨ k = 3 ∨ k = 4
          omega
        simp [this]
      refine ⟨⟨cstep_inv hi.inv hs, hti'.just, ?_, ?_, hpast.2, ?_, ?_, ?_⟩, hti'⟩
      · dsimp only
        rw [htake, List.map_append, hi.log, h1, List.map_map]
        congr 1
        exact List.map_id' as
      · dsimp only
        rw [htake]
        intro u k hm hk
        rcases h3 with ⟨he, _⟩ | ⟨rfl, _, he⟩ | ⟨k', ks, more, rfl, hne, hks, rfl, he⟩
        · exact Nat.le_trans (hi.set u k (hstage (fun a ha => (he a ha).2) hm) hk) hpast.1
        · exact Nat.le_trans (hi.set u k (hstage he hm) hk) hpast.1
        · rw [List.map_append, List.append_assoc] at hm
          rcases List.mem_append.1 hm with hm | hm
          · obtain ⟨a, ha, hae⟩ := List.mem_map.1 hm
            injection hae with _ hae
            exact absurd hae ((he a ha).2 k)
          · rcases List.mem_cons.1 hm with hm | hm
            · injection hm with hm1 hm2
              injection hm2 with hm2
              rw [if_pos (hreset hne hks (by omega)), hm1]
              exact Nat.le_refl t
            · exact Nat.le_trans (hi.set u k hm hk) hpast.1
      · dsimp only
        rw [htake]
        intro u k hl hk
        rcases h3 with ⟨he, hr⟩ | ⟨rfl, _, he⟩ | ⟨k', ks, more, rfl, hne, hks, rfl, he⟩
        · rw [lastTold_append fun a ha => (he a ha).2] at hl
          rw [hr]
          exact hi.told u k hl hk
        · rw [lastTold_append he] at hl
          have hr : resets x.client .timer = false := by unfold resets; rw [decide_eq_false (by decide), Bool.and_false, Bool.false_and]
          rw [hr]
          exact hi.told u k hl hk
        · rw [List.map_append, List.append_assoc, lastTold_append fun a ha => (he a ha).2] at hl
          have hl : some (t, k') = some (u, k) := hl
          injection hl with hl
          injection hl with h1 h2
          subst h1; subst h2
          rw [if_pos (hreset hne hks hk)]
      · intro hf
        dsimp only at hf ⊢
        cases hr : resets x.client e with
        | false =>
          rw [if_neg (by decide)]
          rcases h2 hf with hf | rfl
          · exact Nat.le_trans (hi.fired hf) ht
          · exact Nat.le_of_not_lt fun hlt => hexp ⟨rfl, hlt⟩
        | true =>
          exfalso
          unfold resets at hr
          simp only [Bool.and_eq_true, decide_eq_true_eq] at hr
          obtain ⟨⟨hne, rfl⟩, hst⟩ := hr
          have hne : x.client.ended = false := by simpa using hne
          cases hks : x.client.states with
          | nil => rw [hks] at hst; cases hst
          | cons k ks =>
            obtain ⟨hff, _⟩ := htold hne hks
            rcases h2 hf with hf | hf
            · rw [hff] at hf; cases hf
            · cases hf
      · dsimp only
        rw [htake]
        refine Spaced.append as hi.spaced fun more a rest hae hl u k hm hk => ?_
        rcases h3 with ⟨he, _⟩ | ⟨rfl, hf, he⟩ | ⟨k', ks, more', rfl, hne, hks, rfl, he⟩
        · exact absurd hl (he a (by rw [hae]; simp)).1
        · have h1 := hi.set u k (hstage (fun b hb => he b (by rw [hae]; simp [hb])) hm) hk
          have h2 := hi.fired hf
          omega
        · have ha : a ∈ more' ++ [Act.stage k'] := by rw [hae]; simp
          rcases List.mem_append.1 ha with ha | ha
          · exact absurd hl (he a ha).1
          · rw [List.mem_singleton] at ha; subst ha; exact hl.elim

theorem tsteps_kinv {w : World} (es : List (Nat × CEv)) : ∀ {x x' : Timed} {now : Nat}, Forward now es → KInv w now x → TInv x.client →
    tsteps w x es = .ok x' → (∃ now', KInv w now' x') ∧ TInv x'.client := by
  induction es with
  | nil => intro x x' now _ hi ht h; injection h with h; subst h; exact ⟨⟨now, hi⟩, ht⟩
  | cons y es ih =>
    intro x x' now hf hi ht h
    obtain ⟨t, e⟩ := y
    unfold tsteps at h
    cases hs : tstep w x t e with
    | error p => rw [hs] at h; cases h
    | ok x1 =>
      rw [hs] at h
      obtain ⟨h1, h2⟩ := tstep_kinv hf.1 hi ht hs
      exact ih hf.2 h1 h2 h

theorem timed_kinv {w : World} {x : Timed} (h : TimedReachable w x) : (∃ now, KInv w now x) ∧ TInv x.client := by
  obtain ⟨t, uri, user, rdr, n, x0, es, h1, hf, h2⟩ := h
  unfold topen at h1
  cases ho : clientEarly w uri user rdr n with
  | error p => rw [ho] at h1; cases h1
  | ok c =>
    rw [ho] at h1
    injection h1 with h1
    have hr : ClientReachable w c := ⟨uri, user, rdr, n, c, [], ho, rfl⟩
    have hc := open_inv ho
    have htr : ∀ a ∈ c.trace, Early a := by
      obtain ⟨b, hb, _, _, ho⟩ := early_before ho
      obtain ⟨as, req, res, k1, k2, k3, _⟩ := order_new (c := b) hb.opened ho
      intro a ha
      rw [k1] at ha
      rcases List.mem_append.1 ha with ha | ha
      · rcases k3 with rfl | rfl
        · cases ha
        · rw [List.mem_singleton] at ha; subst ha; exact ⟨fun h => h, fun k e => by (cases e)⟩
      · rcases List.mem_cons.1 ha with rfl | ha
        · exact early_own (.inl k2)
        · rcases hb.acts a ha with ⟨ch, p, rfl⟩ | ⟨rsp, rfl⟩ <;> exact ⟨fun h => h, fun k e => by (cases e)⟩
    have hfired : c.fired = false := by
      obtain ⟨b, hb, _, _, ho⟩ := early_before ho
      obtain ⟨as, req, res, _, _, _, _, k5⟩ := order_new (c := b) hb.opened ho
      exact k5.trans hb.fired
    refine tsteps_kinv es hf ?_ (client_tinv hr) (h1 ▸ h2)
    refine ⟨hc, (client_tinv hr).just, ?_, fun u k hm _ => ?_, Nat.zero_le _, fun u k hl => ?_, fun hff => ?_, ?_⟩
    · dsimp only
      rw [List.map_map]
      exact List.map_id' c.trace
    · obtain ⟨a, ha, hae⟩ := List.mem_map.1 hm
      injection hae with _ hae
      exact absurd hae ((htr a ha).2 k)
    · dsimp only at hl
      have := lastTold_append (t := t) (l := []) fun a ha => (htr a ha).2
      rw [List.append_nil] at this
      rw [this] at hl
      cases hl
    · dsimp only at hff; rw [hfired] at hff; cases hff
    · have := Spaced.append (t := t) c.trace (l := []) trivial fun more a rest hae hl => absurd hl (htr a (by rw [hae]; simp)).1
      rw [List.append_nil] at this
      exact this

theorem lastStage_mem {l : List (Nat × Act)} {k : Nat} (hk : k ≠ 0) (h : lastStage (l.map (·.2)) = k) : ∃ t, (t, Act.stage k) ∈ l := by
  induction l with
  | nil => exact absurd h.symm hk
  | cons x l ih =>
    obtain ⟨t, a⟩ := x
    cases a with
    | stage j => have h : j = k := h; subst h; exact ⟨t, List.mem_cons_self ..⟩
    | wire | ended | timer | packet | unit =>
      obtain ⟨u, hu⟩ := ih h
      exact ⟨u, List.mem_cons_of_mem _ hu⟩

theorem phase {w : World} {x : Timed} (h : TimedReachable w x) {newer older : List (Nat × Act)} {t : Nat} {a : Act} (hl : x.log = newer ++ (t, a) :: older)
    (ha : Late a) {k : Nat} (hk : 2 ≤ k) (hj : Justified (older.map (·.2)) a → lastStage (older.map (·.2)) = k) :
    ∃ u, (u, Act.stage k) ∈ older ∧ u + 5000 ≤ t := by
  obtain ⟨⟨now, hi⟩, hti⟩ := timed_kinv h
  have := hi.just
  rw [← hi.log, hl, List.map_append] at this
  obtain ⟨u, hu⟩ := lastStage_mem (by omega) (hj (this.mem rfl))
  exact ⟨u, hu, hi.spaced.mem hl ha hu hk⟩

/-- C116: a PAUSE request of the client comes five seconds or more after the client was told that the server plays. -/
theorem C116_plays (w : World) (x : Timed) (h : TimedReachable w x) (newer older : List (Nat × Act)) (t : Nat) (req : Request) (res : IORes)
    (hl : x.log = newer ++ (t, .wire (.sent false req res)) :: older) (hv : req.verb = b!"PAUSE") :
    ∃ u, (u, Act.stage 2) ∈ older ∧ u + 5000 ≤ t := by
  refine phase h hl (.inl hv) (by omega) fun hj => ?_
  rcases hj with hj | hj | hj | ⟨hj, _⟩ | ⟨_, _, hj⟩ | ⟨hj, _⟩
  · exfalso; rw [hv] at hj; revert hj; decide
  · exfalso; rw [hv] at hj; revert hj; decide
  · exfalso; rw [hv] at hj; revert hj; decide
  · exfalso; rw [hv] at hj; revert hj; decide
  · exact hj
  · exfalso; rw [hv] at hj; revert hj; decide

/-- C116: TEARDOWN comes five seconds or more after the client was told that the server pauses. -/
theorem C116_pauses (w : World) (x : Timed) (h : TimedReachable w x) (newer older : List (Nat × Act)) (t : Nat) (req : Request) (res : IORes)
    (hl : x.log = newer ++ (t, .wire (.sent false req res)) :: older) (hv : req.verb = b!"TEARDOWN") :
    ∃ u, (u, Act.stage 3) ∈ older ∧ u + 5000 ≤ t := by
  refine phase h hl (.inr hv) (by omega) fun hj => ?_
  rcases hj with hj | hj | hj | ⟨hj, _⟩ | ⟨hj, _⟩ | ⟨_, _, hj⟩
  · exfalso; rw [hv] at hj; revert hj; decide
  · exfalso; rw [hv] at hj; revert hj; decide
  · exfalso; rw [hv] at hj; revert hj; decide
  · exfalso; rw [hv] at hj; revert hj; decide
  · exfalso; rw [hv] at hj; revert hj; decide
  · exact hj

/-- C116: the client finishes five seconds or more after it was told that the session is over. -/
theorem C116_finishes (w : World) (x : Timed) (h : TimedReachable w x) (newer older : List (Nat × Act)) (t : Nat)
    (hl : x.log = newer ++ (t, .ended .finished) :: older) : ∃ u, (u, Act.stage 4) ∈ older ∧ u + 5000 ≤ t :=
  phase h hl trivial (by omega) fun hj => hj.2

theorem lastTold_stage {l : List (Nat × Act)} {u k : Nat} (h : lastTold l = some (u, k)) : lastStage (l.map (·.2)) = k := by
  induction l with
  | nil => cases h
  | cons x l ih =>
    obtain ⟨t, a⟩ := x
    cases a with
    | stage j => injection h with h; injection h with _ h
    | wire | ended | timer | packet | unit => exact ih h

theorem asked_sent {v : Bytes} (l : List Act) (h : Milestone.asked v ∈ milestones l) : ∃ req res, Act.wire (.sent false req res) ∈ l ∧ req.verb = v := by
  induction l with
  | nil => cases h
  | cons a l ih =>
    have up : Milestone.asked v ∈ milestones l → ∃ req res, Act.wire (.sent false req res) ∈ a :: l ∧ req.verb = v := fun h => by
      obtain ⟨req, res, h1, h2⟩ := ih h
      exact ⟨req, res, List.mem_cons_of_mem _ h1, h2⟩
    unfold milestones at h
    split at h
    · cases h
    · next he =>
      injection he with h1 h2; subst h1; subst h2
      rcases List.mem_append.1 h with h | h
      · exact up h
      · rw [List.mem_singleton] at h; cases h
    · next req res _ he =>
      injection he with h1 h2; subst h1; subst h2
      split at h
      · exact up h
      · rcases List.mem_append.1 h with h | h
        · exact up h
        · rw [List.mem_singleton] at h; injection h with h
          exact ⟨req, res, List.mem_cons_self .., h.symm⟩
    · next he =>
      injection he with h1 h2; subst h1; subst h2
      rcases List.mem_append.1 h with h | h
      · exact up h
      · rw [List.mem_singleton] at h; cases h
    · next he =>
      injection he with h1 h2; subst h1; subst h2
      exact up h

/-- When the time has come, the timer goes off. -/
theorem on_time {w : World} {x : Timed} (h : TimedReachable w x) (hne : x.client.ended = false) {u k t : Nat} (hl : lastTold x.log = some (u, k)) (hk : 2 ≤ k)
    (ht : u + 5000 ≤ t) (hn : k ≤ 3 → ∀ n, milestones x.client.trace = course.take n → n ≤ 8 → n ≠ 2 * k ∧ n ≠ 2 * k + 1) :
    ∃ c, c = { x.client with armed := false, fired := true } ∧ c.state = k ∧
      ∀ c' as, clientTimer w c = .ok c' → c'.trace = as ++ c.trace → ∃ x', tsteps w x [(t, .expire), (t, .timer)] = .ok x' ∧ x'.client = c' ∧
        x'.log = as.map (fun a => (t, a)) ++ x.log := by
  obtain ⟨⟨now, hi⟩, hti⟩ := timed_kinv h
  have hst : x.client.state = k := by
    rw [← hti.last, ← hi.log]
    exact lastTold_stage hl
  refine ⟨_, rfl, hst, fun c' as hc htr => ?_⟩
  obtain ⟨n, hn8, hm, hp⟩ := hi.inv.course
  have harm : x.client.armed = !x.client.fired := by
    cases hp hne with
    | waiting k' hk' _ hst' => exact absurd (show 2 * k' = 2 * k by omega) (hn (by omega) _ hm hn8).1
    | told k' hk' _ hst' => exact absurd (show 2 * k' + 1 = 2 * k + 1 by omega) (hn (by omega) _ hm hn8).2
    | timing k' _ _ _ hst' ht' => exact ht'
  have hset := hi.told u k hl hk
  have h1 : cstep w x.client .expire = .ok { x.client with armed := false, fired := true } := by
    rw [cstep_expire hne]
    cases hf : x.client.fired with
    | false => rw [hf] at harm; have harm : x.client.armed = true := harm; rw [if_pos harm]; rfl
    | true =>
      rw [hf] at harm
      rw [if_neg (by rw [harm]; decide)]
      have : x.client = { x.client with armed := false, fired := true } := by
        rw [← hf]
        have h2 : x.client.armed = false := harm
        rw [← h2]
      rw [← this]
      rfl
  have h2 : cstep w { x.client with armed := false, fired := true } .timer = .ok c' := by
    unfold cstep
    rw [if_neg (by rw [hne]; decide)]
    exact hc
  have hr1 : resets x.client .expire = false := by unfold resets; rw [decide_eq_false (by decide), Bool.and_false, Bool.false_and]
  refine ⟨{ client := c', set := x.set, log := as.map (fun a => (t, a)) ++ x.log }, ?_, rfl, rfl⟩
  have s1 : tstep w x t .expire = .ok { x with client := { x.client with armed := false, fired := true } } := by
    unfold tstep
    rw [if_neg (by rw [hset]; unfold fiveSeconds; omega), h1]
    dsimp only
    rw [hr1, Nat.sub_self]
    rfl
  have hr2 : resets { x.client with armed := false, fired := true } .timer = false := by
    unfold resets; rw [decide_eq_false (by decide), Bool.and_false, Bool.false_and]
  have s2 : tstep w { x with client := { x.client with armed := false, fired := true } } t .timer = .ok { client := c', set := x.set, log := as.map (fun a => (t, a)) ++ x.log } := by
    unfold tstep
    rw [if_neg (by rintro ⟨h, _⟩; cases h)]
    dsimp only
    rw [h2]
    dsimp only
    rw [hr2, htr, List.length_append, Nat.add_sub_cancel, List.take_left]
    rfl
  unfold tsteps
  rw [s1]
  dsimp only
  unfold tsteps
  rw [s2]
  rfl

theorem not_asked {w : World} {x : Timed} (hi : x.log.map (·.2) = x.client.trace) {v : Bytes} (hno : ∀ t req res, (t, Act.wire (.sent false req res)) ∈ x.log → req.verb ≠ v) {n : Nat}
    (hm : milestones x.client.trace = course.take n) : Milestone.asked v ∉ course.take n := by
  intro hv
  rw [← hm] at hv
  obtain ⟨req, res, h1, h2⟩ := asked_sent _ hv
  rw [← hi] at h1
  obtain ⟨⟨t, a⟩, h3, h4⟩ := List.mem_map.1 h1
  have h4 : a = _ := h4
  subst h4
  exact hno t req res h3 h2

/-- A request of the client's own. -/
theorem order_runs {w : World} {c : Client} (ho : c.sess.opened = true) (hp : c.sess.proto ≠ .http) (verb uri : Bytes) (hs : Header) :
    ∃ c' as req res, c.order (c.sess.deref (command w c.sess verb uri hs)) = .ok c' ∧ c'.trace = as ++ .wire (.sent false req res) :: c.trace ∧ req.verb = verb := by
  have hr : ∃ c', c.order (c.sess.deref (command w c.sess verb uri hs)) = .ok c' := by
    rw [deref_open ho]
    obtain ⟨s', e, h⟩ := command_runs w hp verb uri hs
    rw [h]
    cases e <;> exact ⟨_, rfl⟩
  obtain ⟨c', hc⟩ := hr
  obtain ⟨as, req, res, h1, h2, _⟩ := order_new ho hc
  exact ⟨c', as, req, res, hc, h1, h2⟩

/-- C116, the other half: five seconds after it was told that the server plays, the client can ask for PAUSE, whatever has come in between; it need
not wait for anything else. -/
theorem C116_pause_due (w : World) (x : Timed) (h : TimedReachable w x) (hne : x.client.ended = false) (u t : Nat) (hl : lastTold x.log = some (u, 2)) (ht : u + 5000 ≤ t)
    (hno : ∀ t req res, (t, Act.wire (.sent false req res)) ∈ x.log → req.verb ≠ b!"PAUSE") :
    ∃ x' req res, tsteps w x [(t, .expire), (t, .timer)] = .ok x' ∧ (t, Act.wire (.sent false req res)) ∈ x'.log ∧ req.verb = b!"PAUSE" := by
  obtain ⟨⟨now, hi⟩, _⟩ := timed_kinv h
  obtain ⟨c, hc, hst, hk⟩ := on_time h hne hl (by omega) ht fun _ n hm hn => by
    have := not_asked (w := w) hi.log hno hm
    constructor <;> (intro e; subst e; revert this; decide)
  obtain ⟨ho, hp⟩ := plain_static hi.inv.reach
  obtain ⟨c', as, req, res, h1, h2, h3⟩ := order_runs (w := w) (c := { c with fired := false, trace := .timer :: c.trace }) (by rw [hc]; exact ho) (by rw [hc]; exact hp) b!"PAUSE" c.sess.baseURI []
  obtain ⟨x', k1, k2, k3⟩ := hk c' (as ++ [.wire (.sent false req res), .timer]) (by
    unfold clientTimer
    rw [if_pos (by rw [hc])]
    dsimp only
    rw [if_pos (show c.state = stagePlay from hst)]
    exact h1) (by rw [h2]; simp)
  exact ⟨x', req, res, k1, by rw [k3]; simp, h3⟩

/-- C116, the other half: five seconds after it was told that the server pauses, the client can ask for TEARDOWN. -/
theorem C116_teardown_due (w : World) (x : Timed) (h : TimedReachable w x) (hne : x.client.ended = false) (u t : Nat) (hl : lastTold x.log = some (u, 3)) (ht : u + 5000 ≤ t)
    (hno : ∀ t req res, (t, Act.wire (.sent false req res)) ∈ x.log → req.verb ≠ b!"TEARDOWN") :
    ∃ x' req res, tsteps w x [(t, .expire), (t, .timer)] = .ok x' ∧ (t, Act.wire (.sent false req res)) ∈ x'.log ∧ req.verb = b!"TEARDOWN" := by
  obtain ⟨⟨now, hi⟩, _⟩ := timed_kinv h
  obtain ⟨c, hc, hst, hk⟩ := on_time h hne hl (by omega) ht fun _ n hm hn => by
    have := not_asked (w := w) hi.log hno hm
    constructor <;> (intro e; subst e; revert this; decide)
  obtain ⟨ho, hp⟩ := plain_static hi.inv.reach
  obtain ⟨c', as, req, res, h1, h2, h3⟩ := order_runs (w := w) (c := { c with fired := false, trace := .timer :: c.trace }) (by rw [hc]; exact ho) (by rw [hc]; exact hp) b!"TEARDOWN" c.sess.baseURI []
  obtain ⟨x', k1, k2, k3⟩ := hk c' (as ++ [.wire (.sent false req res), .timer]) (by
    unfold clientTimer
    rw [if_pos (by rw [hc])]
    dsimp only
    rw [if_neg (by rw [hst]; decide), if_pos (show c.state = stagePause from hst)]
    exact h1) (by rw [h2]; simp)
  exact ⟨x', req, res, k1, by rw [k3]; simp, h3⟩

/-- C116, the other half: five seconds after it was told that the session is over, the client can finish, whatever the connection does. -/
theorem C116_finish_due (w : World) (x : Timed) (h : TimedReachable w x) (hne : x.client.ended = false) (u t : Nat) (hl : lastTold x.log = some (u, 4)) (ht : u + 5000 ≤ t) :
    ∃ x', tsteps w x [(t, .expire), (t, .timer)] = .ok x' ∧ x'.log = (t, .ended .finished) :: (t, .timer) :: x.log := by
  obtain ⟨c, hc, hst, hk⟩ := on_time h hne hl (by omega) ht fun hk => by omega
  obtain ⟨x', k1, k2, k3⟩ := hk ({ c with fired := false, trace := .timer :: c.trace } |>.finish .finished) [.ended .finished, .timer] (by
    unfold clientTimer
    rw [if_pos (by rw [hc])]
    dsimp only
    rw [if_neg (by rw [hst]; decide), if_neg (by rw [hst]; decide), if_pos (show c.state = stageDone from hst)]
    rfl) rfl
  exact ⟨x', k1, by rw [k3]; rfl⟩

-- A session with a packet, in time: a timer that is asked too early does not go off; the PAUSE goes out five seconds after PLAY, the TEARDOWN five
-- seconds after PAUSE, and the client ends five seconds after that.
def demoTimes : List (Nat × CEv) :=
  [(10, .read), (20, .read), (30, .read), (35, .stage), (60, .read), (70, .stage), (100, .read), (100, .packet),
   (5069, .expire), (5069, .timer), (5070, .expire), (5071, .timer), (5100, .read), (5120, .stage),
   (10119, .expire), (10119, .timer), (10125, .expire), (10130, .timer), (10200, .read), (10210, .stage),
   (15209, .expire), (15209, .timer), (15210, .expire), (15211, .timer)]

/-- What matters here, with times. -/
def demoShow (l : List (Nat × Act)) : List (Nat × Nat) :=
  l.filterMap fun
    | (t, .stage k) => some (t, k)
    | (t, .wire (.sent false req _)) => if req.verb = b!"PAUSE" then some (t, 20) else if req.verb = b!"TEARDOWN" then some (t, 30) else none
    | (t, .ended .finished) => some (t, 40)
    | _ => none

def demoTimed : Option Timed :=
  match topen demoWorld 5 b!"rtsp://h/x" none ⟨[], none, (demoStream [[0x80, 96, 0, 1, 0, 0, 0, 2, 0, 0, 0, 3, 0x41, 9]]).map .byte⟩ 0 with
  | .ok x => (tsteps demoWorld x demoTimes).toOption
  | .error _ => none

example : ∃ x, TimedReachable demoWorld x ∧
    demoShow x.log = [(15211, 40), (10210, 4), (10130, 30), (5120, 3), (5071, 20), (70, 2), (35, 1)] := by
  have h : demoTimed.map (fun x => demoShow x.log) = some [(15211, 40), (10210, 4), (10130, 30), (5120, 3), (5071, 20), (70, 2), (35, 1)] := by decide +kernel
  unfold demoTimed at h
  split at h
  · next x0 h0 =>
    cases h1 : tsteps demoWorld x0 demoTimes with
    | error p => rw [h1] at h; cases h
    | ok x =>
      rw [h1] at h
      injection h with h
      exact ⟨x, ⟨5, _, _, _, 0, x0, demoTimes, h0, by simp [Forward, demoTimes], h1⟩, h⟩
  · cases h

/-- What `C116_pause_due`, `C116_teardown_due` and `C116_finish_due` ask for, of the session above after its first `k` events. -/
def demoDue (k : Nat) (verb : Bytes) : Option (Bool × Option (Nat × Nat) × Bool) :=
  match topen demoWorld 5 b!"rtsp://h/x" none ⟨[], none, (demoStream [[0x80, 96, 0, 1, 0, 0, 0, 2, 0, 0, 0, 3, 0x41, 9]]).map .byte⟩ 0 with
  | .ok x => (tsteps demoWorld x (demoTimes.take k)).toOption.map fun x =>
      (x.client.ended, lastTold x.log, x.log.all fun e => match e.2 with | .wire (.sent false req _) => decide (req.verb ≠ verb) | _ => true)
  | .error _ => none

theorem demoDue_reachable {k : Nat} {verb : Bytes} {r : Bool × Option (Nat × Nat) × Bool} (hf : Forward 5 (demoTimes.take k)) (h : demoDue k verb = some r) :
    ∃ x, TimedReachable demoWorld x ∧ x.client.ended = r.1 ∧ lastTold x.log = r.2.1 ∧
      (r.2.2 = true → ∀ t req res, (t, Act.wire (.sent false req res)) ∈ x.log → req.verb ≠ verb) := by
  unfold demoDue at h
  split at h
  · next x0 h0 =>
    cases h1 : tsteps demoWorld x0 (demoTimes.take k) with
    | error p => rw [h1] at h; cases h
    | ok x =>
      rw [h1] at h
      injection h with h
      subst h
      refine ⟨x, ⟨5, _, _, _, 0, x0, _, h0, hf, h1⟩, rfl, rfl, fun ha t req res hm => ?_⟩
      have := List.all_eq_true.1 ha _ hm
      simpa using this
  · cases h

/-- The hypotheses of the three theorems are met: told to play and nothing paused, told that it is paused and nothing torn down, told that it is torn down. -/
example : (∃ x, TimedReachable demoWorld x ∧ x.client.ended = false ∧ lastTold x.log = some (70, 2) ∧
      ∀ t req res, (t, Act.wire (.sent false req res)) ∈ x.log → req.verb ≠ b!"PAUSE") ∧
    (∃ x, TimedReachable demoWorld x ∧ x.client.ended = false ∧ lastTold x.log = some (5120, 3) ∧
      ∀ t req res, (t, Act.wire (.sent false req res)) ∈ x.log → req.verb ≠ b!"TEARDOWN") ∧
    ∃ x, TimedReachable demoWorld x ∧ x.client.ended = false ∧ lastTold x.log = some (10210, 4) := by
  refine ⟨?_, ?_, ?_⟩
  · obtain ⟨x, h, h1, h2, h3⟩ := demoDue_reachable (k := 8) (verb := b!"PAUSE") (r := (false, some (70, 2), true)) (by simp [Forward, demoTimes]) (by decide +kernel)
    exact ⟨x, h, h1, h2, h3 rfl⟩
  · obtain ⟨x, h, h1, h2, h3⟩ := demoDue_reachable (k := 14) (verb := b!"TEARDOWN") (r := (false, some (5120, 3), true)) (by simp [Forward, demoTimes]) (by decide +kernel)
    exact ⟨x, h, h1, h2, h3 rfl⟩
  · obtain ⟨x, h, h1, h2, _⟩ := demoDue_reachable (k := 20) (verb := []) (r := (false, some (10210, 4), true)) (by simp [Forward, demoTimes]) (by decide +kernel)
    exact ⟨x, h, h1, h2⟩

end Ouro
