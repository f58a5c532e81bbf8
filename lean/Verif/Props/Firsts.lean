import Verif.Lemmas.ClientRun
import Verif.Props.Main
import Verif.Props.Setup
import Verif.Spec.Amount
/-! # C121: the dialogue is bounded -/
namespace Ouro
open Spec

theorem Fewer.trans {s t u : Sess} (h1 : Fewer s t) (h2 : Fewer t u) : Fewer s u :=
  ⟨Nat.le_trans h2.options h1.options, Nat.le_trans h2.describe h1.describe, Nat.le_trans h2.setup h1.setup⟩

theorem led_fewer {w : World} {s s' : Sess} {op : Op} {e : Option SErr} (hop : Led op) (h : step w s op = .ok (s', e)) : Fewer s s' := by
  cases op with
  | dial => cases hop
  | open_ => cases hop
  | options => cases hop
  | describe => cases hop
  | setup => cases hop
  | keepAlive => cases hop
  | play => exact command_fewer (verb := verbPlay) (by decide) (deref_ok h)
  | pause => exact command_fewer (verb := verbPause) (by decide) (deref_ok h)
  | teardown => exact command_fewer (verb := verbTeardown) (by decide) (deref_ok h)
  | item i =>
    cases i with
    | frame ch p => injection h with h; injection h with h _; subst h; exact .quiet (fun _ => Nat.le_refl _) (fun _ => Nat.le_refl _)
    | response rsp => exact response_fewer hop h

theorem led_run {w : World} (ops : List Op) : ∀ {s s' : Sess}, (∀ op ∈ ops, Led op) → run w s ops = .ok s' → Fewer s s' := by
  induction ops with
  | nil => intro s s' _ h; injection h with h; subst h; exact .refl _
  | cons op ops ih =>
    intro s s' hop h
    unfold run at h
    cases hs : step w s op with
    | error p => rw [hs] at h; cases h
    | ok r =>
      obtain ⟨t, e⟩ := r
      rw [hs] at h
      exact (led_fewer (hop op (List.mem_cons_self ..)) hs).trans (ih (fun o ho => hop o (List.mem_cons_of_mem _ ho)) h)

theorem firsts_append (v : Bytes) (a b : List Out) : firsts v (a ++ b) = firsts v a + firsts v b := by
  induction a with
  | nil => exact (Nat.zero_add _).symm
  | cons x a ih =>
    rw [List.cons_append]
    cases x with
    | sent again req res =>
      cases again with
      | true => exact ih
      | false => show firsts v (a ++ b) + _ = firsts v a + _ + _; rw [ih]; omega
    | _ => exact ih

/-- The requests that the client makes itself are milestones. -/
theorem firsts_asked {v : Bytes} (hv : ¬ Own v) (t : List Act) : firsts v (wires t) = (milestones t).count (.asked v) := by
  induction t with
  | nil => rfl
  | cons a t ih =>
    cases a with
    | wire o =>
      cases o with
      | sent again req res =>
        cases again with
        | true => exact ih
        | false =>
          show firsts v (wires t) + (if req.verb = v then 1 else 0) = List.count _ (if Own req.verb then milestones t else milestones t ++ [.asked req.verb])
          by_cases ho : Own req.verb
          · rw [if_pos ho, if_neg (fun e : req.verb = v => hv (e ▸ ho))]; exact ih
          · rw [if_neg ho, List.count_append, ← ih]
            by_cases e : req.verb = v
            · rw [if_pos e, e, List.count_singleton_self]
            · rw [if_neg e, List.count_eq_zero_of_not_mem (fun h => e (by rw [List.mem_singleton] at h; injection h with h; exact h.symm))]
      | notified k =>
        show _ = List.count _ (milestones t ++ [.reached k])
        rw [List.count_append, ← ih, List.count_eq_zero_of_not_mem (by intro h; rw [List.mem_singleton] at h; cases h)]
        rfl
      | _ => exact ih
    | ended why =>
      cases why with
      | finished =>
        show _ = List.count _ (milestones t ++ [.finished])
        rw [List.count_append, ← ih, List.count_eq_zero_of_not_mem (by intro h; rw [List.mem_singleton] at h; cases h)]
        rfl
      | _ => exact ih
    | _ => exact ih

theorem incoming0_firsts {o : List Out} (h : Incoming0 o) (v : Bytes) : firsts v o = 0 := by
  induction o with
  | nil => rfl
  | cons x o ih =>
    have ih := ih fun y hy => h y (by simp [hy])
    rcases h x (by simp) with ⟨ch, p, rfl⟩ | ⟨rsp, rfl⟩ <;> exact ih

/-- C121: whatever the server sends and whatever the schedule is, apart from requests sent again the client has sent OPTIONS once, DESCRIBE, PLAY,
PAUSE and TEARDOWN at most once each, SETUP at most 204 times and nothing else. -/
theorem C121_methods (w : World) (c : Client) (h : ClientReachable w c) :
    firsts b!"OPTIONS" (wires c.trace) = 1 ∧ firsts b!"DESCRIBE" (wires c.trace) ≤ 1 ∧ firsts b!"SETUP" (wires c.trace) ≤ 204 ∧
      (∀ v, v = b!"PLAY" ∨ v = b!"PAUSE" ∨ v = b!"TEARDOWN" → firsts v (wires c.trace) ≤ 1) ∧
      ∀ v, v ∉ [b!"OPTIONS", b!"DESCRIBE", b!"SETUP", b!"PLAY", b!"PAUSE", b!"TEARDOWN"] → firsts v (wires c.trace) = 0 := by
  have hm := (C65_course w c h).sublist
  have hasked : ∀ v, ¬ Own v → firsts v (wires c.trace) ≤ course.count (.asked v) := fun v hv => by rw [firsts_asked hv]; exact hm.count_le _
  have hrest : (∀ v, v = b!"PLAY" ∨ v = b!"PAUSE" ∨ v = b!"TEARDOWN" → firsts v (wires c.trace) ≤ 1) ∧
      ∀ v, v ∉ [b!"OPTIONS", b!"DESCRIBE", b!"SETUP", b!"PLAY", b!"PAUSE", b!"TEARDOWN"] → firsts v (wires c.trace) = 0 := by
    constructor
    · rintro v (rfl | rfl | rfl) <;> exact Nat.le_trans (hasked _ (by decide)) (by decide)
    · intro v hv
      have ho : ¬ Own v := by rintro (rfl | rfl | rfl) <;> exact hv (by decide)
      have : course.count (.asked v) = 0 := by
        refine List.count_eq_zero_of_not_mem (fun h => ?_)
        simp only [course, List.mem_cons, List.not_mem_nil, or_false, Milestone.asked.injEq, reduceCtorEq, false_or] at h
        rcases h with rfl | rfl | rfl <;> exact hv (by decide)
      have := hasked v ho
      omega
  obtain ⟨uri, user, rdr, n, c0, es, ho, hs⟩ := h
  obtain ⟨early, ops, hearly, hop, hr, hw⟩ := client_leads ho hs
  rw [hw] at hrest ⊢
  obtain ⟨_, hr0, hr⟩ := run_parts (.dial uri .tcp user :: early) hr
  obtain ⟨o, rfl, hin⟩ := dialled_early (o := []) early (fun x hx => by (cases hx)) hearly (show run w (dialled uri .tcp user []) early = .ok _ from hr0)
  unfold run at hr
  cases hstep : step w (dialled uri .tcp user o) .options with
  | error p => rw [hstep] at hr; cases hr
  | ok r =>
    obtain ⟨t, e⟩ := r
    rw [hstep] at hr
    have hf := led_run ops hop hr
    obtain ⟨req, res, hout, hq⟩ : ∃ req res, t.out = .sent false req res :: o ∧ req.verb = b!"OPTIONS" ∧ t.queue = insertReq [] req := by
      rcases command_out (show command w (dialled uri .tcp user o) verbOptions uri [] = _ from hstep) with ⟨h, _⟩ | ⟨_, _, a, x, res, rfl, _⟩
      · cases h
      · exact ⟨_, _, rfl, rfl, rfl⟩
    obtain ⟨hv, hq⟩ := hq
    have hfirst : ∀ v, firsts v t.out = if b!"OPTIONS" = v then 1 else 0 := by
      intro v; rw [hout, ← hv]
      show firsts v o + _ = _
      rw [incoming0_firsts hin]; exact Nat.zero_add _
    have hcnt : ∀ v, cnt v t.queue ≤ if b!"OPTIONS" = v then 1 else 0 := by
      intro v
      have := cnt_insert v [] req
      rw [hq, ← hv]
      exact Nat.le_trans this (Nat.le_of_eq (Nat.zero_add _))
    have a1 : firsts b!"OPTIONS" t.out = 1 := hfirst _
    have a2 : firsts b!"DESCRIBE" t.out = 0 := hfirst _
    have a3 : firsts b!"SETUP" t.out = 0 := hfirst _
    have b1 : cnt b!"OPTIONS" t.queue ≤ 1 := hcnt _
    have b2 : cnt b!"DESCRIBE" t.queue ≤ 0 := hcnt _
    have f1 := hf.options
    have f2 := hf.describe
    have f3 := hf.setup
    have hsub : firsts b!"OPTIONS" t.out ≤ firsts b!"OPTIONS" c.sess.out := by
      have : ∃ o, c.sess.out = o ++ t.out := by
        have key : ∀ (ops : List Op) (s s' : Sess), (∀ op ∈ ops, Led op) → run w s ops = .ok s' → ∃ o, s'.out = o ++ s.out := by
          intro ops
          induction ops with
          | nil => intro s s' _ h; injection h with h; subst h; exact ⟨[], rfl⟩
          | cons op ops ih =>
            intro s s' hop h
            unfold run at h
            cases hs : step w s op with
            | error p => rw [hs] at h; cases h
            | ok r =>
              obtain ⟨u, e⟩ := r
              rw [hs] at h
              obtain ⟨o1, h1⟩ := ih u s' (fun o ho => hop o (List.mem_cons_of_mem _ ho)) h
              have hl := hop op (List.mem_cons_self ..)
              have cmd : ∀ {verb uri : Bytes}, command w s verb uri [] = .ok (u, e) → ∃ o, u.out = o ++ s.out := by
                intro verb uri h
                rcases command_out h with ⟨_, rfl, _⟩ | ⟨_, _, a, x, res, rfl, _⟩
                · exact ⟨[], rfl⟩
                · exact ⟨[_], rfl⟩
              obtain ⟨o2, h2⟩ : ∃ o, u.out = o ++ s.out := by
                cases op with
                | dial => cases hl
                | open_ => cases hl
                | options => cases hl
                | describe => cases hl
                | setup => cases hl
                | keepAlive => cases hl
                | play => exact cmd (deref_ok hs)
                | pause => exact cmd (deref_ok hs)
                | teardown => exact cmd (deref_ok hs)
                | item i =>
                  cases i with
                  | frame ch p => injection hs with hs; injection hs with hs _; subst hs; exact ⟨[.data ch p], rfl⟩
                  | response rsp => exact response_adds hs
              exact ⟨o1 ++ o2, by rw [h1, h2, List.append_assoc]⟩
        exact key ops t c.sess hop hr
      obtain ⟨o, ho⟩ := this
      rw [ho, firsts_append]
      exact Nat.le_add_left _ _
    exact ⟨by omega, by omega, by omega, hrest⟩

/-- Apart from requests sent again there are at most 209. -/
theorem requests_le (w : World) (c : Client) (h : ClientReachable w c) : requests c.trace ≤ 209 + retries (wires c.trace) := by
  obtain ⟨h1, h2, h3, h4, h5⟩ := C121_methods w c h
  have hp := h4 _ (.inl rfl)
  have hq := h4 _ (.inr (.inl rfl))
  have ht := h4 _ (.inr (.inr rfl))
  have one : ∀ v ∈ [b!"OPTIONS", b!"DESCRIBE", b!"SETUP", b!"PLAY", b!"PAUSE", b!"TEARDOWN"],
      ((if v = b!"OPTIONS" then 1 else 0) + (if v = b!"DESCRIBE" then 1 else 0) + (if v = b!"SETUP" then 1 else 0) + (if v = b!"PLAY" then 1 else 0) +
        (if v = b!"PAUSE" then 1 else 0) + (if v = b!"TEARDOWN" then 1 else 0) : Nat) = 1 := by decide
  have hsplit : ∀ (t : List Act), (∀ v, v ∉ [b!"OPTIONS", b!"DESCRIBE", b!"SETUP", b!"PLAY", b!"PAUSE", b!"TEARDOWN"] → firsts v (wires t) = 0) →
      requests t = retries (wires t) + (firsts b!"OPTIONS" (wires t) + firsts b!"DESCRIBE" (wires t) + firsts b!"SETUP" (wires t) + firsts b!"PLAY" (wires t) +
        firsts b!"PAUSE" (wires t) + firsts b!"TEARDOWN" (wires t)) := by
    intro t
    induction t with
    | nil => intro _; rfl
    | cons a t ih =>
      intro hno
      cases a with
      | wire o =>
        cases o with
        | sent again req res =>
          cases again with
          | true =>
            have := ih hno
            show requests t + 1 = retries (wires t) + 1 + (firsts b!"OPTIONS" (wires t) + firsts b!"DESCRIBE" (wires t) + firsts b!"SETUP" (wires t) + firsts b!"PLAY" (wires t) +
              firsts b!"PAUSE" (wires t) + firsts b!"TEARDOWN" (wires t))
            omega
          | false =>
            have hcons : ∀ v, firsts v (wires (.wire (.sent false req res) :: t)) = firsts v (wires t) + if req.verb = v then 1 else 0 := fun _ => rfl
            have := ih (fun v hv => by have := hno v hv; rw [hcons] at this; omega)
            show requests t + 1 = retries (wires t) + _
            rw [this, hcons, hcons, hcons, hcons, hcons, hcons]
            by_cases hin : req.verb ∈ [b!"OPTIONS", b!"DESCRIBE", b!"SETUP", b!"PLAY", b!"PAUSE", b!"TEARDOWN"]
            · have := one req.verb hin
              omega
            · have := hno req.verb hin
              rw [hcons, if_pos rfl] at this
              omega
        | _ => exact ih hno
      | _ => exact ih hno
  have := hsplit c.trace h5
  omega

/-- C121: so a session takes at most 209 requests, and one for every 401. -/
theorem C121_requests (w : World) (c : Client) (h : ClientReachable w c) : requests c.trace ≤ 209 + refusals (wires c.trace) := by
  have h1 := requests_le w c h
  obtain ⟨uri, user, rdr, n, c0, es, ho, hs⟩ := h
  obtain ⟨early, ops, _, _, hr, hw⟩ := client_leads ho hs
  have := C60_per_refusal_partial w c.sess ⟨_, hr⟩
  rw [← hw] at this
  omega

/-- C121: without credentials in the address, at most 209. -/
theorem C121_no_credentials (w : World) (uri : Bytes) (rdr : Rdr) (n : Nat) (c0 c : Client) (es : List CEv) (ho : clientEarly w uri none rdr n = .ok c0)
    (hs : csteps w c0 es = .ok c) : requests c.trace ≤ 209 := by
  have h1 := requests_le w c ⟨uri, none, rdr, n, c0, es, ho, hs⟩
  obtain ⟨early, ops, he, hop, hr, hw⟩ := client_leads ho hs
  have := dial_retries w uri .tcp (early ++ .options :: ops) (fun op h e => by
    rcases opens_cases e with ⟨_, _, _, rfl⟩ | ⟨_, _, _, rfl⟩ <;> rcases List.mem_append.1 h with h | h
    · exact he _ h
    · rcases List.mem_cons.1 h with h | h
      · cases h
      · exact hop _ h
    · exact he _ h
    · rcases List.mem_cons.1 h with h | h
      · cases h
      · exact hop _ h) c.sess hr
  rw [← hw] at this
  omega

/-- A description with as many video sections as fit. -/
def longestBody : Bytes := (List.replicate 204 b!"m=video x").intersperse b!"\n" |>.flatten

-- It is short enough, and leads to 204 SETUP requests.
example : longestBody.length = 2039 ∧ ∃ s, run demoWorld newSession [demoOpen, demoGot 1 200 [] none, demoGot 2 200 [] (some longestBody)] = .ok s ∧
    firsts b!"SETUP" s.out = 204 := by
  refine ⟨by decide +kernel, ?_⟩
  have : (match run demoWorld newSession [demoOpen, demoGot 1 200 [] none, demoGot 2 200 [] (some longestBody)] with | .ok s => firsts b!"SETUP" s.out | .error _ => 0) = 204 := by
    decide +kernel
  split at this
  · rename_i s h; exact ⟨s, h, this⟩
  · cases this

-- In the course of a session with one feed: six requests, none of them sent again.
example : ∃ c, ClientReachable demoWorld c ∧ (requests c.trace, retries (wires c.trace), firsts b!"SETUP" (wires c.trace), firsts b!"TEARDOWN" (wires c.trace)) = (6, 0, 1, 1) :=
  demoClient_shows (frames := []) (es := demoPlay ++ demoStop) (by decide +kernel)

end Ouro
