import Verif.Lemmas.Firsts
/-! # The client's session: a history of a session, with what the client writes down about it -/
namespace Ouro
open Spec

/-- What the client does to its session: the commands of its loop, and what is read from the connection. -/
def Led : Op → Prop
  | .play => True
  | .pause => True
  | .teardown => True
  | .item (.response rsp) => (rsp.body.getD []).length ≤ 2048
  | .item _ => True
  | _ => False

/-- The session of the client has gone through a history of this kind, and the trace tells all of it. -/
def Leads (w : World) (uri : Bytes) (user : Option (Bytes × Bytes)) (c : Client) : Prop :=
  ∃ early ops, (∀ op ∈ early, ByItself op) ∧ (∀ op ∈ ops, Led op) ∧ run w newSession (.dial uri .tcp user :: early ++ .options :: ops) = .ok c.sess ∧
    wires c.trace = c.sess.out

theorem run_snoc {w : World} {s s' : Sess} {op : Op} {e : Option SErr} (hs : step w s op = .ok (s', e)) (l : List Op) :
    ∀ t : Sess, run w t l = .ok s → run w t (l ++ [op]) = .ok s' := by
  induction l with
  | nil => intro t ht; injection ht with ht; subst ht; show (match step w t op with | .error p => _ | .ok (s, _) => run w s []) = _; rw [hs]; rfl
  | cons o l ih =>
    intro t ht
    unfold run at ht
    rw [List.cons_append]
    unfold run
    cases ho : step w t o with
    | error p => rw [ho] at ht; cases ht
    | ok r => obtain ⟨u, x⟩ := r; rw [ho] at ht; exact ih u ht

theorem wires_append (a b : List Act) : wires (a ++ b) = wires a ++ wires b := List.filterMap_append ..

theorem wires_map (o : List Out) : wires (o.map .wire) = o := by
  unfold wires
  induction o with
  | nil => rfl
  | cons x o ih => rw [List.map_cons, List.filterMap_cons, ih]

theorem led_step {w : World} {uri : Bytes} {user : Option (Bytes × Bytes)} {s s' : Sess} {op : Op} {e : Option SErr} {early ops : List Op}
    (hop : ∀ o ∈ ops, Led o) (hr : run w newSession (.dial uri .tcp user :: early ++ .options :: ops) = .ok s) (ho : Led op) (hs : step w s op = .ok (s', e)) :
    ∃ ops', (∀ o ∈ ops', Led o) ∧ run w newSession (.dial uri .tcp user :: early ++ .options :: ops') = .ok s' := by
  refine ⟨ops ++ [op], fun o h => ?_, ?_⟩
  case refine_2 =>
    have := run_snoc hs _ _ hr
    rwa [List.append_assoc, List.cons_append] at this
  rcases List.mem_append.1 h with h | h
  · exact hop o h
  · rw [List.mem_singleton] at h; subst h; exact ho

/-- A command of the client's loop. -/
theorem leads_order {w : World} {uri : Bytes} {user : Option (Bytes × Bytes)} {c c' : Client} {verb : Bytes} {op : Op} (hopen : c.sess.opened = true)
    (h : Leads w uri user c) (hop : Led op) (hstep : step w c.sess op = c.sess.deref (command w c.sess verb c.sess.baseURI []))
    (hc : c.order (c.sess.deref (command w c.sess verb c.sess.baseURI [])) = .ok c') : Leads w uri user c' := by
  obtain ⟨early, ops, h0, h1, h2, h3⟩ := h
  rw [deref_open hopen] at hstep hc
  obtain ⟨s, req, res, e, hcmd, ho, _, _, _, hcase⟩ := order_out hopen hc
  obtain ⟨ops', k1, k2⟩ := led_step h1 h2 hop (hstep.trans hcmd)
  have ha := adopt_eq c (s := s) (o := [.sent false req res]) ho
  have hb : wires (c.adopt s).trace = s.out := by rw [ha]; dsimp only; rw [wires_append, wires_map, h3, ho]; rfl
  have hsess : (c.adopt s).sess = s := by rw [ha]
  rcases hcase with ⟨_, rfl⟩ | ⟨_, rfl⟩
  · exact ⟨early, ops', h0, k1, by rw [hsess]; exact k2, by rw [hsess]; exact hb⟩
  · exact ⟨early, ops', h0, k1, by show run _ _ _ = .ok (c.adopt s).sess; rw [hsess]; exact k2, by show wires (c.adopt s).trace = (c.adopt s).sess.out; rw [hsess]; exact hb⟩

theorem response_adds {w : World} {s s' : Sess} {rsp : Response} {e : Option SErr} (h : handleItem w s (.response rsp) = .ok (s', e)) : ∃ o, s'.out = o ++ s.out := by
  cases response_effect h with
  | plain own ho hown hst hq hset => exact ⟨own ++ [.got rsp], by rw [ho]; simp⟩
  | retried req res ho hst hq hin => exact ⟨[.sent true req res, .got rsp], ho⟩
  | granted st v ho hst hv hc hq => exact ⟨[.notified st, .got rsp], ho⟩
  | ready sinks ho hst hq hin hall => exact ⟨[.started sinks, .notified 1, .got rsp], ho⟩

theorem leads_read {w : World} {uri : Bytes} {user : Option (Bytes × Bytes)} {c c' : Client} (hl : Leads w uri user c) (h : clientRead w c = .ok c') : Leads w uri user c' := by
  unfold clientRead at h
  split at h
  · split at h
    · injection h with h; subst h; exact hl
    · injection h with h; subst h; exact hl
    · rename_i item r hq
      cases hs : handleItem w c.sess item with
      | error p => rw [hs] at h; cases h
      | ok r' =>
        obtain ⟨s, e⟩ := r'
        rw [hs] at h
        injection h with h; subst h
        obtain ⟨early, ops, h0, h1, h2, h3⟩ := hl
        have hled : Led (.item item) := by
          cases item with
          | frame ch p => trivial
          | response rsp => exact recv_body hq
        have hadd : ∃ o, s.out = o ++ c.sess.out := by
          cases item with
          | frame ch p => injection hs with hs; injection hs with hs _; subst hs; exact ⟨[.data ch p], rfl⟩
          | response rsp => exact response_adds hs
        obtain ⟨o, ho⟩ := hadd
        obtain ⟨ops', k1, k2⟩ := led_step h1 h2 hled hs
        rw [adopt_eq (c := { c with rdr := r, running := goesOn e }) ho]
        refine ⟨early, ops', h0, k1, k2, ?_⟩
        dsimp only
        rw [wires_append, wires_map, h3, ho]
  · injection h with h; subst h; exact hl

/-- Only what is no wire was added. -/
theorem leads_mark {w : World} {uri : Bytes} {user : Option (Bytes × Bytes)} {c c' : Client} (hl : Leads w uri user c) (hs : c'.sess = c.sess)
    (ht : wires c'.trace = wires c.trace) : Leads w uri user c' := by
  obtain ⟨early, ops, h0, h1, h2, h3⟩ := hl
  exact ⟨early, ops, h0, h1, by rw [hs]; exact h2, by rw [hs, ht]; exact h3⟩

theorem leads_step {w : World} {uri : Bytes} {user : Option (Bytes × Bytes)} {c c' : Client} {e : CEv} (hl : Leads w uri user c) (hopen : c.sess.opened = true)
    (h : cstep w c e = .ok c') : Leads w uri user c' := by
  unfold cstep at h
  split at h
  · injection h with h; subst h; exact hl
  · cases e with
    | read => exact leads_read hl h
    | expire =>
      injection h with h; subst h
      split
      · exact leads_mark hl rfl rfl
      · exact hl
    | timer =>
      dsimp only at h
      unfold clientTimer at h
      split at h
      · dsimp only at h
        have hm : Leads w uri user { c with fired := false, trace := .timer :: c.trace } := leads_mark hl rfl rfl
        split at h
        · exact leads_order (c := { c with fired := false, trace := .timer :: c.trace }) (op := .pause) (verb := verbPause) hopen hm trivial rfl h
        · split at h
          · exact leads_order (c := { c with fired := false, trace := .timer :: c.trace }) (op := .teardown) (verb := verbTeardown) hopen hm trivial rfl h
          · split at h
            · injection h with h; subst h; exact leads_mark hl rfl rfl
            · injection h with h; subst h; exact hm
      · injection h with h; subst h; exact hl
    | stage =>
      dsimp only at h
      unfold clientStage at h
      split at h
      · injection h with h; subst h; exact hl
      · rename_i n ks hks
        dsimp only at h
        have hm : Leads w uri user { c with states := ks, state := n, trace := .stage n :: c.trace } := leads_mark hl rfl rfl
        split at h
        · exact leads_order (c := { c with states := ks, state := n, trace := .stage n :: c.trace }) (op := .play) (verb := verbPlay) hopen hm trivial rfl h
        · split at h
          · injection h with h; subst h; exact leads_mark hl rfl rfl
          · split at h
            · injection h with h; subst h; exact leads_mark hl rfl rfl
            · split at h
              · injection h with h; subst h; exact leads_mark hl rfl rfl
              · injection h with h; subst h; exact hm
    | packet =>
      dsimp only at h
      unfold clientPacket at h
      have hu : ∀ us : List NALUnit, wires ((us.map Act.unit).reverse) = [] := by
        intro us
        unfold wires
        rw [List.filterMap_eq_nil_iff]
        intro a ha
        rw [List.mem_reverse, List.mem_map] at ha
        obtain ⟨u, _, rfl⟩ := ha
        rfl
      split at h
      · injection h with h; subst h; exact hl
      · dsimp only at h
        split at h
        · split at h
          · cases h
          · injection h with h; subst h; exact leads_mark hl rfl rfl
          · split at h
            · cases h
            · injection h with h; subst h; exact leads_mark hl rfl rfl
            · injection h with h; subst h
              refine leads_mark hl rfl ?_
              dsimp only
              rw [wires_append, hu]
              rfl
        · split at h
          · cases h
          · injection h with h; subst h; exact leads_mark hl rfl rfl
          · injection h with h; subst h; exact leads_mark hl rfl rfl

theorem leads_open {w : World} {uri : Bytes} {user : Option (Bytes × Bytes)} {rdr : Rdr} {n : Nat} {c : Client} (h : clientEarly w uri user rdr n = .ok c) :
    Leads w uri user c := by
  obtain ⟨b, hb, _, h, _⟩ := early_before h
  obtain ⟨s, req, res, e, hc, ho, _, _, _, hcase⟩ := order_out (verb := verbOptions) (uri := uri) (hs := []) hb.opened h
  obtain ⟨early, o, h1, _, h3, h4, h5, _⟩ := hb.hist
  have hr : run w newSession (.dial uri .tcp user :: early ++ [.options]) = .ok s := run_glue _ h3 (by
    unfold run
    rw [h4] at hc
    rw [show step w (dialled uri .tcp user o) .options = .ok (s, e) from hc]
    rfl)
  have ha := adopt_eq b (s := s) (o := [.sent false req res]) ho
  have hw : wires (Act.wire (.sent false req res) :: b.trace) = s.out := by
    show _ :: wires b.trace = _
    rw [h5, wires_map, ho, h4]; rfl
  rcases hcase with ⟨_, rfl⟩ | ⟨_, rfl⟩
  · rw [ha]; exact ⟨early, [], h1, fun o h => by (cases h), hr, hw⟩
  · rw [ha]; exact ⟨early, [], h1, fun o h => by (cases h), hr, hw⟩

/-- The session of the client, after any schedule. -/
theorem client_leads {w : World} {uri : Bytes} {user : Option (Bytes × Bytes)} {rdr : Rdr} {n : Nat} {c0 c : Client} {es : List CEv}
    (ho : clientEarly w uri user rdr n = .ok c0) (hs : csteps w c0 es = .ok c) : Leads w uri user c := by
  have key : ∀ (es : List CEv) (c c' : Client), CInv w c → Leads w uri user c → csteps w c es = .ok c' → Leads w uri user c' := by
    intro es
    induction es with
    | nil => intro c c' _ hi h; injection h with h; subst h; exact hi
    | cons e es ih =>
      intro c c' hc hi h
      unfold csteps at h
      cases hs : cstep w c e with
      | error p => rw [hs] at h; cases h
      | ok d => rw [hs] at h; exact ih d c' (cstep_inv hc hs) (leads_step hi (plain_static hc.reach).1 hs) h
  exact key es c0 c (open_inv ho) (leads_open ho) hs

end Ouro
