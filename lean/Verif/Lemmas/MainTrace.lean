import Verif.Lemmas.MainInv
import Verif.Lemmas.Nal2
/-! # The trace of the command line client -/
namespace Ouro
open Spec

/-- Everything in a trace is justified. -/
def Just : List Act → Prop
  | [] => True
  | a :: older => Justified older a ∧ Just older

/-- Acts that need no reason and are not stages. -/
def Free : Act → Prop
  | .stage _ => False
  | .ended _ => False
  | .wire (.sent false req _) => Own req.verb
  | _ => True

theorem Just.free {a : Act} (h : Free a) {b : List Act} (hb : Just b) : Just (a :: b) ∧ lastStage (a :: b) = lastStage b := by
  refine ⟨⟨?_, hb⟩, ?_⟩
  · cases a with
    | wire o =>
      cases o with
      | sent r req res =>
        cases r with
        | false =>
          rcases h with h | h | h
          · exact .inl h
          · exact .inr (.inl h)
          · exact .inr (.inr (.inl h))
        | true => trivial
      | got | started | data | notified => trivial
    | ended why => exact h.elim
    | stage => exact h.elim
    | timer | packet | unit => trivial
  · cases a with
    | stage => exact h.elim
    | wire | ended | timer | packet | unit => rfl

theorem Just.frees {as : List Act} (h : ∀ a ∈ as, Free a) {b : List Act} (hb : Just b) : Just (as ++ b) ∧ lastStage (as ++ b) = lastStage b := by
  induction as with
  | nil => exact ⟨hb, rfl⟩
  | cons a as ih =>
    obtain ⟨h1, h2⟩ := ih (fun x hx => h x (by simp [hx]))
    obtain ⟨h3, h4⟩ := Just.free (h a (by simp)) h1
    exact ⟨h3, h4.trans h2⟩

theorem Just.mem {t : List Act} (h : Just t) {newer older : List Act} {a : Act} (e : t = newer ++ a :: older) : Justified older a := by
  induction newer generalizing t with
  | nil => subst e; exact h.1
  | cons x newer ih => subst e; exact ih h.2 rfl

theorem seen_frees {as : List Act} (h : ∀ a ∈ as, ∀ ch p, a ≠ .packet ch p) (b : List Act) : seen (as ++ b) = seen b := by
  induction as with
  | nil => rfl
  | cons a as ih =>
    have i := ih (fun x hx => h x (by simp [hx]))
    cases a with
    | packet ch p => exact absurd rfl (h _ (by simp) ch p)
    | wire | ended | timer | stage | unit => exact i

theorem framesRead_frees {as : List Act} (h : ∀ a ∈ as, ∀ ch p, a ≠ .wire (.data ch p)) (b : List Act) : framesRead (as ++ b) = framesRead b := by
  induction as with
  | nil => rfl
  | cons a as ih =>
    have i := ih (fun x hx => h x (by simp [hx]))
    cases a with
    | wire o =>
      cases o with
      | data ch p => exact absurd rfl (h _ (by simp) ch p)
      | sent | got | started | notified => exact i
    | packet | ended | timer | stage | unit => exact i

/-- What the trace says, on top of `CInv`. -/
structure TInv (c : Client) : Prop where
  just : Just c.trace
  last : lastStage c.trace = c.state
  fifo : seen c.trace ++ c.data = framesRead c.trace
  don : c.sink.don < 65536

theorem pushLoop_don (ts : Nat) : ∀ (nals : List Bytes) {s : NALSink} {e s'}, s.don < 65536 → pushLoop s ts nals = .ok (e, s') → s'.don < 65536 := by
  intro nals
  induction nals with
  | nil => intro s e s' hs h; injection h with h; injection h with _ h; subst h; exact hs
  | cons n ns ih =>
    intro s e s' hs h
    unfold pushLoop at h
    cases hp : parseNAL s n ts with
    | error p => rw [hp] at h; cases h
    | ok r =>
      obtain ⟨x, t⟩ := r
      rw [hp] at h
      have ht := parseNAL_don hs hp
      cases x with
      | none => exact ih ht h
      | some x => injection h with h; injection h with _ h; subst h; exact ht

theorem push_don {s : NALSink} (hs : s.don < 65536) {buf : Bytes} {ts : Nat} {e s'} (h : push s buf ts = .ok (e, s')) : s'.don < 65536 := by
  unfold push at h
  cases hp : splitAnnexB buf with
  | error p => rw [hp] at h; cases h
  | ok nals => rw [hp] at h; exact pushLoop_don ts nals hs h

theorem sentData_nil {o : List Out} (h : ∀ x ∈ o, ∀ ch p, x ≠ .data ch p) : sentData o = [] := by
  unfold sentData
  rw [List.filterMap_eq_nil_iff]
  intro x hx
  rw [List.mem_reverse] at hx
  have := h x hx
  cases x with
  | data ch p => exact absurd rfl (this ch p)
  | sent | got | started | notified => rfl

/-- The session acts on its own. -/
theorem TInv.own {c : Client} (h : TInv c) {s : Sess} {o : List Out} (ho : s.out = o ++ c.sess.out) (hf : ∀ x ∈ o, Free (.wire x)) (hd : ∀ x ∈ o, ∀ ch p, x ≠ .data ch p) :
    TInv (c.adopt s) := by
  rw [adopt_eq c ho]
  have hf' : ∀ a ∈ o.map Act.wire, Free a := fun a ha => by obtain ⟨x, hx, rfl⟩ := List.mem_map.1 ha; exact hf x hx
  have hd' : ∀ a ∈ o.map Act.wire, ∀ ch p, a ≠ .wire (.data ch p) := fun a ha ch p e => by
    obtain ⟨x, hx, rfl⟩ := List.mem_map.1 ha; injection e with e; exact hd x hx ch p e
  have hp' : ∀ a ∈ o.map Act.wire, ∀ ch p, a ≠ .packet ch p := fun a ha ch p e => by
    obtain ⟨x, hx, rfl⟩ := List.mem_map.1 ha; cases e
  obtain ⟨h1, h2⟩ := Just.frees hf' h.just
  refine ⟨h1, h2.trans h.last, ?_, h.don⟩
  show seen (o.map .wire ++ c.trace) ++ (c.data ++ sentData o) = framesRead (o.map .wire ++ c.trace)
  rw [seen_frees hp', framesRead_frees hd', sentData_nil hd, List.append_nil]
  exact h.fifo

/-- The client makes a request of its own. -/
theorem TInv.ask {w : World} {c c' : Client} {verb uri : Bytes} {hs : Header} (h : TInv c) (hopen : c.sess.opened = true)
    (hc : c.order (c.sess.deref (command w c.sess verb uri hs)) = .ok c')
    (hj : ∀ req res, req.verb = verb → Justified c.trace (.wire (.sent false req res))) : TInv c' := by
  rw [deref_open hopen] at hc
  obtain ⟨s, req, res, e, _, ho, hverb, _, _, hcase⟩ := order_out hopen hc
  have ha := adopt_eq c (s := s) (o := [.sent false req res]) ho
  have hbase : TInv (c.adopt s) := by
    rw [ha]
    refine ⟨⟨hj req res hverb, h.just⟩, h.last, ?_, h.don⟩
    show seen c.trace ++ (c.data ++ []) = framesRead c.trace
    rw [List.append_nil]; exact h.fifo
  rcases hcase with ⟨_, rfl⟩ | ⟨hres, rfl⟩
  · exact hbase
  · rw [ha] at hbase ⊢
    exact ⟨⟨⟨req, res, rfl, hres⟩, hbase.just⟩, hbase.last, hbase.fifo, hbase.don⟩

theorem read_tinv {w : World} {c c' : Client} (hi : TInv c) (h : clientRead w c = .ok c') : TInv c' := by
  unfold clientRead at h
  split at h
  · split at h
    · injection h with h; subst h; exact ⟨hi.just, hi.last, hi.fifo, hi.don⟩
    · injection h with h; subst h; exact ⟨hi.just, hi.last, hi.fifo, hi.don⟩
    · next item r _ =>
      cases hs : handleItem w c.sess item with
      | error p => rw [hs] at h; cases h
      | ok r' =>
        obtain ⟨s, e⟩ := r'
        rw [hs] at h
        injection h with h; subst h
        have hi' : TInv { c with rdr := r, running := goesOn e } := ⟨hi.just, hi.last, hi.fifo, hi.don⟩
        cases item with
        | frame ch p =>
          injection hs with hs; injection hs with hs _; subst hs
          rw [adopt_eq (c := { c with rdr := r, running := goesOn e }) (o := [.data ch p]) rfl]
          refine ⟨⟨trivial, hi.just⟩, hi.last, ?_, hi.don⟩
          show seen c.trace ++ (c.data ++ [(ch, p)]) = framesRead c.trace ++ [(ch, p)]
          rw [← List.append_assoc, hi.fifo]
        | response rsp =>
          cases response_effect hs with
          | plain own ho hown hst hq hset =>
            refine hi'.own (o := own ++ [.got rsp]) (by rw [ho]; simp) (fun x hx => ?_) (fun x hx ch p e => ?_)
            · rcases List.mem_append.1 hx with hx | hx
              · obtain ⟨req, res, rfl, hv⟩ := hown x hx; exact hv
              · rw [List.mem_singleton] at hx; subst hx; trivial
            · rcases List.mem_append.1 hx with hx | hx
              · obtain ⟨req, res, rfl, hv⟩ := hown x hx; cases e
              · rw [List.mem_singleton] at hx; subst hx; cases e
          | retried req res ho hst hq hin =>
            refine hi'.own (o := [.sent true req res, .got rsp]) ho (fun x hx => ?_) (fun x hx ch p e => ?_)
            · simp only [List.mem_cons, List.not_mem_nil, or_false] at hx
              rcases hx with rfl | rfl <;> trivial
            · simp only [List.mem_cons, List.not_mem_nil, or_false] at hx
              rcases hx with rfl | rfl <;> cases e
          | granted st v ho hst hv hc hq =>
            refine hi'.own (o := [.notified st, .got rsp]) ho (fun x hx => ?_) (fun x hx ch p e => ?_)
            · simp only [List.mem_cons, List.not_mem_nil, or_false] at hx
              rcases hx with rfl | rfl <;> trivial
            · simp only [List.mem_cons, List.not_mem_nil, or_false] at hx
              rcases hx with rfl | rfl <;> cases e
          | ready sinks ho hst hq hin hall =>
            refine hi'.own (o := [.started sinks, .notified 1, .got rsp]) ho (fun x hx => ?_) (fun x hx ch p e => ?_)
            · simp only [List.mem_cons, List.not_mem_nil, or_false] at hx
              rcases hx with rfl | rfl | rfl <;> trivial
            · simp only [List.mem_cons, List.not_mem_nil, or_false] at hx
              rcases hx with rfl | rfl | rfl <;> cases e
  · injection h with h; subst h; exact hi

theorem timer_tinv {w : World} {c c' : Client} (hi : TInv c) (hopen : c.sess.opened = true) (h : clientTimer w c = .ok c') : TInv c' := by
  unfold clientTimer at h
  split at h
  · dsimp only at h
    have hi' : TInv { c with fired := false, trace := .timer :: c.trace } := ⟨⟨trivial, hi.just⟩, hi.last, hi.fifo, hi.don⟩
    split at h
    · next hst => exact hi'.ask hopen h fun req res hv => .inr (.inr (.inr (.inr (.inl ⟨hv, rfl, hi.last.trans hst⟩))))
    · split at h
      · next hst => exact hi'.ask hopen h fun req res hv => .inr (.inr (.inr (.inr (.inr ⟨hv, rfl, hi.last.trans hst⟩))))
      · split at h
        · next hst =>
          injection h with h; subst h
          exact ⟨⟨⟨rfl, hi.last.trans hst⟩, hi'.just⟩, hi.last, hi.fifo, hi.don⟩
        · injection h with h; subst h; exact hi'
  · injection h with h; subst h; exact hi

theorem stage_tinv {w : World} {c c' : Client} (hi : TInv c) (hopen : c.sess.opened = true) (h : clientStage w c = .ok c') : TInv c' := by
  unfold clientStage at h
  split at h
  · injection h with h; subst h; exact hi
  · next k ks _ =>
    dsimp only at h
    have hi' : TInv { c with states := ks, state := k, trace := .stage k :: c.trace } := ⟨⟨trivial, hi.just⟩, rfl, hi.fifo, hi.don⟩
    split at h
    · next hk => exact hi'.ask hopen h fun req res hv => .inr (.inr (.inr (.inl ⟨hv, by rw [hk]; rfl⟩)))
    · split at h
      · injection h with h; subst h; exact ⟨hi'.just, hi'.last, hi'.fifo, hi'.don⟩
      · split at h
        · injection h with h; subst h; exact ⟨hi'.just, hi'.last, hi'.fifo, hi'.don⟩
        · split at h
          · injection h with h; subst h; exact ⟨hi'.just, hi'.last, hi'.fifo, hi'.don⟩
          · injection h with h; subst h; exact hi'

theorem packet_tinv {c c' : Client} (hi : TInv c) (h : clientPacket c = .ok c') : TInv c' := by
  unfold clientPacket at h
  split at h
  · injection h with h; subst h; exact hi
  · next ch payload rest hd =>
    dsimp only at h
    have hfifo : seen (.packet ch payload :: c.trace) ++ rest = framesRead (.packet ch payload :: c.trace) := by
      show (seen c.trace ++ [(ch, payload)]) ++ rest = framesRead c.trace
      rw [List.append_assoc]
      have := hi.fifo
      rw [hd] at this
      exact this
    split at h
    · next hev =>
      split at h
      · cases h
      · next e hu =>
        injection h with h; subst h
        exact ⟨⟨⟨ch, payload, rfl, by unfold BadPacket; rw [if_pos hev]; exact .inl ⟨e, hu⟩⟩, trivial, hi.just⟩, hi.last, hfifo, hi.don⟩
      · next q hu =>
        split at h
        · cases h
        · next e sink hp =>
          injection h with h; subst h
          exact ⟨⟨⟨ch, payload, rfl, by unfold BadPacket; rw [if_pos hev]; exact .inr ⟨q, _, e, sink, hu, hp⟩⟩, trivial, hi.just⟩, hi.last, hfifo, push_don hi.don hp⟩
        · next sink hp =>
          injection h with h; subst h
          have hfree : ∀ a ∈ (sink.units.map Act.unit).reverse, Free a := fun a ha => by
            rw [List.mem_reverse, List.mem_map] at ha; obtain ⟨u, _, rfl⟩ := ha; trivial
          obtain ⟨h1, h2⟩ := Just.frees hfree (b := .packet ch payload :: c.trace) ⟨trivial, hi.just⟩
          refine ⟨h1, h2.trans hi.last, ?_, push_don hi.don hp⟩
          show seen ((sink.units.map Act.unit).reverse ++ _) ++ rest = framesRead ((sink.units.map Act.unit).reverse ++ _)
          rw [seen_frees, framesRead_frees]
          · exact hfifo
          · intro a ha ch p e; rw [List.mem_reverse, List.mem_map] at ha; obtain ⟨u, _, rfl⟩ := ha; cases e
          · intro a ha ch p e; rw [List.mem_reverse, List.mem_map] at ha; obtain ⟨u, _, rfl⟩ := ha; cases e
    · next hev =>
      split at h
      · cases h
      · next e hu =>
        injection h with h; subst h
        exact ⟨⟨⟨ch, payload, rfl, by unfold BadPacket; rw [if_neg hev]; exact ⟨e, hu⟩⟩, trivial, hi.just⟩, hi.last, hfifo, hi.don⟩
      · injection h with h; subst h
        exact ⟨⟨trivial, hi.just⟩, hi.last, hfifo, hi.don⟩

theorem cstep_tinv {w : World} {c c' : Client} {e : CEv} (hi : TInv c) (hopen : c.sess.opened = true) (h : cstep w c e = .ok c') : TInv c' := by
  unfold cstep at h
  split at h
  · injection h with h; subst h; exact hi
  · cases e with
    | read => exact read_tinv hi h
    | timer => exact timer_tinv hi hopen h
    | stage => exact stage_tinv hi hopen h
    | packet => exact packet_tinv hi h
    | expire =>
      injection h with h; subst h
      split
      · exact ⟨hi.just, hi.last, hi.fifo, hi.don⟩
      · exact hi

theorem csteps_tinv {w : World} (es : List CEv) : ∀ {c c' : Client}, CInv w c → TInv c → csteps w c es = .ok c' → TInv c' := by
  induction es with
  | nil => intro c c' _ hi h; injection h with h; subst h; exact hi
  | cons e es ih =>
    intro c c' hc hi h
    unfold csteps at h
    cases hs : cstep w c e with
    | error p => rw [hs] at h; cases h
    | ok d => rw [hs] at h; exact ih (cstep_inv hc hs) (cstep_tinv hi (plain_static hc.reach).1 hs) h

theorem client_tinv {w : World} {c : Client} (h : ClientReachable w c) : TInv c := by
  obtain ⟨uri, user, rdr, n, c0, es, h1, h2⟩ := h
  refine csteps_tinv es (open_inv h1) ?_ h2
  obtain ⟨b, hb, _, _, h1⟩ := early_before h1
  obtain ⟨k1, _, k3⟩ := acts_seen hb.acts
  refine TInv.ask (c := b) ⟨?_, ?_, ?_, ?_⟩ hb.opened h1 (fun req res hv => .inl hv)
  · have := hb.acts
    generalize b.trace = t at this
    induction t with
    | nil => trivial
    | cons a t ih =>
      refine ⟨?_, ih fun x hx => this x (by simp [hx])⟩
      rcases this a (by simp) with ⟨ch, p, rfl⟩ | ⟨rsp, rfl⟩ <;> trivial
  · rw [k3, hb.state]
  · rw [k1, hb.frames]; rfl
  · rw [hb.sink]; decide

end Ouro
