import Verif.Spec.Udp
/-! # C62, C71: UDP listeners -/
namespace Ouro
open Spec

/-- What sums over the elements of a list change by when one of them changes. -/
theorem sum_set {α : Type} (f : α → Nat) : ∀ (l : List α) (i : Nat) (a b : α), l[i]? = some a → ((l.set i b).map f).sum + f a = (l.map f).sum + f b
  | [], i, a, b, h => by cases i <;> cases h
  | x :: l, 0, a, b, h => by
    injection h with h; subst h
    simp only [List.set_cons_zero, List.map_cons, List.sum_cons]
    omega
  | x :: l, i + 1, a, b, h => by
    have := sum_set f l i a b (by simpa using h)
    simp only [List.set_cons_succ, List.map_cons, List.sum_cons]
    omega

theorem sum_zero {α : Type} (f : α → Nat) : ∀ (l : List α), (∀ a ∈ l, f a = 0) → (l.map f).sum = 0
  | [], _ => rfl
  | x :: l, h => by
    simp only [List.map_cons, List.sum_cons]
    rw [h x (by simp), sum_zero f l fun a ha => h a (by simp [ha])]

/-! ## How often a goroutine can go on -/

/-- 1 for a goroutine that has been signalled and has not come back. -/
def busy : Nat × Phase → Nat
  | (_, .reading) => 1
  | (_, .sending _) => 1
  | _ => 0

/-- Listeners that can still be signalled. -/
def ahead (s : Udp) : Nat :=
  match s.stopping with
  | none => s.sinks.length
  | some l => l.length

/-- What has been delivered, what is under way and what can still come. -/
def credit (s : Udp) : Nat := s.log.length + (s.gos.map busy).sum + ahead s

theorem credit_step {s s' : Udp} {e : UEv} (h : ustep s e = some s') : credit s' ≤ credit s + listeners [e] := by
  cases e with
  | addSink ch =>
    unfold ustep at h
    dsimp only at h
    split at h
    · rename_i hs
      injection h with h; subst h
      simp only [credit, ahead, hs, List.length_append, List.length_singleton, listeners]
      omega
    · cases h
  | start =>
    unfold ustep at h
    dsimp only at h
    split at h
    · rename_i hs
      injection h with h; subst h
      simp only [credit, ahead, hs, List.map_append, List.sum_append, List.map_map]
      rw [show ((s.sinks.map (busy ∘ fun i => (i, Phase.waiting))).sum) = 0 from sum_zero _ _ fun a _ => rfl]
      omega
    · cases h
  | stop =>
    unfold ustep at h
    dsimp only at h
    split at h
    · rename_i hs
      injection h with h; subst h
      simp only [credit, ahead, hs]
      omega
    · cases h
  | signal g =>
    unfold ustep at h
    dsimp only at h
    split at h
    · rename_i i is j h1 h2
      split at h
      · injection h with h; subst h
        have := sum_set busy s.gos g (j, .waiting) (j, .reading) h2
        simp only [busy] at this
        simp only [credit, ahead, h1, List.length_cons]
        omega
      · cases h
    · cases h
  | stopped =>
    unfold ustep at h
    dsimp only at h
    split at h
    · rename_i hs
      injection h with h; subst h
      simp only [credit, ahead, hs, List.length_nil]
      omega
    · cases h
  | datagram i p =>
    unfold ustep at h
    dsimp only at h
    split at h
    · split at h
      · injection h with h; subst h
        exact Nat.le_add_right _ _
      · cases h
    · cases h
  | read g =>
    unfold ustep at h
    dsimp only at h
    split at h
    · rename_i i h2
      split at h
      · injection h with h; subst h
        rename_i ch p rx h3
        have := sum_set busy s.gos g (i, .reading) (i, .sending (p.take 2048)) h2
        simp only [busy] at this
        simp only [credit, ahead]
        split <;> omega
      · cases h
    · cases h
  | readFails g temp =>
    unfold ustep at h
    dsimp only at h
    split at h
    · rename_i i h2
      split at h
      · injection h with h; subst h
        have := sum_set busy s.gos g (i, .reading) (i, .waiting) h2
        simp only [busy] at this
        simp only [credit, ahead]
        split <;> omega
      · split at h
        · injection h with h; subst h
          have := sum_set busy s.gos g (i, .reading) (i, .ended) h2
          simp only [busy] at this
          simp only [credit, ahead]
          split <;> omega
        · cases h
    · cases h
  | put g =>
    unfold ustep at h
    dsimp only at h
    split at h
    · rename_i i p h2
      split at h
      · split at h
        · injection h with h; subst h
          have := sum_set busy s.gos g (i, .sending p) (i, .waiting) h2
          simp only [busy] at this
          simp only [credit, ahead, List.length_append, List.length_singleton]
          split <;> omega
        · cases h
      · cases h
    · cases h
  | take =>
    unfold ustep at h
    dsimp only at h
    split at h
    · cases h
    · injection h with h; subst h
      exact Nat.le_add_right _ _

theorem listeners_cons (e : UEv) (es : List UEv) : listeners (e :: es) = listeners [e] + listeners es := by
  cases e <;> simp [listeners, Nat.add_comm]

theorem credit_steps : ∀ (es : List UEv) (s s' : Udp), usteps s es = some s' → credit s' ≤ credit s + listeners es
  | [], s, s', h => by injection h with h; subst h; exact Nat.le_refl _
  | e :: es, s, s', h => by
    unfold usteps at h
    cases hs : ustep s e with
    | none => rw [hs] at h; cases h
    | some t =>
      rw [hs] at h
      have h1 := credit_steps es t s' h
      have h2 := credit_step hs
      rw [listeners_cons]
      omega

/-- Without `Stop` no goroutine gets past its first statement. -/
structure Idle (s : Udp) : Prop where
  log : s.log = []
  buffer : s.buffer = []
  stopping : s.stopping = none
  gos : ∀ g ∈ s.gos, g.2 = .waiting

theorem idle_step {s s' : Udp} {e : UEv} (hi : Idle s) (hne : e ≠ .stop) (h : ustep s e = some s') : Idle s' := by
  obtain ⟨h1, h2, h3, h4⟩ := hi
  have hg : ∀ (g : Nat) (i : Nat) (p : Phase), s.gos[g]? = some (i, p) → p = .waiting := fun g i p h => h4 _ (List.mem_of_getElem? h)
  cases e with
  | addSink ch =>
    simp only [ustep, h3, if_true] at h
    injection h with h; subst h
    exact ⟨h1, h2, rfl, h4⟩
  | start =>
    simp only [ustep, h3, if_true] at h
    injection h with h; subst h
    refine ⟨h1, h2, rfl, fun g hg => ?_⟩
    rcases List.mem_append.1 hg with hg | hg
    · exact h4 g hg
    · obtain ⟨i, _, rfl⟩ := List.mem_map.1 hg
      rfl
  | stop => exact absurd rfl hne
  | signal g => simp only [ustep, h3] at h; cases h
  | stopped => simp [ustep, h3] at h
  | datagram i p =>
    unfold ustep at h
    dsimp only at h
    split at h
    · split at h
      · injection h with h; subst h; exact ⟨h1, h2, h3, h4⟩
      · cases h
    · cases h
  | read g =>
    unfold ustep at h
    dsimp only at h
    split at h
    · rename_i i hr; cases hg g i _ hr
    · cases h
  | readFails g temp =>
    unfold ustep at h
    dsimp only at h
    split at h
    · rename_i i hr; cases hg g i _ hr
    · cases h
  | put g =>
    unfold ustep at h
    dsimp only at h
    split at h
    · rename_i i p hr; cases hg g i _ hr
    · cases h
  | take => simp [ustep, h2] at h

theorem idle_steps : ∀ (es : List UEv) (s s' : Udp), Idle s → .stop ∉ es → usteps s es = some s' → Idle s'
  | [], s, s', hi, _, h => by injection h with h; subst h; exact hi
  | e :: es, s, s', hi, hne, h => by
    unfold usteps at h
    cases hs : ustep s e with
    | none => rw [hs] at h; cases h
    | some t =>
      rw [hs] at h
      exact idle_steps es t s' (idle_step hi (fun he => hne (by simp [he])) hs) (fun he => hne (by simp [he])) h

/-- C62 refuted: whatever arrives, nothing is delivered until `Stop` is called (the session never calls it). -/
theorem C62_refuted (es : List UEv) (s : Udp) (h : Leads es s) (hs : .stop ∉ es) : s.log = [] :=
  (idle_steps es {} s ⟨rfl, rfl, rfl, by simp⟩ hs h).log

/-- There is such a schedule: two started listeners, datagrams on both. -/
example : ∃ s, Leads [.addSink 2, .addSink 3, .start, .datagram 0 [1, 2], .datagram 1 [3], .datagram 0 [4]] s ∧
    arrived [] [.addSink 2, .addSink 3, .start, .datagram 0 [1, 2], .datagram 1 [3], .datagram 0 [4]] = [(2, [1, 2]), (3, [3]), (2, [4])] :=
  ⟨_, rfl, by decide⟩

/-- C62 refuted: no more packets are delivered than there are listeners, however many datagrams arrive, whatever is called. -/
theorem C62_one_per_listener_refuted (es : List UEv) (s : Udp) (h : Leads es s) : s.log.length ≤ listeners es := by
  have := credit_steps es {} s h
  have h0 : credit {} = 0 := rfl
  unfold credit at this h0
  omega

/-! ## What is delivered has arrived -/

/-- The datagrams a socket holds, as they would be delivered. -/
def held (k : Sock) : List (UInt8 × Bytes) := k.rx.map fun p => (k.ch, p.take 2048)

/-- What a goroutine is about to deliver. -/
def flying (chs : List UInt8) : Nat × Phase → List (UInt8 × Bytes)
  | (i, .sending p) => match chs[i]? with
    | some ch => [(ch, p)]
    | none => []
  | _ => []

def chans (s : Udp) : List UInt8 := s.socks.map (·.ch)

def fly (x : UInt8 × Bytes) (chs : List UInt8) (g : Nat × Phase) : Nat := (flying chs g).count x
def hold (x : UInt8 × Bytes) (k : Sock) : Nat := (held k).count x

theorem fly_waiting (x : UInt8 × Bytes) (chs : List UInt8) (i : Nat) : fly x chs (i, .waiting) = 0 := rfl
theorem fly_reading (x : UInt8 × Bytes) (chs : List UInt8) (i : Nat) : fly x chs (i, .reading) = 0 := rfl
theorem fly_ended (x : UInt8 × Bytes) (chs : List UInt8) (i : Nat) : fly x chs (i, .ended) = 0 := rfl
theorem fly_sending (x : UInt8 × Bytes) {chs : List UInt8} {i : Nat} {ch : UInt8} (h : chs[i]? = some ch) (p : Bytes) : fly x chs (i, .sending p) = [(ch, p)].count x := by
  unfold fly flying; dsimp only; rw [h]
theorem hold_cons (x : UInt8 × Bytes) (ch : UInt8) (p : Bytes) (rx : List Bytes) (b : Bool) :
    hold x ⟨ch, p :: rx, b⟩ = [(ch, p.take 2048)].count x + hold x ⟨ch, rx, b⟩ := by
  unfold hold held; rw [← List.count_append]; rfl
theorem hold_snoc (x : UInt8 × Bytes) (k : Sock) (p : Bytes) : hold x { k with rx := k.rx ++ [p] } = hold x k + [(k.ch, p.take 2048)].count x := by
  unfold hold held; rw [← List.count_append, List.map_append]; rfl
theorem hold_close (x : UInt8 × Bytes) (k : Sock) : hold x { k with isOpen := false } = hold x k := rfl

/-- How often `x` was delivered, is under way or can still be read. -/
def total (x : UInt8 × Bytes) (s : Udp) : Nat :=
  s.log.count x + (s.gos.map (fly x (chans s))).sum + (s.socks.map (hold x)).sum

/-- Every goroutine and every sink has a socket. -/
def Sound (s : Udp) : Prop := (∀ g ∈ s.gos, g.1 < s.socks.length) ∧ ∀ i ∈ s.sinks, i < s.socks.length

def cutOff (x : UInt8 × Bytes) : UInt8 × Bytes := (x.1, x.2.take 2048)

theorem sum_congr {α : Type} {f g : α → Nat} : ∀ {l : List α}, (∀ a ∈ l, f a = g a) → (l.map f).sum = (l.map g).sum
  | [], _ => rfl
  | x :: l, h => by
    simp only [List.map_cons, List.sum_cons]
    rw [h x (by simp), sum_congr fun a ha => h a (by simp [ha])]

/-- The channel numbers of the listeners after a step. -/
def chansAfter (chs : List UInt8) : UEv → List UInt8
  | .addSink ch => chs ++ [ch]
  | _ => chs

theorem arrived_cons (chs : List UInt8) (e : UEv) (es : List UEv) : arrived chs (e :: es) = arrived chs [e] ++ arrived (chansAfter chs e) es := by
  cases e with
  | datagram i p => simp only [arrived, chansAfter]; cases chs[i]? <;> rfl
  | _ => rfl

theorem chans_set {s : Udp} {i : Nat} {k k' : Sock} (h : s.socks[i]? = some k) (hc : k'.ch = k.ch) : (s.socks.set i k').map (·.ch) = chans s := by
  unfold chans
  rw [List.map_set, hc]
  apply List.ext_getElem?
  intro j
  by_cases e : i = j
  · subst e
    rw [List.getElem?_set_self', List.getElem?_map, h]; rfl
  · rw [List.getElem?_set_ne e]

theorem chan_at {s : Udp} {i : Nat} {k : Sock} (h : s.socks[i]? = some k) : (chans s)[i]? = some k.ch := by
  unfold chans; rw [List.getElem?_map, h]; rfl

theorem sound_set {s : Udp} {g i : Nat} {p q : Phase} (hs : Sound s) (h : s.gos[g]? = some (i, p)) : ∀ x ∈ s.gos.set g (i, q), x.1 < s.socks.length := by
  intro x hx
  rcases List.mem_or_eq_of_mem_set hx with hx | hx
  · exact hs.1 x hx
  · subst hx; exact hs.1 (i, p) (List.mem_of_getElem? h)

theorem total_step (x : UInt8 × Bytes) {s s' : Udp} {e : UEv} (hs : Sound s) (h : ustep s e = some s') :
    Sound s' ∧ chans s' = chansAfter (chans s) e ∧ total x s' = total x s + ((arrived (chans s) [e]).map cutOff).count x := by
  cases e with
  | addSink ch =>
    unfold ustep at h
    dsimp only at h
    split at h
    · injection h with h; subst h
      refine ⟨⟨fun g hg => ?_, fun i hi => ?_⟩, ?_, ?_⟩
      · have := hs.1 g hg; simp only [List.length_append]; omega
      · simp only [List.length_append, List.length_singleton]
        rcases List.mem_append.1 hi with hi | hi
        · have := hs.2 i hi; omega
        · rw [List.mem_singleton] at hi; omega
      · simp [chans, chansAfter]
      · have e1 : (s.gos.map (fly x ((s.socks ++ [({ ch := ch } : Sock)]).map (·.ch)))).sum = (s.gos.map (fly x (chans s))).sum := by
          refine sum_congr fun g hg => ?_
          have hl := hs.1 g hg
          obtain ⟨i, p⟩ := g
          have : ((s.socks ++ [({ ch := ch } : Sock)]).map (·.ch))[i]? = (chans s)[i]? := by
            unfold chans
            rw [List.map_append, List.getElem?_append_left (by simpa using hl)]
          cases p with
          | sending q => unfold fly flying; dsimp only; rw [this]
          | _ => rfl
        simp only [total, chans, List.map_append, List.sum_append] at e1 ⊢
        rw [e1]
        simp [hold, held, arrived]
    · cases h
  | start =>
    unfold ustep at h
    dsimp only at h
    split at h
    · rename_i hst
      injection h with h; subst h
      refine ⟨?_, rfl, ?_⟩
      · refine ⟨fun g hg => ?_, hs.2⟩
        rcases List.mem_append.1 hg with hg | hg
        · exact hs.1 g hg
        · obtain ⟨i, hi, rfl⟩ := List.mem_map.1 hg
          exact hs.2 i hi
      · simp only [total, chans, arrived, List.map_append, List.sum_append, List.map_map, List.map_nil, List.count_nil]
        rw [show ((s.sinks.map (fly x (s.socks.map (·.ch)) ∘ fun i => (i, Phase.waiting))).sum) = 0 from sum_zero _ _ fun a _ => rfl]
        omega
    · cases h
  | stop =>
    unfold ustep at h
    dsimp only at h
    split at h
    · injection h with h; subst h
      exact ⟨hs, rfl, rfl⟩
    · cases h
  | signal g =>
    unfold ustep at h
    dsimp only at h
    split at h
    · rename_i i is j h1 h2
      split at h
      · injection h with h; subst h
        have := sum_set (fly x (chans s)) s.gos g (j, .waiting) (j, .reading) h2
        simp only [fly_waiting, fly_reading] at this
        exact ⟨⟨sound_set hs h2, hs.2⟩, rfl, by simp only [total, chans, arrived, List.map_nil, List.count_nil] at this ⊢; omega⟩
      · cases h
    · cases h
  | stopped =>
    unfold ustep at h
    dsimp only at h
    split at h
    · injection h with h; subst h
      exact ⟨⟨hs.1, by simp⟩, rfl, rfl⟩
    · cases h
  | datagram i p =>
    unfold ustep at h
    dsimp only at h
    split at h
    · rename_i k hk
      split at h
      · injection h with h; subst h
        have hc : (s.socks.set i { k with rx := k.rx ++ [p] }).map (·.ch) = chans s := chans_set hk rfl
        have := sum_set (hold x) s.socks i k { k with rx := k.rx ++ [p] } hk
        rw [hold_snoc] at this
        refine ⟨⟨fun g hg => by have := hs.1 g hg; simpa using this, fun i hi => by have := hs.2 i hi; simpa using this⟩, hc, ?_⟩
        simp only [total, arrived, chan_at hk, List.map_cons, List.map_nil, cutOff]
        rw [show chans ({ s with socks := s.socks.set i { k with rx := k.rx ++ [p] } } : Udp) = chans s from hc]
        omega
      · cases h
    · cases h
  | read g =>
    unfold ustep at h
    dsimp only at h
    split at h
    · rename_i i h2
      split at h
      · injection h with h; subst h
        rename_i ch p rx h3
        have hc : (s.socks.set i ⟨ch, rx, true⟩).map (·.ch) = chans s := chans_set h3 rfl
        have t1 := sum_set (fly x (chans s)) s.gos g (i, .reading) (i, .sending (p.take 2048)) h2
        have t2 := sum_set (hold x) s.socks i ⟨ch, p :: rx, true⟩ ⟨ch, rx, true⟩ h3
        rw [fly_sending x (chan_at h3), fly_reading] at t1
        rw [hold_cons] at t2
        dsimp only at t1
        refine ⟨⟨fun y hy => by have := sound_set hs h2 y hy; simpa using this, fun i hi => by have := hs.2 i hi; simpa using this⟩, hc, ?_⟩
        simp only [total, arrived, List.map_nil, List.count_nil]
        rw [show chans ({ s with socks := s.socks.set i ⟨ch, rx, true⟩, gos := s.gos.set g (i, .sending (p.take 2048)) } : Udp) = chans s from hc]
        omega
      · cases h
    · cases h
  | readFails g temp =>
    unfold ustep at h
    dsimp only at h
    split at h
    · rename_i i h2
      split at h
      · injection h with h; subst h
        have := sum_set (fly x (chans s)) s.gos g (i, .reading) (i, .waiting) h2
        simp only [fly_waiting, fly_reading] at this
        exact ⟨⟨sound_set hs h2, hs.2⟩, rfl, by simp only [total, chans, arrived, List.map_nil, List.count_nil] at this ⊢; omega⟩
      · split at h
        · rename_i k hk
          injection h with h; subst h
          have hc : (s.socks.set i { k with isOpen := false }).map (·.ch) = chans s := chans_set hk rfl
          have t1 := sum_set (fly x (chans s)) s.gos g (i, .reading) (i, .ended) h2
          have t2 := sum_set (hold x) s.socks i k { k with isOpen := false } hk
          simp only [fly_reading, fly_ended] at t1
          rw [hold_close] at t2
          refine ⟨⟨fun y hy => by have := sound_set hs h2 y hy; simpa using this, fun i hi => by have := hs.2 i hi; simpa using this⟩, hc, ?_⟩
          simp only [total, arrived, List.map_nil, List.count_nil]
          rw [show chans ({ s with gos := s.gos.set g (i, .ended), socks := s.socks.set i { k with isOpen := false } } : Udp) = chans s from hc]
          omega
        · cases h
    · cases h
  | put g =>
    unfold ustep at h
    dsimp only at h
    split at h
    · rename_i i p h2
      split at h
      · rename_i k hk
        split at h
        · injection h with h; subst h
          have := sum_set (fly x (chans s)) s.gos g (i, .sending p) (i, .waiting) h2
          rw [fly_sending x (chan_at hk), fly_waiting] at this
          exact ⟨⟨sound_set hs h2, hs.2⟩, rfl, by simp only [total, chans, arrived, List.map_nil, List.count_nil, List.count_append] at this ⊢; omega⟩
        · cases h
      · cases h
    · cases h
  | take =>
    unfold ustep at h
    dsimp only at h
    split at h
    · cases h
    · injection h with h; subst h
      exact ⟨hs, rfl, rfl⟩

theorem total_steps (x : UInt8 × Bytes) : ∀ (es : List UEv) (s s' : Udp), Sound s → usteps s es = some s' →
    total x s' = total x s + ((arrived (chans s) es).map cutOff).count x
  | [], s, s', _, h => by injection h with h; subst h; simp [arrived]
  | e :: es, s, s', hs, h => by
    unfold usteps at h
    cases ht : ustep s e with
    | none => rw [ht] at h; cases h
    | some t =>
      rw [ht] at h
      obtain ⟨h1, h2, h3⟩ := total_step x hs ht
      rw [total_steps x es t s' h1 h, h2, h3, arrived_cons (chans s) e es, List.map_append, List.count_append]
      omega

/-- C62, what holds: whatever is called and in whatever order things happen, a packet is delivered on a channel at most as often as a datagram with that
content (cut off after 2048 bytes) arrived at a listener with that channel number: nothing is invented, repeated or moved to another channel. Missing for the
full claim: that all of them are delivered, which is false. -/
theorem C62_faithful_partial (es : List UEv) (s : Udp) (h : Leads es s) (x : UInt8 × Bytes) :
    s.log.count x ≤ ((arrived [] es).map fun d => (d.1, d.2.take 2048)).count x := by
  have := total_steps x es {} s ⟨by simp, by simp⟩ h
  have h0 : total x {} = 0 := rfl
  rw [h0, Nat.zero_add] at this
  have h1 : ((arrived (chans {}) es).map cutOff).count x = ((arrived [] es).map fun d => (d.1, d.2.take 2048)).count x := rfl
  rw [← h1, ← this]
  unfold total
  omega

/-- `Stop` makes each listener deliver one datagram. -/
example : ∃ s, Leads [.addSink 2, .addSink 3, .start, .datagram 0 [1, 2], .datagram 1 [3], .datagram 0 [4], .stop, .signal 0, .read 0, .signal 1, .stopped, .put 0, .read 1, .take, .put 1] s ∧
    s.log = [(2, [1, 2]), (3, [3])] ∧ s.buffer = [(3, [3])] := ⟨_, rfl, by decide, by decide⟩

/-! ## C71 -/

/-- No socket is closed and no goroutine has ended. -/
def AllOpen (s : Udp) : Prop := (∀ k ∈ s.socks, k.isOpen = true) ∧ ∀ g ∈ s.gos, g.2 ≠ .ended

theorem allOpen_step {s s' : Udp} {e : UEv} (hi : AllOpen s) (hne : ∀ g, e ≠ .readFails g false) (h : ustep s e = some s') : AllOpen s' := by
  obtain ⟨h1, h2⟩ := hi
  have hset : ∀ (l : List Sock) (i : Nat) (k : Sock), k.isOpen = true → (∀ k ∈ l, k.isOpen = true) → ∀ x ∈ l.set i k, x.isOpen = true := by
    intro l i k hk hl x hx
    rcases List.mem_or_eq_of_mem_set hx with hx | hx
    · exact hl x hx
    · subst hx; exact hk
  have gset : ∀ (g i : Nat) (p : Phase), p ≠ .ended → ∀ x ∈ s.gos.set g (i, p), x.2 ≠ .ended := by
    intro g i p hp x hx
    rcases List.mem_or_eq_of_mem_set hx with hx | hx
    · exact h2 x hx
    · subst hx; exact hp
  cases e with
  | addSink ch =>
    unfold ustep at h
    dsimp only at h
    split at h
    · injection h with h; subst h
      refine ⟨fun k hk => ?_, h2⟩
      rcases List.mem_append.1 hk with hk | hk
      · exact h1 k hk
      · rw [List.mem_singleton] at hk; subst hk; rfl
    · cases h
  | start =>
    unfold ustep at h
    dsimp only at h
    split at h
    · injection h with h; subst h
      refine ⟨h1, fun g hg => ?_⟩
      rcases List.mem_append.1 hg with hg | hg
      · exact h2 g hg
      · obtain ⟨i, _, rfl⟩ := List.mem_map.1 hg
        exact fun h => by (cases h)
    · cases h
  | stop =>
    unfold ustep at h
    dsimp only at h
    split at h
    · injection h with h; subst h; exact ⟨h1, h2⟩
    · cases h
  | signal g =>
    unfold ustep at h
    dsimp only at h
    split at h
    · split at h
      · injection h with h; subst h; exact ⟨h1, gset g _ _ (fun h => by (cases h))⟩
      · cases h
    · cases h
  | stopped =>
    unfold ustep at h
    dsimp only at h
    split at h
    · injection h with h; subst h; exact ⟨h1, h2⟩
    · cases h
  | datagram i p =>
    unfold ustep at h
    dsimp only at h
    split at h
    · split at h
      · rename_i k hk ho
        injection h with h; subst h
        exact ⟨hset _ _ _ ho h1, h2⟩
      · cases h
    · cases h
  | read g =>
    unfold ustep at h
    dsimp only at h
    split at h
    · split at h
      · injection h with h; subst h
        exact ⟨hset _ _ _ rfl h1, gset g _ _ (fun h => by (cases h))⟩
      · cases h
    · cases h
  | readFails g temp =>
    cases temp with
    | false => exact absurd rfl (hne g)
    | true =>
      unfold ustep at h
      dsimp only at h
      split at h
      · rw [if_pos rfl] at h
        injection h with h; subst h; exact ⟨h1, gset g _ _ (fun h => by (cases h))⟩
      · cases h
  | put g =>
    unfold ustep at h
    dsimp only at h
    split at h
    · split at h
      · split at h
        · injection h with h; subst h; exact ⟨h1, gset g _ _ (fun h => by (cases h))⟩
        · cases h
      · cases h
    · cases h
  | take =>
    unfold ustep at h
    dsimp only at h
    split at h
    · cases h
    · injection h with h; subst h; exact ⟨h1, h2⟩

theorem allOpen_steps : ∀ (es : List UEv) (s s' : Udp), AllOpen s → (∀ g, .readFails g false ∉ es) → usteps s es = some s' → AllOpen s'
  | [], s, s', hi, _, h => by injection h with h; subst h; exact hi
  | e :: es, s, s', hi, hne, h => by
    unfold usteps at h
    cases hs : ustep s e with
    | none => rw [hs] at h; cases h
    | some t =>
      rw [hs] at h
      exact allOpen_steps es t s' (allOpen_step hi (fun g he => hne g (by simp [he])) hs) (fun g he => hne g (by simp [he])) h

/-- C71 refuted: whatever is called, a listener is closed only when reading from it fails; `Stop` closes none. -/
theorem C71_never_closed_refuted (es : List UEv) (s : Udp) (h : Leads es s) (hne : ∀ g, .readFails g false ∉ es) :
    (∀ k ∈ s.socks, k.isOpen = true) ∧ ∀ g ∈ s.gos, g.2 ≠ .ended :=
  allOpen_steps es {} s ⟨by simp, by simp⟩ hne h

/-- There is such a schedule, in which `Stop` has returned. -/
example : ∃ s, Leads [.addSink 2, .start, .datagram 0 [1], .stop, .signal 0, .stopped, .read 0, .put 0] s ∧ s.stopping = none ∧
    s.socks = [⟨2, [], true⟩] ∧ s.gos = [(0, .waiting)] := ⟨_, rfl, by decide, by decide, by decide⟩

theorem stuck_steps : ∀ (es : List UEv) (s s' : Udp), s.gos = [] → s.stopping = some [0] → usteps s es = some s' → s'.stopping = some [0]
  | [], s, s', _, h2, h => by injection h with h; subst h; exact h2
  | e :: es, s, s', h1, h2, h => by
    unfold usteps at h
    cases hs : ustep s e with
    | none => rw [hs] at h; cases h
    | some t =>
      rw [hs] at h
      have : t.gos = [] ∧ t.stopping = some [0] := by
        cases e <;> simp only [ustep, h1, h2] at hs
        case datagram =>
          split at hs
          · split at hs
            · injection hs with hs; subst hs; exact ⟨rfl, rfl⟩
            · cases hs
          · cases hs
        case take =>
          split at hs
          · cases hs
          · injection hs with hs; subst hs; exact ⟨rfl, rfl⟩
        all_goals (exfalso; simp at hs)
      exact stuck_steps es t s' this.1 this.2 h

/-- C71 refuted: `Stop` before `Start` never returns. -/
theorem C71_blocks_refuted (ch : UInt8) (es : List UEv) (s : Udp) (h : Leads (.addSink ch :: .stop :: es) s) : s.stopping ≠ none := by
  have := stuck_steps es ⟨[{ ch }], [0], [], some [0], [], []⟩ s rfl rfl h
  rw [this]
  exact fun h => by (cases h)

example : ∃ s, Leads [.addSink 2, .stop, .datagram 0 [1], .datagram 0 [2]] s := ⟨_, rfl⟩

end Ouro
