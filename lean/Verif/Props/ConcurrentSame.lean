import Verif.Props.Concurrent
import Verif.Spec.Session
import Verif.Lemmas.SetupAll
/-! # C56: with one goroutine the concurrent model does what the session model does -/
namespace Ouro
open Spec

/-- The shared memory of the concurrent model is that of the session; `reqs` are the requests of the calls, in the order of the calls. -/
structure SameMemory (s : Sess) (sh : Shared) (reqs : List Request) : Prop where
  cseq : sh.cseq = s.cseq
  calls : sh.calls.length = reqs.length
  queue : s.queue.map (fun e => (e.1, some e.2)) = sh.queue.map fun e => ((e.1 : Int), reqs[e.2]?)
  wire : newSeqs s.out = sh.wire.map fun e => (e.1 : Int)

theorem callAuth_memory {w : World} {s s' : Sess} {verb a : Bytes} (h : callAuth w s verb = .ok (a, s')) :
    s'.cseq = s.cseq ∧ s'.queue = s.queue ∧ s'.out = s.out ∧ s'.session = s.session := by
  unfold callAuth at h
  split at h
  · cases h; exact ⟨rfl, rfl, rfl, rfl⟩
  · split at h
    · cases h
    · cases h; exact ⟨rfl, rfl, rfl, rfl⟩

/-- A call that runs from its beginning to its end with nothing in between. -/
theorem call_alone (sh : Shared) :
    [Turn.call, .go sh.calls.length, .go sh.calls.length, .go sh.calls.length, .go sh.calls.length].foldl turn sh =
      ⟨sh.cseq + 1, (sh.queue.filter fun e => e.1 ≠ sh.cseq + 1) ++ [(sh.cseq + 1, sh.calls.length)], sh.calls ++ [.done (sh.cseq + 1)],
        (sh.cseq + 1, sh.calls.length) :: sh.wire⟩ := by
  simp [turn]

theorem writeReq_memory {w : World} {s s' : Sess} {retry : Bool} {req : Request} {e : Option SErr} (h : writeReq w s retry req = .ok (s', e)) :
    s'.cseq = s.cseq ∧ s'.queue = s.queue ∧ ∃ res, s'.out = .sent retry req res :: s.out := by
  unfold writeReq at h
  split at h
  · cases h
  · dsimp only at h
    split at h <;> (cases h; exact ⟨rfl, rfl, _, rfl⟩)

theorem queue_drop {q : List (Int × Request)} {r : List (Nat × Nat)} {reqs : List Request} (c : Nat)
    (h : q.map (fun e => (e.1, some e.2)) = r.map fun e => ((e.1 : Int), reqs[e.2]?)) :
    (q.filter fun e => e.1 ≠ (c : Int)).map (fun e => (e.1, some e.2)) = (r.filter fun e => e.1 ≠ c).map fun e => ((e.1 : Int), reqs[e.2]?) := by
  induction q generalizing r with
  | nil =>
    cases r with
    | nil => rfl
    | cons x r => cases h
  | cons y q ih =>
    cases r with
    | nil => cases h
    | cons x r =>
      rw [List.map_cons, List.map_cons] at h
      injection h with h1 h2
      injection h1 with h1 h3
      have := ih h2
      by_cases hc : x.1 = c
      · rw [List.filter_cons_of_neg (by simp [h1, hc]), List.filter_cons_of_neg (by simp [hc])]
        exact this
      · rw [List.filter_cons_of_pos (by simp [h1]; omega), List.filter_cons_of_pos (by simp [hc]), List.map_cons, List.map_cons, this, h1, h3]

theorem queue_grow {q : List (Int × Request)} {r : List (Nat × Nat)} {reqs : List Request} (req : Request)
    (h : q.map (fun e => (e.1, some e.2)) = r.map fun e => ((e.1 : Int), reqs[e.2]?)) :
    q.map (fun e => (e.1, some e.2)) = r.map fun e => ((e.1 : Int), (reqs ++ [req])[e.2]?) := by
  rw [h]
  apply List.map_congr_left
  intro e he
  have : ((e.1 : Int), reqs[e.2]?) ∈ q.map (fun e => (e.1, some e.2)) := h ▸ List.mem_map_of_mem (f := fun e : Nat × Nat => ((e.1 : Int), reqs[e.2]?)) he
  obtain ⟨x, _, hx⟩ := List.mem_map.1 this
  injection hx with _ hx
  rw [← hx, List.getElem?_append_left (List.getElem?_eq_some_iff.1 hx.symm).1, ← hx]

/-- **C56**: a call of `command` in the session model is a call in the concurrent model that runs from its beginning to its end with nothing in between:
the counter, the queue and the numbers written are the same. -/
theorem C56_same_command {w : World} {s s' : Sess} {sh : Shared} {reqs : List Request} (h : SameMemory s sh reqs) (ho : s.opened = true) {verb uri : Bytes}
    {hs : Header} {e : Option SErr} (hc : command w s verb uri hs = .ok (s', e)) :
    ∃ req : Request, req.verb = verb ∧ req.uri = uri ∧ req.cseq = (s.cseq + 1 : Nat) ∧
      SameMemory s' ([Turn.call, .go reqs.length, .go reqs.length, .go reqs.length, .go reqs.length].foldl turn sh) (reqs ++ [req]) := by
  unfold command at hc
  rw [if_neg (by simp [ho])] at hc
  cases ha : callAuth w s verb with
  | error p => rw [ha] at hc; cases hc
  | ok r =>
    obtain ⟨a, s1⟩ := r
    obtain ⟨h1, h2, h3, h4⟩ := callAuth_memory ha
    rw [ha] at hc
    dsimp only [enqueue] at hc
    obtain ⟨g1, g2, res, g3⟩ := writeReq_memory hc
    dsimp only at g1 g2 g3
    rw [h1] at g1 g2 g3
    rw [h2] at g2
    rw [h3] at g3
    refine ⟨Request.mk verb (s.cseq + 1 : Nat) uri a s1.session (hs.foldl (fun h e => h.set e.1 e.2) []), rfl, rfl, rfl, ?_⟩
    rw [← h.calls, call_alone]
    refine ⟨by rw [g1, h.cseq], by simp [h.calls], ?_, ?_⟩
    · rw [g2, List.map_append, List.map_append]
      congr 1
      · rw [h.cseq]
        exact queue_grow _ (queue_drop (s.cseq + 1) h.queue)
      · rw [List.map_singleton, List.map_singleton, h.calls, List.getElem?_concat_length, h.cseq]
    · rw [g3]
      show _ :: newSeqs s.out = _ :: _
      rw [h.wire, h.cseq]

/-- **C56**: taking a request from the queue is the same in both. -/
theorem C56_same_remove {s : Sess} {sh : Shared} {reqs : List Request} (h : SameMemory s sh reqs) (c : Nat) :
    SameMemory (s.remove c) (turn sh (.dequeue c)) reqs :=
  ⟨h.cseq, h.calls, queue_drop c h.queue, h.wire⟩

/-- At the beginning they are the same. -/
theorem C56_same_start : SameMemory newSession {} [] := ⟨rfl, rfl, rfl, rfl⟩

/-- Commands of one goroutine, and answers taken in between. -/
inductive OneCall
  | command (verb uri : Bytes) (headers : Header)
  | answered (cseq : Nat)

/-- The session model on these; a command that cannot be written does not keep the next one from being tried. -/
def plainRun (w : World) (s : Sess) : List OneCall → Go Sess
  | [] => .ok s
  | .command verb uri hs :: ps => match command w s verb uri hs with
    | .error p => .error p
    | .ok (s, _) => plainRun w s ps
  | .answered c :: ps => plainRun w (s.remove c) ps

/-- The schedule of one goroutine; the calls so far are counted. -/
def plainTurns : Nat → List OneCall → List Turn
  | _, [] => []
  | n, .command _ _ _ :: ps => [.call, .go n, .go n, .go n, .go n] ++ plainTurns (n + 1) ps
  | n, .answered c :: ps => .dequeue c :: plainTurns n ps

theorem command_opened {w : World} {s s' : Sess} {verb uri : Bytes} {hs : Header} {e : Option SErr} (h : command w s verb uri hs = .ok (s', e)) :
    s'.opened = s.opened := by
  exact (command_static h).1

/-- **C56**: for every sequence of commands of one goroutine, with answers taken in between, the counter, the queue and the numbers written are the same
in the concurrent model, with the calls one after another, and in the session model: the two models of `command` agree. -/
theorem C56_same_run (w : World) (ps : List OneCall) : ∀ (s s' : Sess) (sh : Shared) (reqs : List Request), SameMemory s sh reqs → s.opened = true →
    plainRun w s ps = .ok s' → ∃ more, SameMemory s' ((plainTurns reqs.length ps).foldl turn sh) (reqs ++ more) := by
  induction ps with
  | nil => intro s s' sh reqs h _ hr; cases hr; exact ⟨[], by rw [List.append_nil]; exact h⟩
  | cons p ps ih =>
    intro s s' sh reqs h ho hr
    cases p with
    | command verb uri hs =>
      unfold plainRun at hr
      cases hc : command w s verb uri hs with
      | error q => rw [hc] at hr; cases hr
      | ok r =>
        obtain ⟨s1, e⟩ := r
        rw [hc] at hr
        obtain ⟨req, _, _, _, h1⟩ := C56_same_command h ho hc
        obtain ⟨more, h2⟩ := ih s1 s' _ _ h1 ((command_opened hc).trans ho) hr
        refine ⟨req :: more, ?_⟩
        show SameMemory s' (([Turn.call, .go reqs.length, .go reqs.length, .go reqs.length, .go reqs.length] ++ plainTurns (reqs.length + 1) ps).foldl turn sh) _
        rw [List.foldl_append]
        rw [List.length_append] at h2
        simpa using h2
    | answered c =>
      obtain ⟨more, h2⟩ := ih (s.remove c) s' _ _ (C56_same_remove h c) ho hr
      exact ⟨more, h2⟩

/-- Two commands, an answer to the first, and another command, in a session of the demonstrations. -/
example : ∃ s s' : Sess, run demoWorld newSession [demoOpen] = .ok s ∧ s.opened = true ∧ SameMemory s (([.call, .go 0, .go 0, .go 0, .go 0] : List Turn).foldl turn {}) (s.queue.map (·.2)) ∧
    plainRun demoWorld s [.command b!"PLAY" b!"u" [], .answered 1, .command b!"PAUSE" b!"u" []] = .ok s' ∧ newSeqs s'.out = [3, 2, 1] := by
  refine ⟨_, _, rfl, rfl, ⟨rfl, rfl, rfl, rfl⟩, rfl, by decide +kernel⟩

end Ouro
