import Verif.Spec.Program
import Verif.Props.Main
/-! # C143: arguments and exit status -/
namespace Ouro
open Spec

theorem takeWhile_help (v : Bytes) (hv : v = [] ∨ v.head? = some 0x3D) (x : Bytes) (hx : ∀ b ∈ x, b ≠ 0x3D) : (x ++ v).takeWhile (· ≠ 0x3D) = x := by
  rw [List.takeWhile_append_of_pos (fun b hb => by simpa using hx b hb)]
  rcases hv with rfl | hv
  · simp
  · cases v with
    | nil => simp
    | cons c v =>
      injection hv with hv; subst hv
      simp

theorem flagName_split {name w : Bytes} (hw : w ≠ []) (h : flagName name = w) : ∃ v, name = w ++ v ∧ (v = [] ∨ v.head? = some 0x3D) := by
  cases name with
  | nil => exact absurd h.symm hw
  | cons c t =>
    refine ⟨t.dropWhile (· ≠ 0x3D), ?_, ?_⟩
    · rw [← h]
      show c :: t = c :: (t.takeWhile _ ++ _)
      rw [List.takeWhile_append_dropWhile]
    · cases hd : t.dropWhile (· ≠ 0x3D) with
      | nil => exact .inl rfl
      | cons x y =>
        right
        have := List.head?_dropWhile_not (· ≠ (0x3D : UInt8)) t
        rw [hd] at this
        simp at this
        rw [this]; rfl

theorem flagEnd_help (name : Bytes) : flagEnd name = .help ↔ ∃ word value, name = word ++ value ∧ (word = b!"h" ∨ word = b!"help") ∧ (value = [] ∨ value.head? = some 0x3D) := by
  unfold flagEnd
  constructor
  · intro h
    by_cases h1 : name.head? = some 0x2D ∨ name.head? = some 0x3D
    · rw [if_pos h1] at h; cases h
    · rw [if_neg h1] at h
      by_cases h2 : flagName name = b!"help" ∨ flagName name = b!"h"
      · rcases h2 with e | e
        · obtain ⟨v, hv, hv'⟩ := flagName_split (by decide) e
          exact ⟨_, v, hv, .inr rfl, hv'⟩
        · obtain ⟨v, hv, hv'⟩ := flagName_split (by decide) e
          exact ⟨_, v, hv, .inl rfl, hv'⟩
      · rw [if_neg h2] at h; cases h
  · rintro ⟨word, v, rfl, hw, hv⟩
    rcases hw with rfl | rfl
    · have hn : flagName (b!"h" ++ v) = b!"h" := by
        show _ :: (([] : Bytes) ++ v).takeWhile _ = _
        rw [takeWhile_help v hv [] (by simp)]
      rw [if_neg (by rintro (h | h) <;> injection h with h <;> exact absurd h (by decide)), if_pos (.inr hn)]
    · have hn : flagName (b!"help" ++ v) = b!"help" := by
        show _ :: (b!"elp" ++ v).takeWhile _ = _
        rw [takeWhile_help v hv b!"elp" (by decide)]
      rw [if_neg (by rintro (h | h) <;> injection h with h <;> exact absurd h (by decide)), if_pos (.inl hn)]

theorem flagEnd_rest (name : Bytes) (r : List Bytes) : flagEnd name ≠ .rest r := by
  unfold flagEnd
  by_cases h1 : name.head? = some 0x2D ∨ name.head? = some 0x3D
  · rw [if_pos h1]; intro h; cases h
  · rw [if_neg h1]
    by_cases h2 : flagName name = b!"help" ∨ flagName name = b!"h"
    · rw [if_pos h2]; intro h; cases h
    · rw [if_neg h2]; intro h; cases h

theorem dashes_eq {dash x t : Bytes} {c : UInt8} (h : 0x2D :: c :: t = dash ++ x) (hd : dash = b!"-" ∨ dash = b!"--") (hx : x.head? ≠ some 0x2D) :
    (c ≠ 0x2D ∧ x = c :: t ∧ dash = b!"-") ∨ (c = 0x2D ∧ x = t ∧ dash = b!"--") := by
  rcases hd with rfl | rfl
  · injection h with _ h
    refine .inl ⟨fun hc => hx ?_, h.symm, rfl⟩
    show x.head? = _
    rw [← hc, show x = c :: t from h.symm]; rfl
  · injection h with _ h; injection h with h1 h
    exact .inr ⟨h1, h.symm, rfl⟩

/-- What `flag.Parse` makes of the arguments. -/
theorem flagParse_help (args : List Bytes) : flagParse args = .help ↔ AsksHelp args := by
  unfold flagParse
  split
  · exact ⟨fun h => (by cases h), fun ⟨_, _, _, _, h, _⟩ => (by cases h)⟩
  · next s rest =>
    split
    · next c t =>
      by_cases hc : c = 0x2D
      · rw [if_pos hc]
        by_cases ht : t = []
        · rw [if_pos ht]
          refine ⟨fun h => (by cases h), fun ⟨dash, word, v, r, h, hd, hw, hv⟩ => ?_⟩
          injection h with h _
          rw [List.append_assoc] at h
          rcases dashes_eq h hd (by rcases hw with rfl | rfl <;> simp) with ⟨h1, -, -⟩ | ⟨-, h2, -⟩
          · exact absurd hc h1
          · rw [ht] at h2; rcases hw with rfl | rfl <;> cases h2
        · rw [if_neg ht, flagEnd_help]
          constructor
          · rintro ⟨word, v, rfl, hw, hv⟩
            exact ⟨b!"--", word, v, rest, by rw [hc, List.append_assoc]; rfl, .inr rfl, hw, hv⟩
          · rintro ⟨dash, word, v, r, h, hd, hw, hv⟩
            injection h with h _
            rw [List.append_assoc] at h
            rcases dashes_eq h hd (by rcases hw with rfl | rfl <;> simp) with ⟨h1, -, -⟩ | ⟨-, h2, -⟩
            · exact absurd hc h1
            · exact ⟨word, v, h2.symm, hw, hv⟩
      · rw [if_neg hc, flagEnd_help]
        constructor
        · rintro ⟨word, v, e, hw, hv⟩
          exact ⟨b!"-", word, v, rest, by rw [e, List.append_assoc]; rfl, .inl rfl, hw, hv⟩
        · rintro ⟨dash, word, v, r, h, hd, hw, hv⟩
          injection h with h _
          rw [List.append_assoc] at h
          rcases dashes_eq h hd (by rcases hw with rfl | rfl <;> simp) with ⟨-, h2, -⟩ | ⟨h1, -, -⟩
          · exact ⟨word, v, h2.symm, hw, hv⟩
          · exact absurd h1 hc
    · next hno =>
      refine ⟨fun h => (by cases h), fun ⟨dash, word, v, r, h, hd, hw, hv⟩ => ?_⟩
      injection h with h _
      exfalso
      rcases hd with rfl | rfl <;> rcases hw with rfl | rfl <;> exact hno _ _ h

theorem flagParse_one (args : List Bytes) (u : Bytes) : flagParse args = .rest [u] ↔ GivenAddress args u := by
  unfold flagParse
  split
  · exact ⟨fun h => (by injection h with h; cases h), fun h => (by rcases h with ⟨h, -⟩ | h <;> cases h)⟩
  · next s rest =>
    split
    · next c t =>
      by_cases hc : c = 0x2D
      · rw [if_pos hc]
        by_cases ht : t = []
        · rw [if_pos ht]
          subst hc; subst ht
          constructor
          · intro h; injection h with h; exact .inr (by rw [h])
          · rintro (⟨h, hd⟩ | h)
            · injection h with h _; exact absurd ⟨_, _, h.symm⟩ hd
            · injection h with _ h; rw [h]
        · rw [if_neg ht]
          refine ⟨fun h => absurd h (flagEnd_rest _ _), ?_⟩
          rintro (⟨h, hd⟩ | h)
          · injection h with h _; exact absurd ⟨_, _, h.symm⟩ hd
          · injection h with h _; injection h with _ h; injection h with _ h; exact absurd h ht
      · rw [if_neg hc]
        refine ⟨fun h => absurd h (flagEnd_rest _ _), ?_⟩
        rintro (⟨h, hd⟩ | h)
        · injection h with h _; exact absurd ⟨_, _, h.symm⟩ hd
        · injection h with h _; injection h with _ h; injection h with h _; exact absurd h hc
    · next hno =>
      constructor
      · intro h; injection h with h
        refine .inl ⟨h, fun ⟨c, t, e⟩ => ?_⟩
        injection h with h _
        exact hno c t (h.trans e)
      · rintro (⟨h, hd⟩ | h)
        · rw [h]
        · injection h with h _; exact absurd h (hno _ _)

/-! ## How a client ends -/

/-- No end in this. -/
def NoEnd (t : List Act) : Prop := ∀ x, .ended x ∉ t

/-- The last thing a client that has ended did is to end, and it ends once. -/
def EndLast (c : Client) : Prop := (c.ended = true ∧ ∃ why older, c.trace = .ended why :: older ∧ NoEnd older) ∨ (c.ended = false ∧ NoEnd c.trace)

theorem NoEnd.cons {t : List Act} (h : NoEnd t) {a : Act} (ha : ∀ x, a ≠ .ended x) : NoEnd (a :: t) := fun x hx => by
  rcases List.mem_cons.1 hx with e | e
  · exact ha x e.symm
  · exact h x e

theorem adopt_noEnd {c : Client} (h : NoEnd c.trace) (s : Sess) : NoEnd (c.adopt s).trace := fun x hx => by
  rcases List.mem_append.1 hx with hx | hx
  · obtain ⟨o, _, e⟩ := List.mem_map.1 hx; cases e
  · exact h x hx

theorem order_last {c c' : Client} {r : Go (Sess × Option SErr)} (hne : c.ended = false) (ht : NoEnd c.trace) (h : c.order r = .ok c') : EndLast c' := by
  unfold Client.order at h
  split at h
  · cases h
  · injection h with h; subst h; exact .inr ⟨hne, adopt_noEnd ht _⟩
  · injection h with h; subst h; exact .inl ⟨rfl, _, _, rfl, adopt_noEnd ht _⟩

theorem read_last {w : World} {c c' : Client} (ht : NoEnd c.trace) (h : clientRead w c = .ok c') : c'.ended = c.ended ∧ NoEnd c'.trace := by
  unfold clientRead at h
  split at h
  · split at h
    · injection h with h; subst h; exact ⟨rfl, ht⟩
    · injection h with h; subst h; exact ⟨rfl, ht⟩
    · split at h
      · cases h
      · injection h with h; subst h; exact ⟨rfl, adopt_noEnd (c := { c with rdr := _, running := _ }) ht _⟩
  · injection h with h; subst h; exact ⟨rfl, ht⟩

theorem step_last {w : World} {c c' : Client} {e : CEv} (hi : EndLast c) (h : cstep w c e = .ok c') : EndLast c' := by
  unfold cstep at h
  rcases hi with hi | ⟨hne, ht⟩
  · rw [if_pos hi.1] at h; injection h with h; subst h; exact .inl hi
  rw [if_neg (by rw [hne]; decide)] at h
  cases e with
  | read => obtain ⟨h1, h2⟩ := read_last ht h; exact .inr ⟨h1.trans hne, h2⟩
  | expire => injection h with h; subst h; exact .inr (by split <;> exact ⟨hne, ht⟩)
  | timer =>
    have ht' : NoEnd (.timer :: c.trace) := ht.cons fun _ => nofun
    unfold clientTimer at h
    dsimp only at h
    split at h
    · split at h
      · exact order_last (c := { c with fired := false, trace := .timer :: c.trace }) hne ht' h
      · split at h
        · exact order_last (c := { c with fired := false, trace := .timer :: c.trace }) hne ht' h
        · split at h
          · injection h with h; subst h; exact .inl ⟨rfl, _, _, rfl, ht'⟩
          · injection h with h; subst h; exact .inr ⟨hne, ht'⟩
    · injection h with h; subst h; exact .inr ⟨hne, ht⟩
  | stage =>
    unfold clientStage at h
    dsimp only at h
    split at h
    · injection h with h; subst h; exact .inr ⟨hne, ht⟩
    · next k ks _ =>
      have ht' : NoEnd (.stage k :: c.trace) := ht.cons fun _ => nofun
      split at h
      · exact order_last (c := { c with states := ks, state := k, trace := .stage k :: c.trace }) hne ht' h
      · split at h
        · injection h with h; subst h; exact .inr ⟨hne, ht'⟩
        · split at h
          · injection h with h; subst h; exact .inr ⟨hne, ht'⟩
          · split at h
            · injection h with h; subst h; exact .inr ⟨hne, ht'⟩
            · injection h with h; subst h; exact .inr ⟨hne, ht'⟩
  | packet =>
    unfold clientPacket at h
    dsimp only at h
    split at h
    · injection h with h; subst h; exact .inr ⟨hne, ht⟩
    · next ch payload rest _ =>
      have ht' : NoEnd (.packet ch payload :: c.trace) := ht.cons fun _ => nofun
      split at h
      · split at h
        · cases h
        · injection h with h; subst h; exact .inl ⟨rfl, _, _, rfl, ht'⟩
        · split at h
          · cases h
          · injection h with h; subst h; exact .inl ⟨rfl, _, _, rfl, ht'⟩
          · injection h with h; subst h
            refine .inr ⟨hne, fun x hx => ?_⟩
            rcases List.mem_append.1 hx with hx | hx
            · rw [List.mem_reverse] at hx; obtain ⟨o, _, e⟩ := List.mem_map.1 hx; cases e
            · exact ht' x hx
      · split at h
        · cases h
        · injection h with h; subst h; exact .inl ⟨rfl, _, _, rfl, ht'⟩
        · injection h with h; subst h; exact .inr ⟨hne, ht'⟩

theorem steps_last {w : World} (es : List CEv) : ∀ {c c' : Client}, EndLast c → csteps w c es = .ok c' → EndLast c' := by
  induction es with
  | nil => intro c c' hi h; injection h with h; subst h; exact hi
  | cons e es ih =>
    intro c c' hi h
    rw [csteps] at h
    cases hs : cstep w c e with
    | error p => rw [hs] at h; cases h
    | ok d => rw [hs] at h; exact ih (step_last hi hs) h

theorem turns_last {w : World} (n : Nat) : ∀ {c c' : Client}, NoEnd c.trace → clientEarly.turns w n c = .ok c' → c'.ended = c.ended ∧ NoEnd c'.trace := by
  induction n with
  | zero => intro c c' ht h; injection h with h; subst h; exact ⟨rfl, ht⟩
  | succ n ih =>
    intro c c' ht h
    rw [clientEarly.turns] at h
    cases hs : clientRead w c with
    | error p => rw [hs] at h; cases h
    | ok d =>
      rw [hs] at h
      obtain ⟨h1, h2⟩ := read_last ht hs
      obtain ⟨h3, h4⟩ := ih h2 h
      exact ⟨h3.trans h1, h4⟩

theorem early_last {w : World} {uri : Bytes} {user : Option (Bytes × Bytes)} {rdr : Rdr} {n : Nat} {c : Client} (h : clientEarly w uri user rdr n = .ok c) : EndLast c := by
  unfold clientEarly at h
  split at h
  · cases h
  · next d hd =>
    obtain ⟨h1, h2⟩ := turns_last n (fun x hx => (by cases hx)) hd
    exact order_last h1 h2 h

theorem runs_reach {w : World} {connect : Bytes → Option Rdr} {n : Nat} {es : List CEv} {u : Bytes} {c : Client} (h : ProgramRuns w connect n es u c) : ClientReachable w c ∧ EndLast c := by
  obtain ⟨d, rdr, c0, -, -, h3, h4⟩ := h
  exact ⟨⟨_, _, _, _, _, _, h3, h4⟩, steps_last es (early_last h3) h4⟩

theorem ended_once {c : Client} (hl : EndLast c) {newer older : List Act} {why : Finish} (e : c.trace = newer ++ .ended why :: older) : c.ended = true ∧ newer = [] := by
  rcases hl with ⟨he, x, y, e', hy⟩ | ⟨_, ht⟩
  · refine ⟨he, ?_⟩
    cases newer with
    | nil => rfl
    | cons a newer =>
      rw [e'] at e
      injection e with _ e
      exact absurd (by rw [e]; simp) (hy why)
  · exact absurd (by rw [e]; simp) (ht why)

theorem milestones_finished {t newer older : List Act} (h : t = newer ++ .ended .finished :: older) : Milestone.finished ∈ milestones t := by
  subst h
  induction newer with
  | nil => show _ ∈ milestones older ++ [.finished]; simp
  | cons a newer ih =>
    rw [List.cons_append]
    unfold milestones
    split
    · exact absurd ‹_› (by simp)
    · next e => injection e with _ e; rw [← e]; exact List.mem_append_left _ ih
    · next e =>
      injection e with _ e
      split
      · rw [← e]; exact ih
      · rw [← e]; exact List.mem_append_left _ ih
    · next e => injection e with _ e; rw [← e]; exact List.mem_append_left _ ih
    · next e => injection e with _ e; rw [← e]; exact ih

/-- A client has finished just if it has gone all the way. -/
theorem wellDone_iff {w : World} {c : Client} (h : ClientReachable w c) : WellDone c ↔ ∃ newer older, c.trace = newer ++ .ended .finished :: older := by
  constructor
  · intro hc
    have : ∀ t : List Act, Milestone.finished ∈ milestones t → ∃ newer older, t = newer ++ .ended .finished :: older := by
      intro t
      induction t with
      | nil => intro h; cases h
      | cons a t ih =>
        have up : Milestone.finished ∈ milestones t → ∃ newer older, a :: t = newer ++ .ended .finished :: older := fun h => by
          obtain ⟨x, y, e⟩ := ih h
          exact ⟨a :: x, y, by rw [e]; rfl⟩
        intro h
        unfold milestones at h
        split at h
        · exact absurd ‹_› (by simp)
        · next e =>
          injection e with _ e; subst e
          rcases List.mem_append.1 h with h | h
          · exact up h
          · simp at h
        · next e =>
          injection e with _ e; subst e
          split at h
          · exact up h
          · rcases List.mem_append.1 h with h | h
            · exact up h
            · simp at h
        · next e =>
          injection e with e1 e; subst e; subst e1
          exact ⟨[], _, rfl⟩
        · next e => injection e with _ e; subst e; exact up h
    exact this _ (by unfold WellDone at hc; rw [hc]; decide)
  · rintro ⟨newer, older, e⟩
    obtain ⟨rest, hr⟩ := C65_course w c h
    have hm := milestones_finished e
    unfold WellDone
    cases rest with
    | nil => rw [← hr, List.append_nil]
    | cons x rest =>
      exfalso
      have hl : (milestones c.trace).length < 8 := by
        have := congrArg List.length hr
        rw [List.length_append, List.length_cons, show course.length = 8 from rfl] at this
        omega
      have hp : milestones c.trace = course.take (milestones c.trace).length := by rw [← hr, List.take_left' rfl]
      rw [hp] at hm
      have := List.take_subset_take_left course (Nat.le_of_lt_succ hl) hm
      exact absurd this (by decide)

/-! ## The property -/

section
variable (w : World) (connect : Bytes → Option Rdr) (n : Nat) (es : List CEv) (args : List Bytes)

theorem program_on {u : Bytes} (h : GivenAddress args u) : program w connect n es args =
    match dial u with
    | none => ⟨none, .exited 1⟩
    | some d =>
      match connect d.addr with
      | none => ⟨some d.addr, .exited 1⟩
      | some rdr =>
        match clientEarly w d.base d.user rdr n with
        | .error _ => ⟨some d.addr, .exited 2⟩
        | .ok c =>
          match csteps w c es with
          | .error _ => ⟨some d.addr, .exited 2⟩
          | .ok c => ⟨some d.addr, if c.ended then .exited (exitStatus c) else .going c⟩ := by
  unfold program
  rw [(flagParse_one args u).2 h]
  rfl

theorem program_off (h : ∀ u, ¬ GivenAddress args u) (hh : ¬ AsksHelp args) : program w connect n es args = ⟨none, .exited 2⟩ := by
  unfold program
  split
  · next e => exact absurd ((flagParse_help args).1 e) hh
  · rfl
  · next u e => exact absurd ((flagParse_one args u).1 e) (h u)
  · rfl

theorem program_help (hh : AsksHelp args) : program w connect n es args = ⟨none, .exited 0⟩ := by
  unfold program
  rw [(flagParse_help args).2 hh]

theorem help_or_address {u : Bytes} (hh : AsksHelp args) (h : GivenAddress args u) : False := by
  have h1 := (flagParse_help args).2 hh
  rw [(flagParse_one args u).2 h] at h1
  cases h1

/-- C143: the network is asked for an address just if the arguments are one address, and then for that one. -/
theorem C143_contacts_iff (a : Bytes) : (program w connect n es args).contacted = some a ↔ ∃ u d, GivenAddress args u ∧ dial u = some d ∧ d.addr = a := by
  by_cases hg : ∃ u, GivenAddress args u
  · obtain ⟨u, hg⟩ := hg
    have one : ∀ v, GivenAddress args v → v = u := fun v hv => by
      have h1 := (flagParse_one args u).2 hg
      rw [(flagParse_one args v).2 hv] at h1
      injection h1 with h1; injection h1
    rw [program_on w connect n es args hg]
    cases hd : dial u with
    | none => exact ⟨fun h => (by cases h), fun ⟨v, d, hv, hd', _⟩ => (by rw [one v hv, hd] at hd'; cases hd')⟩
    | some d =>
      have : ∀ {r : Ran}, r.contacted = some d.addr → (r.contacted = some a ↔ ∃ v d', GivenAddress args v ∧ dial v = some d' ∧ d'.addr = a) := fun hr => by
        rw [hr]
        constructor
        · intro h; injection h with h; exact ⟨u, d, hg, hd, h⟩
        · rintro ⟨v, d', hv, hd', rfl⟩
          rw [one v hv, hd] at hd'
          injection hd' with hd'; rw [hd']
      dsimp only
      split
      · exact this rfl
      · split
        · exact this rfl
        · split
          · exact this rfl
          · exact this rfl
  · have hg : ∀ u, ¬ GivenAddress args u := fun u h => hg ⟨u, h⟩
    refine ⟨fun h => ?_, fun ⟨u, _, h, _⟩ => absurd h (hg u)⟩
    by_cases hh : AsksHelp args
    · rw [program_help w connect n es args hh] at h; cases h
    · rw [program_off w connect n es args hg hh] at h; cases h

/-- Wrong arguments, an address that is none, and one that cannot be reached give a status other than 0. -/
theorem C143_usage : ((∀ u, ¬ GivenAddress args u) → ¬ AsksHelp args → (program w connect n es args).result = .exited 2) ∧
    (∀ u, GivenAddress args u → dial u = none → (program w connect n es args).result = .exited 1) ∧
    (∀ u d, GivenAddress args u → dial u = some d → connect d.addr = none → (program w connect n es args).result = .exited 1) := by
  refine ⟨fun h hh => ?_, fun u h hd => ?_, fun u d h hd hc => ?_⟩
  · rw [program_off w connect n es args h hh]
  · rw [program_on w connect n es args h, hd]
  · rw [program_on w connect n es args h, hd]
    dsimp only
    rw [hc]

theorem exitStatus_zero {c : Client} (hl : EndLast c) (he : c.ended = true) : exitStatus c = 0 ↔ ∃ why older, c.trace = .ended why :: older ∧ why ≠ .fatal := by
  obtain ⟨why, older, e, -⟩ : ∃ why older, c.trace = .ended why :: older ∧ NoEnd older := by
    rcases hl with h | h
    · exact h.2
    · exact absurd (h.1.symm.trans he) (by decide)
  unfold exitStatus
  rw [e]
  cases why with
  | finished => exact ⟨fun _ => ⟨_, _, rfl, by decide⟩, fun _ => rfl⟩
  | badPacket => exact ⟨fun _ => ⟨_, _, rfl, by decide⟩, fun _ => rfl⟩
  | fatal => exact ⟨fun h => (by cases h), fun ⟨_, _, h, hw⟩ => (by injection h with h _; injection h with h; exact absurd h.symm hw)⟩

/-- **C143**, the law: the program ends with status 0 just if help was asked for, or its client has gone all the way, or has ended on a packet. -/
theorem C143_zero_iff : (program w connect n es args).result = .exited 0 ↔
    AsksHelp args ∨ ∃ u c, GivenAddress args u ∧ ProgramRuns w connect n es u c ∧ (WellDone c ∨ EndedOnPacket c) := by
  by_cases hh : AsksHelp args
  · rw [program_help w connect n es args hh]
    exact ⟨fun _ => .inl hh, fun _ => rfl⟩
  by_cases hg : ∃ u, GivenAddress args u
  · obtain ⟨u, hg⟩ := hg
    have one : ∀ v, GivenAddress args v → v = u := fun v hv => by
      have h1 := (flagParse_one args u).2 hg
      rw [(flagParse_one args v).2 hv] at h1
      injection h1 with h1; injection h1
    rw [program_on w connect n es args hg]
    have none_ : ∀ {r : Ran}, r.result ≠ .exited 0 → (∀ c, ¬ ProgramRuns w connect n es u c) → (r.result = .exited 0 ↔
        AsksHelp args ∨ ∃ u c, GivenAddress args u ∧ ProgramRuns w connect n es u c ∧ (WellDone c ∨ EndedOnPacket c)) := fun h1 h2 =>
      ⟨fun h => absurd h h1, fun h => by
        rcases h with h | ⟨v, c, hv, hr, _⟩
        · exact absurd h hh
        · rw [one v hv] at hr; exact absurd hr (h2 c)⟩
    cases hd : dial u with
    | none => exact none_ (by simp) (fun c ⟨d, _, _, h, _⟩ => by rw [hd] at h; cases h)
    | some d =>
      dsimp only
      cases hc : connect d.addr with
      | none => exact none_ (by simp) (fun c ⟨d', _, _, h, h', _⟩ => by rw [hd] at h; injection h with h; subst h; rw [hc] at h'; cases h')
      | some rdr =>
        dsimp only
        have runs : ∀ c, ProgramRuns w connect n es u c ↔ ∃ c0, clientEarly w d.base d.user rdr n = .ok c0 ∧ csteps w c0 es = .ok c := fun c => by
          constructor
          · rintro ⟨d', rdr', c0, h1, h2, h3, h4⟩
            rw [hd] at h1; injection h1 with h1; subst h1
            rw [hc] at h2; injection h2 with h2; subst h2
            exact ⟨c0, h3, h4⟩
          · rintro ⟨c0, h3, h4⟩
            exact ⟨d, rdr, c0, hd, hc, h3, h4⟩
        cases he : clientEarly w d.base d.user rdr n with
        | error p => exact none_ (by simp) (fun c h => by obtain ⟨c0, h3, _⟩ := (runs c).1 h; rw [he] at h3; cases h3)
        | ok c0 =>
          dsimp only
          cases hs : csteps w c0 es with
          | error p => exact none_ (by simp) (fun c h => by obtain ⟨c1, h3, h4⟩ := (runs c).1 h; rw [he] at h3; injection h3 with h3; subst h3; rw [hs] at h4; cases h4)
          | ok c =>
            have hr : ProgramRuns w connect n es u c := (runs c).2 ⟨c0, he, hs⟩
            have uniq : ∀ c', ProgramRuns w connect n es u c' → c' = c := fun c' h => by
              obtain ⟨c1, h3, h4⟩ := (runs c').1 h
              rw [he] at h3; injection h3 with h3; subst h3
              rw [hs] at h4; injection h4 with h4; exact h4.symm
            obtain ⟨hreach, hlast⟩ := runs_reach hr
            dsimp only
            constructor
            · intro h
              by_cases hend : c.ended = true
              · rw [if_pos hend] at h
                injection h with h
                obtain ⟨why, older, e, hw⟩ := (exitStatus_zero hlast hend).1 h
                refine .inr ⟨u, c, hg, hr, ?_⟩
                cases why with
                | fatal => exact absurd rfl hw
                | finished => exact .inl ((wellDone_iff hreach).2 ⟨[], older, e⟩)
                | badPacket =>
                  obtain ⟨ch, p, h1, h2⟩ := C65_reasons w c hreach [] older _ e
                  right
                  cases older with
                  | nil => cases h1
                  | cons a older => injection h1 with h1; subst h1; exact ⟨ch, p, older, e, h2⟩
              · rw [if_neg hend] at h; cases h
            · rintro (h | ⟨v, c', hv, hr', h⟩)
              · exact absurd h hh
              · rw [one v hv] at hr'
                obtain rfl := uniq c' hr'
                have hx : ∃ why newer older, c'.trace = newer ++ .ended why :: older ∧ why ≠ .fatal := by
                  rcases h with h | ⟨ch, p, older, e, _⟩
                  · obtain ⟨newer, older, e⟩ := (wellDone_iff hreach).1 h
                    exact ⟨_, newer, older, e, by decide⟩
                  · exact ⟨_, [], _, e, by decide⟩
                obtain ⟨why, newer, older, e, hw⟩ := hx
                obtain ⟨hend, rfl⟩ := ended_once hlast e
                rw [if_pos hend, (exitStatus_zero hlast hend).2 ⟨why, older, e, hw⟩]
  · have hg : ∀ u, ¬ GivenAddress args u := fun u h => hg ⟨u, h⟩
    rw [program_off w connect n es args hg hh]
    exact ⟨fun h => (by cases h), fun h => by
      rcases h with h | ⟨u, _, h, _⟩
      · exact absurd h hh
      · exact absurd h (hg u)⟩

end

/-- Where no packet was bad the status says whether the client has gone all the way. -/
theorem C143_closed_partial (w : World) (connect : Bytes → Option Rdr) (n : Nat) (es : List CEv) (args : List Bytes) (u : Bytes) (c : Client) (hg : GivenAddress args u)
    (hr : ProgramRuns w connect n es u c) (hb : ¬ EndedOnPacket c) : (program w connect n es args).result = .exited 0 ↔ WellDone c := by
  rw [C143_zero_iff]
  constructor
  · rintro (h | ⟨v, c', hv, hr', h⟩)
    · exact (help_or_address args h hg).elim
    · have hvu : v = u := by
        have h1 := (flagParse_one args u).2 hg
        rw [(flagParse_one args v).2 hv] at h1
        injection h1 with h1; injection h1
      subst hvu
      obtain ⟨d, rdr, c0, h1, h2, h3, h4⟩ := hr
      obtain ⟨d', rdr', c0', k1, k2, k3, k4⟩ := hr'
      rw [h1] at k1; injection k1 with k1; subst k1
      rw [h2] at k2; injection k2 with k2; subst k2
      rw [h3] at k3; injection k3 with k3; subst k3
      rw [h4] at k4; injection k4 with k4; subst k4
      exact h.resolve_right hb
  · exact fun h => .inr ⟨u, c, hg, hr, .inl h⟩

/-- A server for `rtsp://h:554/x`. -/
def demoConnect (frames : List Bytes) (addr : Bytes) : Option Rdr :=
  if addr = b!"h:554" then some ⟨[], none, (demoStream frames).map .byte⟩ else none

/-- The client that the program runs for that server. -/
def progRun (frames : List Bytes) (es : List CEv) : Option Client :=
  match dial b!"rtsp://h/x" with
  | none => none
  | some d =>
    match demoConnect frames d.addr with
    | none => none
    | some rdr =>
      match clientEarly demoWorld d.base d.user rdr 0 with
      | .error _ => none
      | .ok c => (csteps demoWorld c es).toOption

theorem progRun_runs {frames : List Bytes} {es : List CEv} {c : Client} (h : progRun frames es = some c) : ProgramRuns demoWorld (demoConnect frames) 0 es b!"rtsp://h/x" c := by
  unfold progRun at h
  split at h
  · cases h
  · next d hd =>
    split at h
    · cases h
    · next rdr hr =>
      split at h
      · cases h
      · next c0 h0 =>
        cases hs : csteps demoWorld c0 es with
        | error p => rw [hs] at h; cases h
        | ok c' => rw [hs] at h; injection h with h; subst h; exact ⟨d, rdr, c0, hd, hr, h0, hs⟩

theorem progRun_shows {frames : List Bytes} {es : List CEv} {α : Type} {f : Client → α} {a : α} (h : (progRun frames es).map f = some a) :
    ∃ c, ProgramRuns demoWorld (demoConnect frames) 0 es b!"rtsp://h/x" c ∧ f c = a := by
  cases hc : progRun frames es with
  | none => rw [hc] at h; cases h
  | some c => rw [hc] at h; injection h with h; exact ⟨c, progRun_runs hc, h⟩

theorem demo_given : GivenAddress [b!"rtsp://h/x"] b!"rtsp://h/x" := .inl ⟨rfl, fun ⟨c, t, e⟩ => by injection e with e _; exact absurd e (by decide)⟩

/-- **C143** fails: the status is 0 although the client has not gone all the way, nor asked for the end: an aggregate it cannot read made it end while playing. -/
theorem C143_refuted : ∃ (w : World) (connect : Bytes → Option Rdr) (es : List CEv) (u : Bytes) (c : Client), GivenAddress [u] u ∧ ProgramRuns w connect 0 es u c ∧
    (program w connect 0 es [u]).result = .exited 0 ∧ ¬ WellDone c ∧ milestones c.trace = [.reached 1, .asked b!"PLAY", .reached 2] := by
  obtain ⟨c, h1, h2⟩ := progRun_shows (frames := [demoStap.encode]) (es := demoPlay ++ demoFrame)
    (f := fun c => (endsBad c.trace, milestones c.trace)) (a := (true, [.reached 1, .asked b!"PLAY", .reached 2])) (by decide +kernel)
  injection h2 with h2 h3
  have hreach := (runs_reach h1).1
  have hp : EndedOnPacket c := by
    unfold endsBad at h2
    split at h2
    · next older e =>
      obtain ⟨ch, p, k1, k2⟩ := C65_reasons _ c hreach [] older _ e
      cases older with
      | nil => cases k1
      | cons a older => injection k1 with k1; subst k1; exact ⟨ch, p, older, e, k2⟩
    · cases h2
  refine ⟨_, _, _, _, c, demo_given, h1, (C143_zero_iff ..).2 (.inr ⟨_, c, demo_given, h1, .inr hp⟩), ?_, h3⟩
  unfold WellDone
  rw [h3]; decide

/-- A run with status 0 that has gone all the way. -/
example : ∃ c, ProgramRuns demoWorld (demoConnect []) 0 (demoPlay ++ demoStop) b!"rtsp://h/x" c ∧ WellDone c ∧
    (program demoWorld (demoConnect []) 0 (demoPlay ++ demoStop) [b!"rtsp://h/x"]).result = .exited 0 := by
  obtain ⟨c, h1, h2⟩ := progRun_shows (frames := []) (es := demoPlay ++ demoStop) (f := fun c => milestones c.trace) (a := course) (by decide +kernel)
  exact ⟨c, h1, h2, (C143_zero_iff ..).2 (.inr ⟨_, c, demo_given, h1, .inl h2⟩)⟩

example : AsksHelp [b!"--help=1", b!"x"] := ⟨b!"--", b!"help", b!"=1", [b!"x"], rfl, .inr rfl, .inr rfl, .inr rfl⟩

example : GivenAddress [b!"--", b!"-x"] b!"-x" ∧ flagParse [b!"-x"] = .bad ∧ flagParse [b!"-"] = .rest [b!"-"] ∧ flagParse [b!"---h"] = .bad := ⟨.inr rfl, by decide, by decide, by decide⟩

end Ouro
