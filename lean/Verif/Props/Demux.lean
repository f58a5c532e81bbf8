import Verif.Props.Receive
import Verif.Props.Message
/-! # C52, exactly: what is taken from a connection on which messages of any size arrive -/
namespace Ouro
open Spec

theorem recv_long {r : Rdr} (m : Msg) (rest : List Ev) (hm : m.Legal) (hl : m.size > 2048) (hi : m.size < 2 ^ 63) (he : r.err = none)
    (h : r.evs = m.bytes.map .byte ++ rest) : (recv r).1 = .error (.io .bufferFull) := by
  cases m with
  | frame ch payload => exact ((C53_delivered_iff ch payload hm r rest he h).2 hl).1
  | response s =>
    obtain ⟨r1, h1, h2, h3⟩ := recv_response_head he h
    have := C50_long_body_refuted s hm.1 hl hi r1 rest h1 h2
    cases hu : unpackRsp r1 with
    | mk x q =>
      rw [hu] at this h3
      dsimp only at this
      subst this
      rw [h3]

theorem procN_stopped {σ : Type} (handle : σ → Item → σ × Bool) (s : σ) : ∀ (n : Nat) (q : Rdr), procN handle n ⟨q, s, false⟩ = ⟨q, s, false⟩ := by
  intro n
  induction n with
  | zero => intro q; rfl
  | succ n ih => intro q; rw [procN, procStep, if_neg (by simp), ih]

/-- C52, exactly: from any sequence of legal frames and responses, of whatever size, with read deadlines expiring any number of times between
them, the session takes those before the first with more than 2048 bytes of data, in order, and nothing after; it goes on reading if and only
if there is none. -/
theorem C52_exact (ms : List Msg) (hm : ∀ m ∈ ms, m.Legal ∧ m.size < 2 ^ 63) (steps : Nat) (evs rest : List Ev)
    (h : Arrives ms steps evs rest) (r : Rdr) (he : r.err = none) (hr : r.evs = evs) (log : List Item) :
    ∃ items, (procN logItem steps ⟨r, log, true⟩).state = log ++ items ∧
      All2 Delivered (ms.takeWhile fun m => decide (m.size ≤ 2048)) items ∧
      ((procN logItem steps ⟨r, log, true⟩).running = true ↔ ∀ m ∈ ms, m.size ≤ 2048) := by
  induction h generalizing r log with
  | nil rest => exact ⟨[], by simp [procN], .nil, by simp [procN]⟩
  | @timeout ms n evs rest h ih =>
    rw [procN, procStep, if_pos rfl, recv_timeout he hr]
    exact ih hm ⟨[], none, evs⟩ rfl rfl log
  | @msg m ms n evs rest h ih =>
    by_cases hl : m.size ≤ 2048
    · obtain ⟨r1, h1, h3, h4⟩ := recv_msg m evs (hm m (by simp)).1 hl he hr
      obtain ⟨items, h5, h6, h7⟩ := ih (fun x hx => hm x (by simp [hx])) r1 h3 h4 (log ++ [itemOf m])
      rw [procN, procStep, if_pos rfl, h1]
      dsimp only [logItem]
      rw [show (!false) = true from rfl]
      refine ⟨itemOf m :: items, by rw [h5]; simp, ?_, ?_⟩
      · rw [List.takeWhile_cons_of_pos (by simpa using hl)]
        exact .cons (itemOf_delivered (hm m (by simp)).1) h6
      · rw [h7]; simp [hl]
    · have hx := recv_long m evs (hm m (by simp)).1 (by omega) (hm m (by simp)).2 he hr
      cases hrv : recv r with
      | mk x q =>
        rw [hrv] at hx
        dsimp only at hx
        subst hx
        rw [procN, procStep, if_pos rfl, hrv]
        dsimp only
        rw [procN_stopped]
        refine ⟨[], by simp, ?_, ?_⟩
        · rw [List.takeWhile_cons_of_neg (by simpa using hl)]; exact .nil
        · simp [hl]

theorem all2_length {α β : Type} {R : α → β → Prop} {as : List α} {bs : List β} (h : All2 R as bs) : as.length = bs.length := by
  induction h with
  | nil => rfl
  | cons _ _ ih => simp [ih]

theorem takeWhile_full {α : Type} {p : α → Bool} {l : List α} (h : (l.takeWhile p).length = l.length) : ∀ a ∈ l, p a = true := by
  induction l with
  | nil => simp
  | cons a l ih =>
    cases hp : p a with
    | false => rw [List.takeWhile_cons_of_neg (by simp [hp])] at h; simp at h
    | true =>
      rw [List.takeWhile_cons_of_pos hp] at h
      simp at h
      intro b hb
      rcases List.mem_cons.1 hb with rfl | hb
      · exact hp
      · exact ih h b hb

theorem takeWhile_self {α : Type} {p : α → Bool} {l : List α} (h : ∀ a ∈ l, p a = true) : l.takeWhile p = l := by
  induction l with
  | nil => rfl
  | cons a l ih => rw [List.takeWhile_cons_of_pos (h a (by simp)), ih fun b hb => h b (by simp [hb])]

/-- C52: all messages are taken if and only if none has more than 2048 bytes of data. -/
theorem C52_iff (ms : List Msg) (hm : ∀ m ∈ ms, m.Legal ∧ m.size < 2 ^ 63) (steps : Nat) (evs rest : List Ev)
    (h : Arrives ms steps evs rest) (r : Rdr) (he : r.err = none) (hr : r.evs = evs) (log : List Item) :
    (∃ items, (procN logItem steps ⟨r, log, true⟩).state = log ++ items ∧ All2 Delivered ms items) ↔ ∀ m ∈ ms, m.size ≤ 2048 := by
  obtain ⟨items, h1, h2, h3⟩ := C52_exact ms hm steps evs rest h r he hr log
  constructor
  · rintro ⟨items', h4, h5⟩
    rw [h1] at h4
    have := List.append_cancel_left h4
    subst this
    have := takeWhile_full (p := fun m : Msg => decide (m.size ≤ 2048)) (by rw [all2_length h2, ← all2_length h5])
    intro m hmem
    simpa using this m hmem
  · intro hs
    refine ⟨items, h1, ?_⟩
    rwa [takeWhile_self (fun m hmem => by simpa using hs m hmem)] at h2

/-- C52 fails as stated: of three legal frames the second is too long for the buffer of the connection, and the third is never taken either. -/
theorem C52_refuted : ∃ ms : List Msg, (∀ m ∈ ms, m.Legal) ∧ ms.length = 3 ∧ ms.getLast? = some (.frame 2 [7]) ∧ ∀ steps evs rest (r : Rdr), Arrives ms steps evs rest → r.err = none → r.evs = evs →
    (procN logItem steps ⟨r, [], true⟩).state = [.frame 0 b!"abc"] ∧ (procN logItem steps ⟨r, [], true⟩).running = false := by
  obtain ⟨p, hl⟩ : ∃ p : Bytes, p.length = 2049 := ⟨List.replicate 2049 0, List.length_replicate⟩
  have hlegal : ∀ m ∈ [Msg.frame 0 b!"abc", .frame 0 p, .frame 2 [7]], m.Legal ∧ m.size < 2 ^ 63 := by
    intro m hm
    simp only [List.mem_cons, List.not_mem_nil, or_false] at hm
    rcases hm with rfl | rfl | rfl
    · exact ⟨show 3 ≤ 65535 by decide, show 3 < 2 ^ 63 by decide⟩
    · exact ⟨show p.length ≤ 65535 by rw [hl]; decide, show p.length < 2 ^ 63 by rw [hl]; decide⟩
    · exact ⟨show 1 ≤ 65535 by decide, show 1 < 2 ^ 63 by decide⟩
  refine ⟨_, fun m hm => (hlegal m hm).1, rfl, rfl, ?_⟩
  intro steps evs rest r h he hr
  obtain ⟨items, h1, h2, h3⟩ := C52_exact _ hlegal steps evs rest h r he hr []
  have hs : ¬ (Msg.frame 0 p).size ≤ 2048 := by show ¬ p.length ≤ 2048; rw [hl]; decide
  constructor
  · rw [h1]
    rw [List.takeWhile_cons_of_pos (by decide), List.takeWhile_cons_of_neg (by simpa using hs)] at h2
    cases h2 with
    | cons hd ht =>
      cases ht
      rename_i b
      cases b with
      | frame ch p => obtain ⟨rfl, rfl⟩ := hd; rfl
      | response rsp => cases hd
  · rw [Bool.eq_false_iff]
    intro hr
    exact hs (h3.1 hr _ (by simp))

/-- Such a sequence can arrive. -/
example : ∃ n evs, Arrives [Msg.frame 0 b!"abc", .frame 0 (List.replicate 2049 0), .frame 2 [7]] n evs [] ∧ n = 4 := ⟨4, _, .msg (.timeout (.msg (.msg (.nil [])))), rfl⟩

end Ouro
