import Verif.Spec.Volume
import Verif.Props.Invents
import Verif.Props.Memory
/-!
# C118: what is reported is no more than what was received
-/
namespace Ouro
open Spec

/-- C118: each unit by itself is no larger than the video packets received so far, whatever they are. -/
theorem C118_each (w : World) (c : Client) (hr : ClientReachable w c) (h : UInt8) (ts : Nat) (d : Bytes) (hu : (h, ts, d) ∈ reported c.trace) :
    d.length ≤ (videoBytes c.trace).flatten.length := (C117_received w c hr h ts d hu).length_le

theorem volume_append (us vs : List (UInt8 × Nat × Bytes)) : volume (us ++ vs) = volume us + volume vs := by
  unfold volume; rw [List.map_append, List.sum_append]

theorem volume_map {α : Type} (us : List α) (f : α → UInt8 × Nat × Bytes) (g : α → Bytes) (h : ∀ u ∈ us, (f u).2.2.length ≤ (g u).length) :
    volume (us.map f) ≤ (us.flatMap g).length := by
  induction us with
  | nil => exact Nat.zero_le _
  | cons u us ih =>
    rw [List.map_cons, List.flatMap_cons, List.length_append]
    show (f u).2.2.length + volume (us.map f) ≤ _
    exact Nat.add_le_add (h u (List.mem_cons_self ..)) (ih fun x hx => h x (List.mem_cons_of_mem _ hx))

/-- One packet. -/
theorem load_volume (before : Bytes) (ts : Nat) (l : Load) (begun : Bool) (h : ∀ s, l.flags = some (s, true) → s = true ∨ begun = true) :
    volume (l.units before ts) + (if (match l.flags with | none => begun | some (s, e) => !e && (s || begun)) then (l.kept before).length else 0) ≤
      l.bytes.length + (if begun then before.length else 0) := by
  cases l with
  | single u =>
    show volume [(u.header, ts, u.data)] + (if begun then before.length else 0) ≤ u.bytes.length + _
    have : volume [(u.header, ts, u.data)] ≤ u.bytes.length := by show u.data.length + 0 ≤ u.data.length + 1; omega
    omega
  | stapA f us =>
    show volume (us.map _) + (if begun then before.length else 0) ≤ (us.flatMap stapUnit).length + 1 + _
    have := volume_map us (fun u => (u.header, ts, u.data)) stapUnit (fun u _ => by simp [stapUnit, Nal.bytes]; omega)
    omega
  | stapB f don us =>
    show volume (us.map _) + (if begun then before.length else 0) ≤ (be16 don ++ us.flatMap stapUnit).length + 1 + _
    have := volume_map us (fun u => (u.header, ts, u.data)) stapUnit (fun u _ => by simp [stapUnit, Nal.bytes]; omega)
    rw [List.length_append]
    omega
  | mtap16 f donb us =>
    show volume (us.map _) + (if begun then before.length else 0) ≤ (be16 donb ++ us.flatMap mtap16Unit).length + 1 + _
    have := volume_map us (fun u => (u.nal.header, (ts + u.tsOff) % 2 ^ 32, u.nal.data)) mtap16Unit (fun u _ => by simp [mtap16Unit, Nal.bytes]; omega)
    rw [List.length_append]
    omega
  | fuA hd s e piece =>
    have hb : (Load.fuA hd s e piece).bytes.length = piece.length + 2 := rfl
    rw [hb]
    cases e <;> cases s <;> cases begun <;> simp [Load.flags, Load.units, Load.kept, volume] at h ⊢ <;> omega
  | fuB hd s e don piece =>
    have hb : (Load.fuB hd s e don piece).bytes.length = piece.length + 4 := rfl
    rw [hb]
    cases e <;> cases s <;> cases begun <;> simp [Load.flags, Load.units, Load.kept, volume] at h ⊢ <;> omega

theorem paired_volume (vs : List Video) : ∀ (before : Bytes) (begun : Bool), Paired begun (vs.map (·.load)) →
    volume (depacketize before vs) ≤ (vs.flatMap (·.load.bytes)).length + (if begun then before.length else 0) := by
  induction vs with
  | nil => intro before begun _; exact Nat.zero_le _
  | cons v vs ih =>
    intro before begun h
    rw [depacketize, volume_append, List.flatMap_cons, List.length_append]
    rw [List.map_cons, Paired] at h
    have h1 := load_volume before v.rtp.ts v.load begun fun s hs => by rw [hs] at h; exact h.1 rfl
    have h2 : Paired (match v.load.flags with | none => begun | some (s, e) => !e && (s || begun)) (vs.map (·.load)) := by
      cases hf : v.load.flags with
      | none => rw [hf] at h; exact h
      | some x => rw [hf] at h; exact h.2
    have := ih (v.load.kept before) _ h2
    omega

theorem video_bytes_le {v : Video} (hv : v.Valid) : v.load.bytes.length ≤ v.rtp.encode.length := by
  rw [← hv.body]
  have h1 := (unescape_sublist v.rtp.body 0).length_le
  have h2 : v.rtp.body.length ≤ v.rtp.encode.length := by unfold RtpWire.encode; simp; omega
  omega

/-- C118: with legal packets in which each unit in fragments that ends has a start of its own, all units together are no larger than all video packets
together. -/
theorem C118_total_partial (w : World) (c : Client) (hr : ClientReachable w c) (vs : List Video) (hv : ∀ v ∈ vs, v.Valid)
    (hs : onVideo (seen c.trace) = vs.map fun v => (v.ch, v.rtp.encode)) (hp : Paired false (vs.map (·.load))) :
    volume (reported c.trace) ≤ (videoBytes c.trace).flatten.length := by
  rw [((client_pinv hr) vs ⟨hs, hv⟩).1]
  refine Nat.le_trans (paired_volume vs [] false hp) ?_
  unfold videoBytes
  rw [hs]
  clear hs hp
  induction vs with
  | nil => exact Nat.le_refl _
  | cons v vs ih =>
    have h1 := ih fun x hx => hv x (List.mem_cons_of_mem _ hx)
    have h2 := video_bytes_le (hv v (List.mem_cons_self ..))
    simp only [List.flatMap_cons, List.length_append, List.map_cons, List.flatten_cons] at h1 ⊢
    simp only [Bool.false_eq_true, if_false] at h1 ⊢
    omega

/-- A fragment of one byte that ends a unit it does not start. -/
def demoEnd : Video := ⟨0, ⟨false, false, 96, 1, 90, 7, [], none, fuA 0x65 false true [1]⟩, .fuA 0x65 false true [1]⟩

theorem demoEnd_valid : demoEnd.Valid ∧ demoEnd.rtp.encode.length ≤ 2048 := by
  refine ⟨⟨by decide, ⟨by decide, by decide, by decide, by decide, by decide, ?_, ?_⟩, by decide, by decide, ?_⟩, by decide⟩
  · intro x hx; cases hx
  · intro x hx; cases hx
  · show (0x65 : UInt8) &&& 0x80 = 0
    decide

theorem volume_ends (n : Nat) (b : Bytes) : 2 * volume (depacketize b (List.replicate n demoEnd)) = n * (2 * b.length + n + 1) := by
  induction n generalizing b with
  | zero => simp [depacketize, volume]
  | succ n ih =>
    rw [List.replicate_succ, depacketize, volume_append, Nat.mul_add]
    have h1 : demoEnd.load.kept b = b ++ [1] := rfl
    have h2 : volume (demoEnd.load.units b demoEnd.rtp.ts) = b.length + 1 := by
      show (b ++ [1]).length + 0 = _
      simp
    rw [h1, h2, ih]
    simp only [List.length_append, List.length_singleton]
    rw [show 2 * (b.length + 1) + n + 1 = (2 * b.length + n) + 3 by omega, show 2 * b.length + (n + 1) + 1 = (2 * b.length + n) + 2 by omega, Nat.add_mul]
    have k1 := Nat.mul_add n (2 * b.length + n) 3
    have k2 := Nat.mul_add n (2 * b.length + n) 2
    omega

/-- C118 fails: for every `n` there is a run with `n` legal video packets of fifteen bytes after which the units reported have `n (n + 1) / 2` bytes: each
end of a unit that was not started gives all that was given before once more. -/
theorem C118_refuted (w : World) (hw : ∀ o b, w.write o b = .ok) (n : Nat) :
    ∃ c, ClientReachable w c ∧ c.ended = false ∧ (videoBytes c.trace).flatten.length = n * 15 ∧ 2 * volume (reported c.trace) = n * (n + 1) := by
  obtain ⟨md5, inf, rnd, write, listen⟩ := w
  have hwr : write = fun _ _ => .ok := by funext o b; exact hw o b
  subst hwr
  obtain ⟨evs, hevs⟩ : ∃ evs, Arrives ((List.replicate n demoEnd).map fun v => .frame v.ch v.rtp.encode) n evs [] := by
    induction n with
    | zero => exact ⟨[], .nil _⟩
    | succ n ih => obtain ⟨evs, h⟩ := ih; exact ⟨_, .msg h⟩
  obtain ⟨c0, h0, h1, h2, h3, h4, h5, h6, h7⟩ : ∃ c0, clientOpen ⟨md5, inf, rnd, fun _ _ => .ok, listen⟩ b!"rtsp://h/x" none ⟨[], none, evs⟩ = .ok c0 ∧ c0.ended = false ∧ c0.running = true ∧ c0.states = [] ∧ c0.data = [] ∧
      c0.rdr = ⟨[], none, evs⟩ ∧ seen c0.trace = [] ∧ c0.sink = newNALSink := ⟨_, rfl, rfl, rfl, rfl, rfl, rfl, rfl, rfl⟩
  obtain ⟨c, g1, g2, g3, g4⟩ := play_rounds (w := ⟨md5, inf, rnd, fun _ _ => .ok, listen⟩) hevs (List.replicate n demoEnd) c0 ⟨h1, h2, h3, h4⟩ (by rw [h7]; decide) (by rw [h5]) (by rw [h5]; rfl) rfl
    (fun v hv => by rw [List.eq_of_mem_replicate hv]; exact demoEnd_valid)
  have hr : ClientReachable ⟨md5, inf, rnd, fun _ _ => .ok, listen⟩ c := ⟨_, _, _, 0, _, _, h0, g1⟩
  rw [h6, List.nil_append] at g4
  have hon : onVideo (seen c.trace) = (List.replicate n demoEnd).map fun v => (v.ch, v.rtp.encode) := by
    rw [g4]
    unfold onVideo
    rw [List.filter_eq_self]
    intro x hx
    rw [List.map_replicate] at hx
    rw [List.eq_of_mem_replicate hx]
    decide
  have hk := client_pinv hr _ ⟨hon, fun v hv => by rw [List.eq_of_mem_replicate hv]; exact demoEnd_valid.1⟩
  refine ⟨c, hr, g2.going, ?_, ?_⟩
  · unfold videoBytes
    rw [hon, List.map_replicate, List.map_replicate]
    show (List.replicate n demoEnd.rtp.encode).flatten.length = n * 15
    rw [List.length_flatten, List.map_replicate, List.sum_replicate_nat]
    rfl
  · rw [hk.1, volume_ends]
    simp

-- A unit in fragments and a single one.
example : Paired false (([.fuA 0x65 true false [7], .fuA 0x65 false false [8], .fuA 0x65 false true [9], .single ⟨0x41, [1]⟩, .fuA 0x65 true true [7]] : List Load)) := by
  simp [Paired, Load.flags]

example : ¬ Paired false [.fuA 0x65 true false [7], .fuA 0x65 false true [9], .fuA 0x65 false true [9]] := by
  simp [Paired, Load.flags]

end Ouro
