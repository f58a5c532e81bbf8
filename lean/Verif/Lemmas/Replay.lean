import Verif.Props.Main
/-! # What the client reports is a function of the packets it took -/
namespace Ouro
open Spec

/-- What one packet on an even channel does to the sink, and the units reported for it. -/
def react (s : NALSink) (packet : Bytes) : NALSink × List (UInt8 × Nat × Bytes) :=
  match rtpUnpack packet with
  | .ok (.ok p) =>
    match push s p.pl p.ts with
    | .ok (none, s') => (s', s'.units.map shown)
    | .ok (some _, s') => (s', [])
    | .error _ => (s, [])
  | _ => (s, [])

def replay (s : NALSink) : List Bytes → NALSink × List (UInt8 × Nat × Bytes)
  | [] => (s, [])
  | p :: ps => ((replay (react s p).1 ps).1, (react s p).2 ++ (replay (react s p).1 ps).2)

theorem replay_snoc (s : NALSink) (ps : List Bytes) (p : Bytes) :
    replay s (ps ++ [p]) = ((react (replay s ps).1 p).1, (replay s ps).2 ++ (react (replay s ps).1 p).2) := by
  induction ps generalizing s with
  | nil => simp [replay]
  | cons q ps ih => rw [List.cons_append, replay, ih, replay]; simp [List.append_assoc]

/-- The packets on even channels, without the channels. -/
def videoOf (c : Client) : List Bytes := (onVideo (seen c.trace)).map (·.2)

def ReplayInv (s0 : NALSink) (c : Client) : Prop := replay s0 (videoOf c) = (c.sink, reported c.trace)

theorem ReplayInv.of_trace {s0 : NALSink} {c c' : Client} (h : ReplayInv s0 c) (h1 : seen c'.trace = seen c.trace) (h2 : reported c'.trace = reported c.trace) (h3 : c'.sink = c.sink) : ReplayInv s0 c' := by
  unfold ReplayInv videoOf at *
  rw [h1, h2, h3]; exact h

theorem cstep_replay {s0 : NALSink} {w : World} {c c' : Client} {e : CEv} (hi : ReplayInv s0 c) (h : cstep w c e = .ok c') : ReplayInv s0 c' := by
  unfold cstep at h
  split at h
  · injection h with h; subst h; exact hi
  · cases e with
    | read =>
      dsimp only at h
      unfold clientRead at h
      split at h
      · split at h
        · injection h with h; subst h; exact hi
        · injection h with h; subst h; exact hi
        · split at h
          · cases h
          · injection h with h; subst h
            exact hi.of_trace (adopt_seen _ _).1 (adopt_seen _ _).2 rfl
      · injection h with h; subst h; exact hi
    | timer =>
      dsimp only at h
      unfold clientTimer at h
      split at h
      · dsimp only at h
        split at h
        · obtain ⟨h1, h2, h3⟩ := order_seen h; exact hi.of_trace h1 h2 h3
        · split at h
          · obtain ⟨h1, h2, h3⟩ := order_seen h; exact hi.of_trace h1 h2 h3
          · split at h
            · injection h with h; subst h; exact hi.of_trace rfl rfl rfl
            · injection h with h; subst h; exact hi.of_trace rfl rfl rfl
      · injection h with h; subst h; exact hi
    | stage =>
      dsimp only at h
      unfold clientStage at h
      split at h
      · injection h with h; subst h; exact hi
      · dsimp only at h
        split at h
        · obtain ⟨h1, h2, h3⟩ := order_seen h; exact hi.of_trace h1 h2 h3
        · split at h
          · injection h with h; subst h; exact hi.of_trace rfl rfl rfl
          · split at h
            · injection h with h; subst h; exact hi.of_trace rfl rfl rfl
            · split at h
              · injection h with h; subst h; exact hi.of_trace rfl rfl rfl
              · injection h with h; subst h; exact hi.of_trace rfl rfl rfl
    | expire =>
      injection h with h; subst h
      split
      · exact hi.of_trace rfl rfl rfl
      · exact hi
    | packet =>
      dsimp only at h
      unfold clientPacket at h
      split at h
      · injection h with h; subst h; exact hi
      · rename_i ch payload rest hdata
        dsimp only at h
        split at h
        · rename_i hev
          have key : ∀ t, seen t = seen c.trace ++ [(ch, payload)] → (onVideo (seen t)).map (·.2) = videoOf c ++ [payload] := by
            intro t ht; rw [ht, onVideo_snoc_even hev, List.map_append]; rfl
          have hr : ∀ d : Client, seen d.trace = seen c.trace ++ [(ch, payload)] → react c.sink payload = (d.sink, (react c.sink payload).2) →
              reported d.trace = reported c.trace ++ (react c.sink payload).2 → ReplayInv s0 d := by
            intro d e1 e2 e3
            unfold ReplayInv videoOf
            rw [key _ e1, replay_snoc, hi, e3]
            dsimp only
            rw [e2]
          split at h
          · cases h
          · rename_i e hu
            injection h with h; subst h
            exact hr _ rfl (by unfold react; rw [hu]; rfl) (by unfold react; rw [hu]; simp [Client.finish, reported])
          · rename_i q hu
            split at h
            · cases h
            · rename_i e sink hp
              injection h with h; subst h
              exact hr _ rfl (by unfold react; rw [hu]; dsimp only; rw [hp]; rfl) (by unfold react; rw [hu]; dsimp only; rw [hp]; simp [Client.finish, reported])
            · rename_i sink hp
              injection h with h; subst h
              refine hr _ (seen_frees (fun a ha ch p e => by rw [List.mem_reverse, List.mem_map] at ha; obtain ⟨u, _, rfl⟩ := ha; cases e) _) (by unfold react; rw [hu]; dsimp only; rw [hp]) ?_
              unfold react; rw [hu]; dsimp only; rw [hp]
              exact reported_units _ _
        · rename_i hev
          have key : ∀ t, seen t = seen c.trace ++ [(ch, payload)] → (onVideo (seen t)).map (·.2) = videoOf c := by
            intro t ht; rw [ht, onVideo_snoc_odd hev]; rfl
          split at h
          · cases h
          · injection h with h; subst h
            unfold ReplayInv videoOf
            rw [key _ rfl]
            exact hi
          · injection h with h; subst h
            unfold ReplayInv videoOf
            rw [key _ rfl]
            exact hi

theorem csteps_replay {s0 : NALSink} {w : World} (es : List CEv) : ∀ {c c' : Client}, ReplayInv s0 c → csteps w c es = .ok c' → ReplayInv s0 c' := by
  induction es with
  | nil => intro c c' hi h; injection h with h; subst h; exact hi
  | cons e es ih =>
    intro c c' hi h
    unfold csteps at h
    cases hs : cstep w c e with
    | error p => rw [hs] at h; cases h
    | ok d => rw [hs] at h; exact ih (cstep_replay hi hs) h

/-- The sink and the reported units of a reachable client are those of a replay of its packets. -/
theorem client_replay {w : World} {c : Client} (h : ClientReachable w c) : replay newNALSink (videoOf c) = (c.sink, reported c.trace) := by
  obtain ⟨uri, user, rdr, n, c0, es, h1, h2⟩ := h
  refine csteps_replay es ?_ h2
  obtain ⟨b, hb, _, h1, _⟩ := early_before h1
  obtain ⟨i1, i2, i3⟩ := order_seen h1
  obtain ⟨k1, k2, _⟩ := acts_seen hb.acts
  unfold ReplayInv videoOf
  rw [i1, i2, i3, k1, k2, hb.sink]
  rfl

end Ouro
