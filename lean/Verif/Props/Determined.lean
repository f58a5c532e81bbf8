import Verif.Props.Main
/-!
# C114: what is reported depends on the video packets alone
-/
namespace Ouro
open Spec

/-- What one packet does to the sink and to what has been reported. -/
def fed (s : NALSink × List (UInt8 × Nat × Bytes)) (x : UInt8 × Bytes) : NALSink × List (UInt8 × Nat × Bytes) :=
  if x.1 % 2 = 0 then
    match rtpUnpack x.2 with
    | .ok (.ok p) =>
      match push s.1 p.pl p.ts with
      | .ok (none, sink) => (sink, s.2 ++ sink.units.map shown)
      | .ok (some _, sink) => (sink, s.2)
      | .error _ => s
    | _ => s
  else s

theorem packet_fed {c c' : Client} (h : clientPacket c = .ok c') :
    (seen c'.trace = seen c.trace ∧ (c'.sink, reported c'.trace) = (c.sink, reported c.trace)) ∨
    ∃ x, seen c'.trace = seen c.trace ++ [x] ∧ (c'.sink, reported c'.trace) = fed (c.sink, reported c.trace) x := by
  unfold clientPacket at h
  split at h
  · injection h with h; subst h; exact .inl ⟨rfl, rfl⟩
  · next ch payload rest hd =>
    refine .inr ⟨(ch, payload), ?_⟩
    dsimp only at h
    unfold fed
    dsimp only
    by_cases hev : ch % 2 = 0
    · rw [if_pos hev] at h ⊢
      split at h
      · cases h
      · next hq => rw [hq]; injection h with h; subst h; exact ⟨rfl, rfl⟩
      · next p hq =>
        rw [hq]
        dsimp only
        split at h
        · cases h
        · next hp => rw [hp]; injection h with h; subst h; exact ⟨rfl, rfl⟩
        · next sink hp =>
          rw [hp]; injection h with h; subst h
          refine ⟨seen_frees (fun a ha ch p e => by rw [List.mem_reverse, List.mem_map] at ha; obtain ⟨u, _, rfl⟩ := ha; cases e) _, ?_⟩
          show (sink, reported ((sink.units.map Act.unit).reverse ++ _)) = _
          rw [reported_units]
          rfl
    · rw [if_neg hev] at h ⊢
      split at h
      · cases h
      · injection h with h; subst h; exact ⟨rfl, rfl⟩
      · injection h with h; subst h; exact ⟨rfl, rfl⟩

theorem cstep_fed {w : World} {c c' : Client} {e : CEv} (h : cstep w c e = .ok c') :
    (seen c'.trace = seen c.trace ∧ (c'.sink, reported c'.trace) = (c.sink, reported c.trace)) ∨
    ∃ x, seen c'.trace = seen c.trace ++ [x] ∧ (c'.sink, reported c'.trace) = fed (c.sink, reported c.trace) x := by
  have same : ∀ {d : Client}, seen d.trace = seen c.trace ∧ reported d.trace = reported c.trace ∧ d.sink = c.sink →
      (seen d.trace = seen c.trace ∧ (d.sink, reported d.trace) = (c.sink, reported c.trace)) ∨
      ∃ x, seen d.trace = seen c.trace ++ [x] ∧ (d.sink, reported d.trace) = fed (c.sink, reported c.trace) x := by
    rintro d ⟨h1, h2, h3⟩; exact .inl ⟨h1, by rw [h2, h3]⟩
  unfold cstep at h
  split at h
  · injection h with h; subst h; exact same ⟨rfl, rfl, rfl⟩
  · cases e with
    | read =>
      dsimp only at h
      unfold clientRead at h
      split at h
      · split at h
        · injection h with h; subst h; exact same ⟨rfl, rfl, rfl⟩
        · injection h with h; subst h; exact same ⟨rfl, rfl, rfl⟩
        · split at h
          · cases h
          · injection h with h; subst h
            exact same ⟨(adopt_seen _ _).1, (adopt_seen _ _).2, rfl⟩
      · injection h with h; subst h; exact same ⟨rfl, rfl, rfl⟩
    | timer =>
      dsimp only at h
      unfold clientTimer at h
      split at h
      · dsimp only at h
        split at h
        · exact same (by obtain ⟨j1, j2, j3⟩ := order_seen h; exact ⟨j1, j2, j3⟩)
        · split at h
          · exact same (by obtain ⟨j1, j2, j3⟩ := order_seen h; exact ⟨j1, j2, j3⟩)
          · split at h
            · injection h with h; subst h; exact same ⟨rfl, rfl, rfl⟩
            · injection h with h; subst h; exact same ⟨rfl, rfl, rfl⟩
      · injection h with h; subst h; exact same ⟨rfl, rfl, rfl⟩
    | stage =>
      dsimp only at h
      unfold clientStage at h
      split at h
      · injection h with h; subst h; exact same ⟨rfl, rfl, rfl⟩
      · dsimp only at h
        split at h
        · exact same (by obtain ⟨j1, j2, j3⟩ := order_seen h; exact ⟨j1, j2, j3⟩)
        · split at h
          · injection h with h; subst h; exact same ⟨rfl, rfl, rfl⟩
          · split at h
            · injection h with h; subst h; exact same ⟨rfl, rfl, rfl⟩
            · split at h
              · injection h with h; subst h; exact same ⟨rfl, rfl, rfl⟩
              · injection h with h; subst h; exact same ⟨rfl, rfl, rfl⟩
    | expire =>
      injection h with h; subst h
      split
      · exact same ⟨rfl, rfl, rfl⟩
      · exact same ⟨rfl, rfl, rfl⟩
    | packet => exact packet_fed h

theorem client_fed {w : World} {c : Client} (h : ClientReachable w c) : (c.sink, reported c.trace) = (seen c.trace).foldl fed (newNALSink, []) := by
  obtain ⟨uri, user, rdr, n, c0, es, h1, h2⟩ := h
  have h0 : (c0.sink, reported c0.trace) = (seen c0.trace).foldl fed (newNALSink, []) := by
    obtain ⟨b, hb, _, h1, _⟩ := early_before h1
    obtain ⟨i1, i2, i3⟩ := order_seen h1
    obtain ⟨k1, k2, _⟩ := acts_seen hb.acts
    rw [i1, i2, i3, k1, k2, hb.sink]
    rfl
  clear h1
  induction es generalizing c0 with
  | nil => injection h2 with h2; subst h2; exact h0
  | cons e es ih =>
    unfold csteps at h2
    cases hs : cstep w c0 e with
    | error p => rw [hs] at h2; cases h2
    | ok d =>
      rw [hs] at h2
      refine ih d h2 ?_
      rcases cstep_fed hs with ⟨k1, k2⟩ | ⟨x, k1, k2⟩
      · rw [k1, k2, h0]
      · rw [k1, k2, h0, List.foldl_append]
        rfl

/-- Only the packets on even channels count, and of those only the bytes. -/
theorem foldl_fed_video (ps : List (UInt8 × Bytes)) : ∀ s, ps.foldl fed s = ((onVideo ps).map Prod.snd).foldl (fun s p => fed s (0, p)) s := by
  induction ps with
  | nil => intro s; rfl
  | cons x ps ih =>
    intro s
    unfold onVideo at ih ⊢
    by_cases hev : x.1 % 2 = 0
    · rw [List.filter_cons_of_pos (a := x) (decide_eq_true hev), List.map_cons, List.foldl_cons, List.foldl_cons, ← ih]
      congr 1
      unfold fed
      rw [if_pos hev, if_pos (show (0 : UInt8) % 2 = 0 by decide)]
    · rw [List.filter_cons_of_neg (a := x) (fun h => hev (of_decide_eq_true h)), List.foldl_cons, ← ih]
      congr 1
      unfold fed
      rw [if_neg hev]

theorem fed_grows (s : NALSink × List (UInt8 × Nat × Bytes)) (x : UInt8 × Bytes) : s.2 <+: (fed s x).2 := by
  unfold fed
  split
  · split
    · split
      · exact List.prefix_append ..
      · exact List.prefix_rfl
      · exact List.prefix_rfl
    · exact List.prefix_rfl
  · exact List.prefix_rfl

theorem feeds_grow (ps : List Bytes) : ∀ s, s.2 <+: (ps.foldl (fun s p => fed s (0, p)) s).2 := by
  induction ps with
  | nil => intro s; exact List.prefix_rfl
  | cons p ps ih => intro s; exact (fed_grows s (0, p)).trans (ih _)

theorem reported_fed {w : World} {c : Client} (h : ClientReachable w c) :
    reported c.trace = ((videoBytes c.trace).foldl (fun s p => fed s (0, p)) (newNALSink, [])).2 := by
  have := client_fed h
  rw [foldl_fed_video] at this
  exact congrArg Prod.snd this

/-- C114: two clients that have taken the same video packets have reported the same units, whatever the addresses, credentials, servers,
connections, control packets, answers, timers and schedules. -/
theorem C114_determined (w w' : World) (c c' : Client) (h : ClientReachable w c) (h' : ClientReachable w' c')
    (hs : videoBytes c.trace = videoBytes c'.trace) : reported c.trace = reported c'.trace := by
  rw [reported_fed h, reported_fed h', hs]

/-- C114: packets that come later never change what was reported for those before. -/
theorem C114_prefix (w w' : World) (c c' : Client) (h : ClientReachable w c) (h' : ClientReachable w' c')
    (hs : videoBytes c.trace <+: videoBytes c'.trace) : reported c.trace <+: reported c'.trace := by
  rw [reported_fed h, reported_fed h']
  obtain ⟨more, hm⟩ := hs
  rw [← hm, List.foldl_append]
  exact feeds_grow more _

/-- C114: a step of the client that takes no video packet reports nothing. -/
theorem C114_only_packets (w : World) (c c' : Client) (e : CEv) (hs : cstep w c e = .ok c')
    (hv : videoBytes c'.trace = videoBytes c.trace) : reported c'.trace = reported c.trace := by
  rcases cstep_fed hs with ⟨_, k2⟩ | ⟨x, k1, k2⟩
  · exact congrArg Prod.snd k2
  · have : x.1 % 2 ≠ 0 := fun hev => by
      unfold videoBytes at hv
      rw [k1, onVideo_snoc_even (ch := x.1) (p := x.2) hev] at hv
      have := congrArg List.length hv
      simp at this
    have k3 : fed (c.sink, reported c.trace) x = (c.sink, reported c.trace) := by unfold fed; rw [if_neg this]
    rw [k3] at k2
    exact congrArg Prod.snd k2

/-- Two runs with the same four packets: one that goes on, and one that took them in one go and is over. -/
example : ∃ c c', ClientReachable demoWorld c ∧ ClientReachable demoWorld c' ∧ c.ended = false ∧ c'.ended = true ∧
    videoBytes c.trace = videoBytes c'.trace ∧ (reported c.trace).length = 4 := by
  obtain ⟨c, h1, h2⟩ := demoClient_shows (frames := demoVideo.map (·.rtp.encode)) (es := demoPlay ++ demoFrame ++ demoFrame ++ demoFrame ++ demoFrame)
    (f := fun c => decide (videoBytes c.trace = demoVideo.map (·.rtp.encode) ∧ (reported c.trace).length = 4 ∧ c.ended = false)) (a := true) (by decide +kernel)
  obtain ⟨c', h1', h2'⟩ := demoClient_shows (frames := demoVideo.map (·.rtp.encode)) (es := demoPlay ++ [.read, .read, .read, .read, .packet, .packet, .packet, .packet] ++ demoStop)
    (f := fun c => decide (videoBytes c.trace = demoVideo.map (·.rtp.encode) ∧ c.ended = true)) (a := true) (by decide +kernel)
  obtain ⟨k1, k2, k3⟩ := of_decide_eq_true h2
  obtain ⟨k1', k3'⟩ := of_decide_eq_true h2'
  exact ⟨c, c', h1, h1', k3, k3', k1.trans k1'.symm, k2⟩

end Ouro
