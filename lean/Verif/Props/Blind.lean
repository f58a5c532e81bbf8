import Verif.Lemmas.Replay
import Verif.Props.Streams
/-! # C107: only the described stream becomes video -/
namespace Ouro
open Spec

theorem react_media (s : NALSink) {p q : RtpWire} (hp : p.Valid) (hq : q.Valid) (hts : p.ts = q.ts) (hb : p.body = q.body) : react s p.encode = react s q.encode := by
  obtain ⟨a, a1, a2⟩ := C23_unpack p hp
  obtain ⟨b, b1, b2⟩ := C23_unpack q hq
  have e1 : a.ts = b.ts := by rw [a2.2.2.2.2.2.2.1, b2.2.2.2.2.2.2.1, hts]
  have e2 : a.pl = b.pl := by rw [a2.2.2.2.2.2.2.2.2.2.2.2, b2.2.2.2.2.2.2.2.2.2.2.2, hb]
  unfold react
  rw [a1, b1]
  dsimp only
  rw [e1, e2]

theorem replay_media (ps : List RtpWire) : ∀ (qs : List RtpWire) (s : NALSink), (∀ p ∈ ps, p.Valid) → (∀ q ∈ qs, q.Valid) →
    ps.map (fun p => (p.ts, p.body)) = qs.map (fun q => (q.ts, q.body)) → replay s (ps.map RtpWire.encode) = replay s (qs.map RtpWire.encode) := by
  induction ps with
  | nil =>
    intro qs s _ _ h
    have : qs = [] := List.map_eq_nil_iff.1 h.symm
    subst this; rfl
  | cons p ps ih =>
    intro qs s hp hq h
    cases qs with
    | nil => cases h
    | cons q qs =>
      rw [List.map_cons, List.map_cons] at h
      injection h with h1 h2
      injection h1 with h3 h4
      rw [List.map_cons, List.map_cons, replay, replay, react_media s (hp p (by simp)) (hq q (by simp)) h3 h4,
        ih qs _ (fun x hx => hp x (List.mem_cons_of_mem _ hx)) (fun x hx => hq x (List.mem_cons_of_mem _ hx)) h2]

/-- C107, what the code does instead: what the client reports depends on the timestamps and contents of the packets alone. Two clients, with
whatever servers, descriptions and schedules; they have taken packets with the same timestamps and contents, and whatever payload
types, sources, sequence numbers, markers, extensions and contributing sources, on whatever even channels. Then they have reported the same. -/
theorem C107_blind_exact (w w' : World) (c c' : Client) (hr : ClientReachable w c) (hr' : ClientReachable w' c') (ps qs : List RtpWire)
    (hp : ∀ p ∈ ps, p.Valid) (hq : ∀ q ∈ qs, q.Valid) (h : (onVideo (seen c.trace)).map (·.2) = ps.map RtpWire.encode)
    (h' : (onVideo (seen c'.trace)).map (·.2) = qs.map RtpWire.encode)
    (hm : ps.map (fun p => (p.ts, p.body)) = qs.map (fun q => (q.ts, q.body))) : reported c.trace = reported c'.trace := by
  have e1 := client_replay hr
  have e2 := client_replay hr'
  unfold videoOf at e1 e2
  rw [h, replay_media ps qs _ hp hq hm, ← h', e2] at e1
  injection e1 with _ e1
  exact e1.symm

/-- C107 fails for every foreign packet that looks like a unit: whatever the payload types in the description are, a packet of another type,
from any source, with a unit in it, is reported as a unit of video. -/
theorem C107_foreign_refuted (w : World) (c : Client) (hr : ClientReachable w c) (v : Video) (hv : v.Valid) (u : Nal) (hu : v.load = .single u)
    (_ : ∀ f ∈ c.sess.feeds, f.media.payloadType ≠ v.rtp.pt) (h : onVideo (seen c.trace) = [(v.ch, v.rtp.encode)]) :
    reported c.trace = [(u.header, v.rtp.ts, u.data)] := by
  rw [C66_pipeline_partial w c hr [v] ⟨h, by intro x hx; rw [List.mem_singleton] at hx; subst hx; exact hv⟩]
  simp [depacketize, hu, Load.units]

/-- A packet of G.711 audio (payload type 0), from another source, on the channel of a stream described with type 96. -/
def demoAudio : RtpWire := ⟨false, false, 0, 1, 90, 99, [], none, [0x65, 1]⟩

/-- The conditions are met, and so it is reported as a unit of video. -/
theorem C107_audio_refuted : ∃ c, ClientReachable demoWorld c ∧ c.sess.feeds.map (·.media.payloadType) = [96] ∧
    onVideo (seen c.trace) = [(0, demoAudio.encode)] ∧ reported c.trace = [(0x65, 90, [1])] := by
  obtain ⟨c, h1, h2⟩ := demoClient_shows (frames := [demoAudio.encode]) (es := demoPlay ++ demoFrame)
    (f := fun c => (c.sess.feeds.map (·.media.payloadType), onVideo (seen c.trace))) (a := ([96], [(0, demoAudio.encode)])) (by decide +kernel)
  injection h2 with h2 h3
  refine ⟨c, h1, h2, h3, C107_foreign_refuted demoWorld c h1 ⟨0, demoAudio, .single ⟨0x65, [1]⟩⟩ ?_ ⟨0x65, [1]⟩ rfl ?_ h3⟩
  · refine ⟨by decide, ⟨by decide, by decide, by decide, by decide, by decide, ?_, ?_⟩, by decide, by decide, show (0x65 : UInt8) &&& 0x1F ∉ [24, 25, 26, 27, 28, 29] by decide⟩
    · intro x hx; cases hx
    · intro x hx; cases hx
  · intro f hf
    have : f.media.payloadType ∈ c.sess.feeds.map (·.media.payloadType) := List.mem_map_of_mem hf
    rw [h2, List.mem_singleton] at this
    rw [this]
    decide

/-- Two clients as in `C107_blind_exact`: one got the packets of the stream, the other the same contents as audio. -/
example : ∃ c c', ClientReachable demoWorld c ∧ ClientReachable demoWorld c' ∧ onVideo (seen c.trace) = [(0, demoAudio.encode)] ∧
    onVideo (seen c'.trace) = [(0, { demoAudio with pt := 96, ssrc := 7 }.encode)] ∧ reported c.trace = reported c'.trace := by
  obtain ⟨c, h1, h2⟩ := demoClient_shows (frames := [demoAudio.encode]) (es := demoPlay ++ demoFrame)
    (f := fun c => onVideo (seen c.trace)) (a := [(0, demoAudio.encode)]) (by decide +kernel)
  obtain ⟨c', h1', h2'⟩ := demoClient_shows (frames := [{ demoAudio with pt := 96, ssrc := 7 }.encode]) (es := demoPlay ++ demoFrame)
    (f := fun c => onVideo (seen c.trace)) (a := [(0, { demoAudio with pt := 96, ssrc := 7 }.encode)]) (by decide +kernel)
  refine ⟨c, c', h1, h1', h2, h2', C107_blind_exact _ _ c c' h1 h1' [demoAudio] [{ demoAudio with pt := 96, ssrc := 7 }] ?_ ?_ (by rw [h2]; rfl) (by rw [h2']; rfl) rfl⟩
  · intro p hp
    rw [List.mem_singleton] at hp; subst hp
    refine ⟨by decide, by decide, by decide, by decide, by decide, ?_, ?_⟩
    · intro x hx; cases hx
    · intro x hx; cases hx
  · intro p hp
    rw [List.mem_singleton] at hp; subst hp
    refine ⟨by decide, by decide, by decide, by decide, by decide, ?_, ?_⟩
    · intro x hx; cases hx
    · intro x hx; cases hx

end Ouro
