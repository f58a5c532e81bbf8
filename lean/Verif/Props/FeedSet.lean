import Verif.Props.TransportField
import Verif.Props.Transport
import Verif.Props.Sprop
/-! # C109: a feed says it is set up when it is -/
namespace Ouro
open Spec

/-- Specification: all the parameter sets of a description, one after the other, can be read; from `st` the sets known become `st'`. -/
inductive Spec.SetsRead (inf : Nat) : ParameterSets → List Bytes → ParameterSets → Prop
  | nil (st) : SetsRead inf st [] st
  | cons {st b st1 bs st2} : parseSprop inf st b = .ok (none, st1) → SetsRead inf st1 bs st2 → SetsRead inf st (b :: bs) st2

theorem spropLoop_reads (inf : Nat) (bs : List Bytes) : ∀ {st st' : ParameterSets} {e : Option H264Err}, spropLoop inf st bs = .ok (st', e) → (e = none ↔ SetsRead inf st bs st') := by
  induction bs with
  | nil => intro st st' e h; injection h with h; injection h with h1 h2; subst h1 h2; exact ⟨fun _ => .nil _, fun _ => rfl⟩
  | cons b bs ih =>
    intro st st' e h
    rw [spropLoop] at h
    cases hp : parseSprop inf st b with
    | error p => rw [hp] at h; cases h
    | ok r =>
      obtain ⟨e1, st1⟩ := r
      rw [hp] at h
      cases e1 with
      | some e1 =>
        injection h with h; injection h with h1 h2; subst h1 h2
        refine ⟨fun h => by (cases h), fun h => ?_⟩
        cases h with
        | cons h1 h2 => rw [hp] at h1; cases h1
      | none =>
        have h : spropLoop inf st1 bs = .ok (st', e) := h
        rw [ih h]
        refine ⟨fun g => .cons hp g, fun g => ?_⟩
        cases g with
        | cons h1 h2 => rw [hp] at h1; injection h1 with h1; injection h1 with _ h1; subst h1; exact h2

/-- C109: `TransportSetup` returns no error exactly if every field of the header has the value its name needs and every parameter set of the
description can be read. The description, its number and (when it fails) the mark stay as they are. -/
theorem C109_accepted_iff (inf : Nat) (f f' : Feed) (e : Option FeedErr) (fields : List Bytes) (h0 : fields ≠ []) (hf : ∀ x ∈ fields, (59 : UInt8) ∉ x)
    (h : f.transportSetup inf (joinSep 59 fields) = .ok (f', e)) :
    (e = none ↔ (∀ x ∈ fields, FieldOk x) ∧ SetsRead inf f.sets f.media.spropParameterSets f'.sets) ∧
    (f'.isSet = true ↔ f.isSet = true ∨ e = none) ∧ f'.media = f.media ∧ f'.cseq = f.cseq := by
  have hacc := C85_accepted_iff f.transp fields h0 hf
  unfold Feed.transportSetup at h
  split at h
  · rename_i t e1 hp
    injection h with h; injection h with h1 h2; subst h1 h2
    rw [hp] at hacc
    refine ⟨⟨fun h => by (cases h), fun h => ?_⟩, ⟨.inl, fun h => ?_⟩, rfl, rfl⟩
    · have := hacc.2 h.1; cases this
    · rcases h with h | h
      · exact h
      · cases h
  · rename_i t hp
    rw [hp] at hacc
    cases hs : spropLoop inf f.sets f.media.spropParameterSets with
    | error p => rw [hs] at h; cases h
    | ok r =>
      obtain ⟨st, e1⟩ := r
      rw [hs] at h
      have hr := spropLoop_reads inf _ hs
      cases e1 with
      | some e1 =>
        injection h with h; injection h with h1 h2; subst h1 h2
        refine ⟨⟨fun h => by (cases h), fun h => ?_⟩, ⟨.inl, fun h => ?_⟩, rfl, rfl⟩
        · have := hr.2 h.2; cases this
        · rcases h with h | h
          · exact h
          · cases h
      | none =>
        injection h with h; injection h with h1 h2; subst h1 h2
        exact ⟨⟨fun _ => ⟨hacc.1 rfl, hr.1 rfl⟩, fun _ => rfl⟩, ⟨fun _ => .inr rfl, fun _ => rfl⟩, rfl, rfl⟩

/-- Calls of `TransportSetup` one after the other: the feed after them and what they returned. -/
inductive Spec.SetupCalls (inf : Nat) : Feed → List (Bytes × Option FeedErr) → Feed → Prop
  | nil (f) : SetupCalls inf f [] f
  | cons {f v f1 e cs f2} : f.transportSetup inf v = .ok (f1, e) → SetupCalls inf f1 cs f2 → SetupCalls inf f ((v, e) :: cs) f2

theorem setupCalls_set {inf : Nat} {f f' : Feed} {cs : List (Bytes × Option FeedErr)} (h : SetupCalls inf f cs f') :
    (f'.isSet = true ↔ f.isSet = true ∨ ∃ c ∈ cs, c.2 = none) ∧ f'.media = f.media := by
  induction h with
  | nil f => exact ⟨⟨.inl, fun h => by rcases h with h | ⟨c, hc, _⟩; exact h; cases hc⟩, rfl⟩
  | @cons f v f1 e cs f2 h1 _ ih =>
    obtain ⟨fields, h0, hf, rfl⟩ : ∃ fields, fields ≠ [] ∧ (∀ x ∈ fields, (59 : UInt8) ∉ x) ∧ joinSep 59 fields = v := ⟨split 59 v, split_ne_nil _ _, split_mem v, split_joinSep 59 v⟩
    obtain ⟨_, h2, h3, _⟩ := C109_accepted_iff inf f f1 e fields h0 hf h1
    refine ⟨?_, ih.2.trans h3⟩
    rw [ih.1, h2]
    constructor
    · rintro ((h | h) | ⟨c, hc, h⟩)
      · exact .inl h
      · exact .inr ⟨_, List.mem_cons_self, h⟩
      · exact .inr ⟨c, List.mem_cons_of_mem _ hc, h⟩
    · rintro (h | ⟨c, hc, h⟩)
      · exact .inl (.inl h)
      · rcases List.mem_cons.1 hc with rfl | hc
        · exact .inl (.inr h)
        · exact .inr ⟨c, hc, h⟩

/-- C109: a feed of a description says it is set up exactly if one of the calls of `TransportSetup` has succeeded, whatever headers they were
given. -/
theorem C109_set_iff (inf : Nat) (proto : Proto) (buf : Bytes) (feeds : List Feed) (hp : parseFeeds proto buf = .ok feeds) (f f' : Feed) (hf : f ∈ feeds)
    (cs : List (Bytes × Option FeedErr)) (h : SetupCalls inf f cs f') : f'.isSet = true ↔ ∃ c ∈ cs, c.2 = none := by
  have hnew : f.isSet = false := by
    obtain ⟨h1, h2⟩ := C48_feeds proto buf
    rw [h1] at hp
    cases hs : sdpParse buf with
    | error p => rw [hs] at hp; cases hp
    | ok ms => rw [hs] at hp; injection hp with hp; subst hp; exact (h2 ms).2 f hf
  rw [(setupCalls_set h).1, hnew]
  simp

/-- A feed with a sequence parameter set, as in `C99_sps_partial`; three calls of which the second succeeds. -/
example : ∃ feeds f f', parseFeeds .tcp (b!"m=video 0 RTP/AVP 96\r\na=fmtp:96 packetization-mode=1; sprop-parameter-sets=" ++ b64Encode (0x67 :: sentTimed) ++ b!"\r\n") = .ok feeds ∧
    f ∈ feeds ∧ f.media.spropParameterSets = [0x67 :: sentTimed] ∧
    SetupCalls 0 f [(b!"ttl", some (.transp .malformed)), (b!"RTP/AVP/TCP;interleaved=2-3", none), (b!"port", some (.transp .malformed))] f' ∧
    f'.isSet = true := by
  have key : ∀ (f : Feed) (v : Bytes), (f.transportSetup 0 v).toOption.map (·.2) = some none → ∃ f', f.transportSetup 0 v = .ok (f', none) := by
    intro f v h
    cases hr : f.transportSetup 0 v with
    | error p => rw [hr] at h; cases h
    | ok r =>
      obtain ⟨f', e⟩ := r
      rw [hr] at h
      injection h with h
      exact ⟨f', by rw [show e = none from h]⟩
  obtain ⟨f', hf'⟩ := key { media := { payloadType := 96, spropParameterSets := [0x67 :: sentTimed] }, transp := transpLower (newTransport .tcp 0) b!"ttl", sets := newParameterSets }
    b!"RTP/AVP/TCP;interleaved=2-3" (by decide +kernel)
  have hc : SetupCalls 0 { media := { payloadType := 96, spropParameterSets := [0x67 :: sentTimed] }, transp := newTransport .tcp 0, sets := newParameterSets }
      [(b!"ttl", some (.transp .malformed)), (b!"RTP/AVP/TCP;interleaved=2-3", none), (b!"port", some (.transp .malformed))] _ :=
    .cons rfl (.cons hf' (.cons rfl (.nil _)))
  exact ⟨_, _, _, rfl, List.mem_singleton.2 rfl, rfl, hc, (setupCalls_set hc).1.2 (.inr ⟨_, List.mem_cons_of_mem _ List.mem_cons_self, rfl⟩)⟩

/-- C109 fails for refused headers: a call that returns an error changes the feed. The mark of the call before stays, and the transport is now
another one. -/
theorem C109_failed_refuted : ∃ feeds f f1 f2 e, parseFeeds .tcp b!"m=video 0 RTP/AVP 96\r\n" = .ok feeds ∧ f ∈ feeds ∧
    f.transportSetup 0 b!"RTP/AVP/TCP;interleaved=2-3" = .ok (f1, none) ∧ f1.isSet = true ∧ f1.transp.isTCP = true ∧
    f1.transportSetup 0 b!"RTP/AVP/UDP;unicast;port" = .ok (f2, some e) ∧ f2.isSet = true ∧ f2.transp.isTCP = false :=
  ⟨_, _, _, _, _, rfl, List.mem_singleton.2 rfl, rfl, rfl, rfl, rfl, rfl, rfl⟩

end Ouro
