import Verif.Lemmas.Transport
/-! # C46–C48, C69: the `Transport` header and the feeds -/
namespace Ouro
open Spec

/-! ## C47 -/

/-- A machine `int`. -/
def IsInt (i : Int) : Prop := -(2 ^ 63) ≤ i ∧ i < 2 ^ 63

/-- C47: exactly what `ParsePair(p.String())` is, for every pair of `int`s. -/
theorem C47_pair (p : Pair) (h1 : IsInt p.one) (h2 : IsInt p.two) :
    parsePair p.string =
      if p.one < 0 then (⟨0, 0⟩, some .syntax)
      else if p.two < 0 then (⟨p.one, i64 (p.one + 1)⟩, some .syntax)
      else (p, none) := by
  obtain ⟨a, b⟩ := p
  unfold IsInt at h1 h2
  dsimp only at *
  by_cases ha : a < 0
  · rw [if_pos ha]
    have : (⟨a, b⟩ : Pair).string = 45 :: (natDigits a.natAbs ++ b!"-" ++ itoa b) := by
      unfold Pair.string itoa; dsimp only; rw [if_pos ha]; rfl
    rw [this]
    unfold parsePair
    rw [split, if_pos rfl]
    rfl
  · rw [if_neg ha]
    obtain ⟨n, rfl⟩ := Int.eq_ofNat_of_zero_le (by omega : 0 ≤ a)
    by_cases hb : b < 0
    · rw [if_pos hb]
      have : (⟨n, b⟩ : Pair).string = natDigits n ++ 45 :: ([] ++ 45 :: natDigits b.natAbs) := by
        unfold Pair.string; dsimp only; rw [itoa_nat]; unfold itoa; rw [if_pos hb]; simp
      rw [this]
      unfold parsePair
      rw [split_append _ (digits_not_mem n 45 dash_digit), split_append _ (by simp)]
      dsimp only
      rw [atoi_natDigits n (by omega)]
      rfl
    · rw [if_neg hb]
      have := parsePair_range (rangeOf ⟨n, b⟩) (rangeOf_wf (by dsimp only; omega) (by dsimp only; omega))
      rw [← rangeOf_text (by dsimp only; omega) (by dsimp only; omega), rangeOf_pair (by dsimp only; omega) (by dsimp only; omega)] at this
      exact this

/-- C47: a pair comes back from its text without error exactly if neither number is negative. -/
theorem C47_restored_iff (p : Pair) (h1 : IsInt p.one) (h2 : IsInt p.two) :
    parsePair p.string = (p, none) ↔ 0 ≤ p.one ∧ 0 ≤ p.two := by
  rw [C47_pair p h1 h2]
  by_cases ha : p.one < 0
  · rw [if_pos ha]
    exact ⟨fun h => by (injection h with _ h; cases h), fun h => by omega⟩
  · rw [if_neg ha]
    by_cases hb : p.two < 0
    · rw [if_pos hb]
      exact ⟨fun h => by (injection h with _ h; cases h), fun h => by omega⟩
    · rw [if_neg hb]
      exact ⟨fun _ => by omega, fun _ => rfl⟩

example : parsePair (⟨50000, 50001⟩ : Pair).string = (⟨50000, 50001⟩, none) := by decide

/-- C47 is the property's reading for non-negative pairs: the text is the two decimal numbers around a dash. -/
theorem C47_text (a b : Nat) : (⟨a, b⟩ : Pair).string = natDigits a ++ b!"-" ++ natDigits b := by
  unfold Pair.string; dsimp only; rw [itoa_nat, itoa_nat]

/-! ## C69: the server's header -/

/-- C69: for every header made of the parameters of the grammar, in any order and letter case, every parameter's value is
stored (the last one wins if a parameter is repeated), parameters not mentioned are left as they were, and there is no
error. -/
theorem C69_server_header_partial (t : Transport) (low : Lower) (items : List TItem) (h : ∀ i ∈ items, i.WF) :
    t.parse (transportText low items) = (items.foldl (fun t i => i.param.apply t) (low.apply t), none) :=
  parse_text t low items h

example : ∃ items : List TItem, (∀ i ∈ items, i.WF) ∧ transportText .udp items =
    b!"RTP/AVP/UDP;Unicast;client_port=50000-50001;SERVER_PORT=6000;ssrc=1234ABCD" ∧
    ((newTransport .unicast 0).parse (transportText .udp items)).1.serverPort = ⟨6000, 0⟩ := by
  refine ⟨[⟨b!"Unicast", .unicast⟩, ⟨b!"client_port", .clientPort ⟨50000, some 50001⟩⟩, ⟨b!"SERVER_PORT", .serverPort ⟨6000, none⟩⟩,
    ⟨b!"ssrc", .ssrc b!"1234ABCD"⟩], ?_, ?_, ?_⟩
  · intro i hi
    simp only [List.mem_cons, List.not_mem_nil, or_false] at hi
    rcases hi with rfl | rfl | rfl | rfl
    · exact ⟨rfl, trivial⟩
    · exact ⟨rfl, show (50000:Nat) < 2 ^ 63 by decide, fun h hh => by injection hh with hh; subst hh; show (50001:Nat) < 2 ^ 63; decide⟩
    · exact ⟨rfl, show (6000:Nat) < 2 ^ 63 by decide, fun h hh => by cases hh⟩
    · exact ⟨rfl, by decide, by decide⟩
  · decide
  · decide

/-- C69 fails without the restriction on slashes: a destination with two slashes switches the lower transport. -/
theorem C69_refuted : ∃ items : List TItem, (∀ i ∈ items, i.written = i.param.name) ∧
    items.map (·.param) = [.destination b!"rtsp://host"] ∧
    ((newTransport .tcp 0).parse (transportText .tcp items)).1.isTCP = false := by
  exact ⟨[⟨b!"destination", .destination b!"rtsp://host"⟩], by simp [TParam.name], rfl, by decide⟩

/-- C69: a lone port leaves the second number of the pair unset, also when the transport had one. -/
theorem C69_lone_port (t : Transport) (n : Nat) (h : n < 2 ^ 63) :
    t.parse (b!"RTP/AVP;client_port=" ++ natDigits n) = ({ t with clientPort := ⟨n, 0⟩ }, none) := by
  have := C69_server_header_partial t .unspecified [⟨b!"client_port", .clientPort ⟨n, none⟩⟩]
    (by intro i hi; rw [List.mem_singleton] at hi; subst hi; exact ⟨rfl, h, fun h hh => by cases hh⟩)
  simpa [transportText, TItem.text, TParam.value, Range.text, Lower.text, TParam.apply, Lower.apply, Range.pair] using this

/-! ## C46 -/

/-- C46: a server that repeats the header of the request leaves the transport as it is, for every transport that can be
written as a header and is not both interleaved and multicast. -/
theorem C46_echo_partial (t : Transport) (h : HeaderOk t) (hm : t.isInterleaved = true → t.isMulticast = false) :
    t.parse t.string = (t, none) := by
  rw [parse_string h]
  refine congrArg (fun x => (x, none)) ?_
  obtain ⟨tcp, mc, il, ap, i, p, c, s, l, tt, d, sr, ss, mo⟩ := t
  unfold merged
  dsimp only at *
  cases il <;> cases tcp <;> cases mc <;> cases ap <;> simp at hm ⊢ <;> simp +contextual

/-- C46: parsing the header into a fresh transport restores everything but the interleaved flag, for every transport whose
unwritten parameters have their defaults. -/
theorem C46_fresh_partial (t : Transport) (h : HeaderOk t)
    (hm : t.isInterleaved = true ∨ t.isTCP = true → t.isMulticast = false)
    (hi : t.isInterleaved = false → t.interleave = ⟨0, 0⟩)
    (hp : ¬ t.port.one > 0 → t.port = ⟨0, 0⟩) (hc : ¬ t.clientPort.one > 0 → t.clientPort = ⟨0, 0⟩)
    (hs : ¬ t.serverPort.one > 0 → t.serverPort = ⟨0, 0⟩)
    (ht : ¬ (t.isMulticast = true ∧ t.ttl > 0) → t.ttl = 0) (hl : 0 ≤ t.layers) (hmode : t.mode ≠ []) :
    ({ mode := b!"PLAY" } : Transport).parse t.string = ({ t with isInterleaved := false }, none) := by
  rw [parse_string h]
  refine congrArg (fun x => (x, none)) ?_
  obtain ⟨tcp, mc, il, ap, i, p, c, s, l, tt, d, sr, ss, mo⟩ := t
  unfold merged
  dsimp only at *
  simp only [Bool.or_false, ite_not, Transport.mk.injEq, true_and]
  refine ⟨?_, ?_, ?_, ?_, ?_, ?_, ?_, ?_, ?_, ?_, ?_⟩
  · cases il <;> cases tcp <;> simp_all
  · cases il <;> simp_all
  · split <;> simp_all
  · split <;> simp_all
  · split <;> simp_all
  · split <;> omega
  · split <;> simp_all
  · split <;> simp_all
  · split <;> simp_all
  · split <;> simp_all
  · by_cases hq : mo = b!"PLAY"
    · simp [hq]
    · simp [hq, hmode]

theorem newTransport_header (proto : Proto) (port : Int) (h1 : 0 ≤ port) (h2 : port < 2 ^ 62) : HeaderOk (newTransport proto port) := by
  have e1 : i64 (port + 1) = port + 1 := by unfold i64; omega
  have e2 : i64 (firstUDPPort + port) = 50000 + port := by unfold i64 firstUDPPort; omega
  have e3 : i64 (50000 + port + 1) = 50000 + port + 1 := by unfold i64; omega
  cases proto <;> constructor <;> simp [newTransport, e1, e2, e3, TextWF] <;> (try decide) <;> omega

/-- C46: for the transports the client creates itself, on every protocol and number: a server that repeats the header changes
nothing. -/
theorem C46_new (proto : Proto) (port : Int) (h1 : 0 ≤ port) (h2 : port < 2 ^ 62) :
    (newTransport proto port).parse (newTransport proto port).string = (newTransport proto port, none) :=
  C46_echo_partial _ (newTransport_header proto port h1 h2) (by cases proto <;> simp [newTransport])

example : (newTransport .unicast 4).string = b!"RTP/AVP;unicast;client_port=50004-50005" := by decide
example : (newTransport .tcp 2).string = b!"RTP/AVP/TCP;interleaved=2-3" := by decide

/-- The hypotheses of `C46_fresh_partial` hold of a transport with most of the parameters. -/
example : ∃ t : Transport, HeaderOk t ∧ (t.isInterleaved = true ∨ t.isTCP = true → t.isMulticast = false) ∧ t.isMulticast = true ∧
    t.string = b!"RTP/AVP;multicast;destination=224.2.0.1;append;port=3456-3457;ttl=127;layers=2;ssrc=1234ABCD;mode=RECORD" ∧
    ({ mode := b!"PLAY" } : Transport).parse t.string = (t, none) := by
  refine ⟨{ isMulticast := true, destination := b!"224.2.0.1", isAppend := true, port := ⟨3456, 3457⟩, ttl := 127, layers := 2, ssrc := b!"1234ABCD", mode := b!"RECORD" }, ?_, ?_, rfl, ?_, ?_⟩
  · constructor <;> simp [TextWF] <;> decide
  · simp
  · decide
  · exact C46_fresh_partial _ (by constructor <;> simp [TextWF] <;> decide) (by simp) (by simp) (by simp) (by simp) (by simp) (by simp) (by simp) (by simp)

/-- C46, exactly, for the transport that sent the header: of the transports that can be written, a server that repeats the header leaves those
unchanged that are not both interleaved and multicast, and no others. -/
theorem C46_echo_iff (t : Transport) (h : HeaderOk t) :
    t.parse t.string = (t, none) ↔ (t.isInterleaved = true → t.isMulticast = false) := by
  refine ⟨fun e hi => ?_, C46_echo_partial t h⟩
  rw [parse_string h] at e
  have := congrArg (fun x => x.1.isMulticast) e
  unfold merged at this
  simp only [hi, if_true] at this
  exact this.symm

/-- C46, exactly, for a fresh transport: of the transports that can be written, those come back that are not interleaved and have their
defaults in all that is not written, and no others. -/
theorem C46_fresh_iff (t : Transport) (h : HeaderOk t) :
    ({ mode := b!"PLAY" } : Transport).parse t.string = (t, none) ↔
      t.isInterleaved = false ∧ t.interleave = ⟨0, 0⟩ ∧ (t.isTCP = true → t.isMulticast = false) ∧
      (t.port.one > 0 ∨ t.port = ⟨0, 0⟩) ∧ (t.clientPort.one > 0 ∨ t.clientPort = ⟨0, 0⟩) ∧ (t.serverPort.one > 0 ∨ t.serverPort = ⟨0, 0⟩) ∧
      (t.ttl = 0 ∨ (t.isMulticast = true ∧ t.ttl > 0)) ∧ 0 ≤ t.layers ∧ t.mode ≠ [] := by
  constructor
  · intro e
    rw [parse_string h] at e
    have e := (Prod.mk.inj e).1
    obtain ⟨tcp, mc, il, ap, i, p, c, s, l, tt, d, sr, ss, mo⟩ := t
    unfold merged at e
    dsimp only at *
    simp only [Bool.or_false, Transport.mk.injEq] at e
    obtain ⟨h1, h2, h3, h4, h5, h6, h7, h8, h9, h10, h11, h12, h13, h14⟩ := e
    subst h3
    refine ⟨rfl, ?_, ?_, ?_, ?_, ?_, ?_, ?_, ?_⟩
    · simpa [eq_comm] using h5
    · intro ht; subst ht; simpa [eq_comm] using h2
    · by_cases hq : p.one > 0
      · exact .inl hq
      · rw [if_neg hq] at h6; exact .inr h6.symm
    · by_cases hq : c.one > 0
      · exact .inl hq
      · rw [if_neg hq] at h7; exact .inr h7.symm
    · by_cases hq : s.one > 0
      · exact .inl hq
      · rw [if_neg hq] at h8; exact .inr h8.symm
    · by_cases hq : mc = true ∧ tt > 0
      · exact .inr hq
      · simp only [hq, if_false] at h10; exact .inl h10.symm
    · by_cases hq : l > 0
      · omega
      · simp only [hq, if_false] at h9; omega
    · intro hm; subst hm; simp at h14
  · rintro ⟨h1, h2, h3, h4, h5, h6, h7, h8, h9⟩
    rw [C46_fresh_partial t h (by simpa [h1] using h3) (fun _ => h2) (fun hq => h4.resolve_left hq) (fun hq => h5.resolve_left hq)
      (fun hq => h6.resolve_left hq) (fun hq => h7.resolve_right hq) h8 h9]
    cases t; simp_all

/-- C46 fails as stated: the interleaved flag of no interleaved transport comes back in a fresh one. -/
theorem C46_interleaved_refuted (t : Transport) (h : HeaderOk t) (t0 : Transport) (h0 : t0.isInterleaved = false) :
    (t0.parse t.string).1.isInterleaved = false := by
  rw [parse_string h]; exact h0

/-- C46 fails as stated: ports whose first number is 0 or negative, a time to live without multicast and an empty mode are not
written. -/
theorem C46_unwritten_refuted : ∃ t : Transport, HeaderOk t ∧ t.serverPort = ⟨0, 1⟩ ∧ t.ttl = 3 ∧ t.mode = [] ∧
    ({ mode := b!"PLAY" } : Transport).parse t.string = ({ mode := b!"PLAY" }, none) := by
  refine ⟨{ serverPort := ⟨0, 1⟩, ttl := 3 }, by constructor <;> simp [TextWF], rfl, rfl, rfl, by decide⟩

/-! ## C48 -/

theorem feedsFrom_get (proto : Proto) (ms : List Media) : ∀ k i f, (feedsFrom proto k ms)[i]? = some f →
    i < ms.length ∧ f.transp = newTransport proto (i64 (((k + i : Nat) : Int) * 2)) := by
  induction ms with
  | nil => intro k i f h; simp [feedsFrom] at h
  | cons m ms ih =>
    intro k i f h
    cases i with
    | zero =>
      simp only [feedsFrom, List.getElem?_cons_zero, Option.some.injEq] at h
      subst h
      exact ⟨by simp, by simp⟩
    | succ i =>
      simp only [feedsFrom, List.getElem?_cons_succ] at h
      obtain ⟨h1, h2⟩ := ih (k + 1) i f h
      refine ⟨by simpa using h1, ?_⟩
      rw [h2]
      congr 3
      omega

theorem usedPair_new (proto : Proto) (k : Nat) (h : k < 2 ^ 60) :
    usedPair proto (newTransport proto (i64 ((k : Int) * 2))) =
      match proto with
      | .tcp | .http => ⟨2 * k, 2 * k + 1⟩
      | .unicast | .multicast => ⟨50000 + 2 * k, 50000 + 2 * k + 1⟩ := by
  have e0 : i64 ((k : Int) * 2) = 2 * k := by unfold i64; omega
  have e1 : i64 (2 * (k : Int) + 1) = 2 * k + 1 := by unfold i64; omega
  have e2 : i64 (firstUDPPort + 2 * (k : Int)) = 50000 + 2 * k := by unfold i64 firstUDPPort; omega
  have e3 : i64 (50000 + 2 * (k : Int) + 1) = 50000 + 2 * k + 1 := by unfold i64; omega
  cases proto <;> simp [usedPair, newTransport, e0, e1, e2, e3]

/-- C48: the feeds of a session description use disjoint pairs of channels or ports, the first number of each even and the
second the odd number after it. (A description of 2^60 sections does not fit in memory.) -/
theorem C48_disjoint (proto : Proto) (buf : Bytes) (feeds : List Feed) (h : parseFeeds proto buf = .ok feeds)
    (hlen : feeds.length < 2 ^ 60) (i j : Nat) (hij : i ≠ j) (f g : Feed) (hf : feeds[i]? = some f) (hg : feeds[j]? = some g) :
    Disjoint (usedPair proto f.transp) (usedPair proto g.transp) ∧
    (usedPair proto f.transp).one % 2 = 0 ∧ (usedPair proto f.transp).two = (usedPair proto f.transp).one + 1 := by
  unfold parseFeeds at h
  cases hs : sdpParse buf with
  | error e => rw [hs] at h; cases h
  | ok ms =>
    rw [hs] at h
    injection h with h
    subst h
    have hi := (List.getElem?_eq_some_iff.1 hf).1
    have hj := (List.getElem?_eq_some_iff.1 hg).1
    have h1 := (feedsFrom_get proto ms 0 i f hf).2
    have h2 := (feedsFrom_get proto ms 0 j g hg).2
    rw [h1, h2, Nat.zero_add, Nat.zero_add, usedPair_new proto i (by omega), usedPair_new proto j (by omega)]
    unfold Disjoint
    cases proto <;> dsimp only <;> refine ⟨⟨?_, ?_, ?_, ?_⟩, ?_, ?_⟩ <;> omega

/-- C48: there is one feed for each video section, in order, and it keeps what the description says. -/
theorem C48_feeds (proto : Proto) (buf : Bytes) : parseFeeds proto buf = (sdpParse buf).map (feedsFrom proto 0) ∧
    ∀ ms, (feedsFrom proto 0 ms).map (·.media) = ms ∧ ∀ f ∈ feedsFrom proto 0 ms, f.isSet = false := by
  constructor
  · unfold parseFeeds; cases sdpParse buf <;> rfl
  · intro ms
    suffices h : ∀ k, (feedsFrom proto k ms).map (·.media) = ms ∧ ∀ f ∈ feedsFrom proto k ms, f.isSet = false from h 0
    induction ms with
    | nil => intro k; simp [feedsFrom]
    | cons m ms ih =>
      intro k
      obtain ⟨h1, h2⟩ := ih (k + 1)
      refine ⟨by simp [feedsFrom, h1], ?_⟩
      intro f hf
      simp only [feedsFrom, List.mem_cons] at hf
      rcases hf with rfl | hf
      · rfl
      · exact h2 f hf

/-- C48 has a limit: on UDP the 7768th feed is the last to get port numbers that exist. -/
theorem C48_port_limit (k : Nat) (hk : k < 2 ^ 60) :
    (usedPair .unicast (newTransport .unicast (i64 ((k : Int) * 2)))).two ≤ 65535 ↔ k < 7768 := by
  rw [usedPair_new .unicast k hk]
  dsimp only
  omega

example : ∃ feeds, parseFeeds .unicast b!"v=0\nm=video 0 RTP/AVP 96\nm=video 0 RTP/AVP 97\n" = .ok feeds ∧ feeds.length = 2 ∧
    feeds.map (fun f => usedPair .unicast f.transp) = [⟨50000, 50001⟩, ⟨50002, 50003⟩] :=
  ⟨_, rfl, rfl, by decide⟩

end Ouro
