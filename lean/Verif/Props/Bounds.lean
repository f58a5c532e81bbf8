import Verif.Props.Setup
import Verif.Props.Malformed
import Verif.Props.Repack
import Verif.Props.Message
import Verif.Props.Hls
import Verif.Props.Rtp
import Verif.Props.Nal
import Verif.Props.Digest
/-! # Where claims that fail begin to hold: C19, C20, C23, C38, C43, C50, C61, C74 -/
namespace Ouro
open Spec

/-- **C50.** A well-formed response is read with its body exactly if the body has at most 2048 bytes. -/
theorem C50_iff (s : Sent) (hw : s.WF) (hlen : s.body.length < 2 ^ 63) (cseq : Nat) (hseq : cseq < 2 ^ 63)
    (hc : s.value b!"CSeq" = some (natDigits cseq)) (r : Rdr) (rest : List Ev) (he : r.err = none) (hr : r.evs = s.text.map .byte ++ rest) :
    (∃ rsp r', unpackRsp r = (.ok rsp, r') ∧ rsp.statusCode = s.code ∧ rsp.cseq = cseq ∧ rsp.body.getD [] = s.body ∧ r'.evs = rest) ↔
      s.body.length ≤ 2048 := by
  constructor
  · rintro ⟨rsp, r', h, _⟩
    refine Nat.le_of_not_lt fun hl => ?_
    have := C50_long_body_refuted s hw hl hlen r rest he hr
    rw [h] at this
    cases this
  · intro hl
    obtain ⟨rsp, r', h1, h2, _, h4, _, h6, _, _, h9⟩ := C50_response_partial s hw hl cseq hseq hc r rest he hr
    refine ⟨rsp, r', h1, h2, h4, ?_, h9⟩
    rw [h6]
    split
    · rename_i h; rw [h]; rfl
    · rfl

/-- **C38.** The playlist is the list of the newest segments exactly as long as fewer than twice the window have been added. -/
theorem C38_iff {D : Type} (fmt : D → Bytes) (zero : D) (uri : Bytes) (n : Nat) (hn : 1 ≤ n) (hist : List (D × Int)) (hr : FileInRange hist) :
    (∃ pl, addSegments (newPlaylist zero uri n) hist = .ok pl ∧
      playlistString fmt pl = .ok (text (playlistLines fmt uri (newest n (listed 0 hist))))) ↔ hist.length < 2 * n := by
  constructor
  · rintro ⟨pl, h1, h2⟩
    refine Nat.lt_of_not_le fun hk => ?_
    obtain ⟨pl', h3, h4⟩ := C38_refuted fmt zero uri n hn hist hk
    rw [h1] at h3
    injection h3 with h3
    subst h3
    obtain ⟨x, h4⟩ := h4
    rw [h2] at h4
    cases h4
  · exact fun hk => C38_newest_partial fmt zero uri n hn hist hk hr

/-- **C23.** The payload of a packet is what the sender put there exactly if there is no padding. -/
theorem C23_iff (p : RtpWire) (hp : p.Valid) (b : UInt8) (hl : p.body.getLast? = some b) (hb : 0 < b.toNat) :
    (∃ q, rtpUnpack p.encode = .ok (.ok q) ∧ q.pl = p.payload) ↔ p.padding = false := by
  constructor
  · rintro ⟨q, h1, h2⟩
    cases h : p.padding with
    | false => rfl
    | true =>
      obtain ⟨q', h3, h4⟩ := C23_padding_refuted p hp h b hl hb
      rw [h1] at h3
      injection h3 with h3
      injection h3 with h3
      subst h3
      exact absurd h2 h4
  · exact C23_payload p hp

/-- **C19.** The units of a payload are all reported exactly if there is one. -/
theorem C19_iff (s : NALSink) (hs : s.don < 65536) (buf : Bytes) (ts : Nat) (us : List Nal) (hne : us ≠ [])
    (hsplit : splitAnnexB buf = .ok (us.map Nal.bytes)) (h : ∀ u ∈ us, Plain u) :
    (∃ s', push s buf ts = .ok (none, s') ∧ s'.units.map (fun u => (u.header, u.data)) = us.map (fun u => (u.header, u.data))) ↔ us.length = 1 := by
  obtain ⟨ini, last, rfl⟩ : ∃ ini last, us = ini ++ [last] := ⟨us.dropLast, us.getLast hne, (List.dropLast_concat_getLast hne).symm⟩
  have hp := C19_only_last s hs buf ts ini last hsplit h
  constructor
  · rintro ⟨s', h1, h2⟩
    rw [hp] at h1
    injection h1 with h1
    injection h1 with _ h1
    subst h1
    have := congrArg List.length h2
    simpa using this.symm
  · intro h1
    have : ini = [] := by simpa using h1
    subst this
    exact ⟨_, hp, rfl⟩

/-- **C43.** With a collision-free hash and a quality of protection, all requests get the response RFC 2617 asks for exactly if the algorithm is not
md5-sess. -/
theorem C43_iff (md5 : Bytes → Bytes) (hinj : ∀ a b, md5 a = md5 b → a = b) (rnd uri challenge user password : Bytes) (d0 : Digest)
    (h : newDigest uri challenge = .ok d0) (hb : d0.basic = false) (hq : d0.qop ≠ [])
    (hne : colons user [d0.realm, password] ≠ colons (md5hex md5 (colons user [d0.realm, password])) [d0.nonce, clientNonce rnd]) :
    (∀ reqs : List (Bytes × Bytes), ∃ f d, authenticate md5 rnd d0 user password = .ok (f, d) ∧
      authCalls md5 f d reqs = .ok (reqs.map fun r => rfcAuthorization md5 rnd d0 user password r.1 r.2)) ↔ d0.algorithm ≠ b!"md5-sess" := by
  constructor
  · intro hall hs
    obtain ⟨f, d, a, a', h1, h2, _, h3⟩ := C43_sess_refuted md5 hinj rnd uri challenge user password d0 h hb hs hq hne [] [] [] []
    obtain ⟨f', d', h4, h5⟩ := hall [([], []), ([], [])]
    rw [h1] at h4
    injection h4 with h4
    injection h4 with h6 h7
    subst h6
    subst h7
    rw [h2] at h5
    injection h5 with h5
    simp only [List.map_cons, List.map_nil, List.cons.injEq] at h5
    exact h3 h5.2.1
  · exact fun hs reqs => C43_every_request_partial md5 rnd uri challenge user password d0 h hb hs reqs

/-! ## C20 -/

/-- A payload of single units behind start codes, and its time. -/
structure Framed where
  buf : Bytes
  ts : Nat
  units : List Nal

def Framed.Ok (f : Framed) : Prop := f.units ≠ [] ∧ splitAnnexB f.buf = .ok (f.units.map Nal.bytes) ∧ ∀ u ∈ f.units, Plain u

/-- Running totals. -/
def totals : Nat → List Nat → List Nat
  | _, [] => []
  | a, n :: ns => (a + n) :: totals (a + n) ns

/-- **C20.** Exactly: each payload shows one unit, and its number is behind by all the units so far, also those that are not reported. -/
theorem C20_exact (fs : List Framed) : ∀ (s : NALSink), s.don < 65536 → (∀ f ∈ fs, f.Ok) → ∃ us s', pushAll s (fs.map fun f => (f.buf, f.ts)) = some (us, s') ∧
    us.map (fun l => l.map (·.don)) = (totals s.don (fs.map (·.units.length))).map fun t => [(t - 1) % 65536] := by
  suffices key : ∀ (s : NALSink) (a : Nat), s.don = a % 65536 → (∀ f ∈ fs, f.Ok) → ∃ us s', pushAll s (fs.map fun f => (f.buf, f.ts)) = some (us, s') ∧
      us.map (fun l => l.map (·.don)) = (totals a (fs.map (·.units.length))).map fun t => [(t - 1) % 65536] from
    fun s hs hf => key s s.don (Nat.mod_eq_of_lt hs).symm hf
  induction fs with
  | nil => exact fun s a _ _ => ⟨[], s, rfl, rfl⟩
  | cons f fs ih =>
    intro s a ha hf
    obtain ⟨hne, hsplit, hp⟩ := hf f List.mem_cons_self
    obtain ⟨ini, last, hu⟩ : ∃ ini last, f.units = ini ++ [last] :=
      ⟨f.units.dropLast, f.units.getLast hne, (List.dropLast_concat_getLast hne).symm⟩
    rw [hu] at hsplit hp
    have h1 := C19_only_last s (by omega) f.buf f.ts ini last hsplit hp
    obtain ⟨us, s', h2, h3⟩ := ih { s with
      units := [{ header := last.header, don := (s.don + ini.length) % 65536, ts := f.ts, data := last.data }]
      don := (s.don + ini.length + 1) % 65536 } (a + f.units.length) (by rw [hu, List.length_append, List.length_singleton]; show _ % _ = _; omega)
      (fun g hg => hf g (List.mem_cons_of_mem _ hg))
    refine ⟨[{ header := last.header, don := (s.don + ini.length) % 65536, ts := f.ts, data := last.data }] :: us, s', ?_, ?_⟩
    · simp only [List.map_cons, pushAll, h1, h2]
    · simp only [List.map_cons, totals, h3, List.map_nil, hu, List.length_append, List.length_singleton]
      have e : (s.don + ini.length) % 65536 = (a + (ini.length + 1) - 1) % 65536 := by omega
      rw [e]

/-- **C20.** The numbers reported follow one another exactly if no payload has more than one unit. -/
theorem C20_iff (fs : List Framed) (s : NALSink) (hs : s.don < 65536) (hf : ∀ f ∈ fs, f.Ok) (ht : (fs.map (·.units.length)).sum < 65536) :
    (∃ us s', pushAll s (fs.map fun f => (f.buf, f.ts)) = some (us, s') ∧
      us.flatten.map (·.don) = (List.range us.flatten.length).map fun k => (s.don + k) % 65536) ↔ ∀ f ∈ fs, f.units.length = 1 := by
  obtain ⟨us, s', h1, h2⟩ := C20_exact fs s hs hf
  have hflat : us.flatten.map (·.don) = (totals s.don (fs.map (·.units.length))).map fun t => (t - 1) % 65536 := by
    rw [List.map_flatten, h2]
    generalize totals s.don _ = l
    induction l with
    | nil => rfl
    | cons a l ih => simp [ih]
  have hlen : us.flatten.length = fs.length := by
    have h3 := congrArg List.length hflat
    have h4 : ∀ (ns : List Nat) (a : Nat), (totals a ns).length = ns.length := by
      intro ns; induction ns with
      | nil => intro a; rfl
      | cons n ns ih => intro a; simp [totals, ih]
    rw [List.length_map, List.length_map, h4, List.length_map] at h3
    exact h3
  have hpos : ∀ n ∈ fs.map (·.units.length), 1 ≤ n := by
    intro n hn
    obtain ⟨f, hf', rfl⟩ := List.mem_map.1 hn
    exact List.length_pos_iff.2 (hf f hf').1
  have hall : (∀ f ∈ fs, f.units.length = 1) ↔ ∀ n ∈ fs.map (·.units.length), n = 1 := by simp
  have hl : fs.length = (fs.map (·.units.length)).length := by simp
  rw [hall]
  rw [hl] at hlen
  clear hl
  generalize fs.map (·.units.length) = ns at *
  have hiff : (totals s.don ns).map (fun t => (t - 1) % 65536) = (List.range ns.length).map (fun k => (s.don + k) % 65536) ↔ ∀ n ∈ ns, n = 1 := by
    clear hall hlen hflat h2 h1 us s' hf hs
    generalize s.don = a
    induction ns generalizing a with
    | nil => simp [totals]
    | cons n ns ih =>
      have hn := hpos n List.mem_cons_self
      rw [List.sum_cons] at ht
      have ih' := ih (by omega) (fun m hm => hpos m (List.mem_cons_of_mem _ hm))
      have hr : (List.range (n :: ns).length).map (fun k => (a + k) % 65536) = a % 65536 :: (List.range ns.length).map (fun k => (a + 1 + k) % 65536) := by
        rw [List.length_cons, List.range_succ_eq_map, List.map_cons, List.map_map]
        congr 1
        apply List.map_congr_left
        intro k _
        show (a + (k + 1)) % 65536 = _
        congr 1
        omega
      rw [hr]
      simp only [totals, List.map_cons, List.cons.injEq, List.forall_mem_cons]
      constructor
      · rintro ⟨e1, e2⟩
        have : n = 1 := by omega
        subst this
        exact ⟨rfl, (ih' _).1 e2⟩
      · rintro ⟨rfl, e⟩
        exact ⟨by rw [Nat.add_sub_cancel], (ih' _).2 e⟩
  constructor
  · rintro ⟨us2, s2, h3, h4⟩
    rw [h1] at h3
    injection h3 with h3
    injection h3 with h3 h5
    subst h3
    rw [hlen] at h4
    exact hiff.1 (hflat ▸ h4)
  · intro h
    refine ⟨us, s', h1, ?_⟩
    rw [hlen, hflat]
    exact hiff.2 h

/-! Cases on both sides; see also those beside the theorems of the files this one imports. -/
example : ∃ s : Sent, s.WF ∧ s.body.length = 2048 := ⟨zeros 2048, zeros_wf 2048, by show (List.replicate 2048 0).length = 2048; rw [List.length_replicate]⟩
example : FileInRange ([((), 5), ((), 6), ((), 7), ((), 8)] : List (Unit × Int)) ∧ ¬ [((), 5), ((), 6), ((), 7), ((), 8)].length < 2 * 2 :=
  ⟨⟨by decide, by decide⟩, by decide⟩
example : sampleRtp.padding = true ∧ sampleRtp.body.getLast? = some 2 ∧ ({ sampleRtp with padding := false } : RtpWire).body.getLast? = some 2 := by decide
example : splitAnnexB [0, 0, 1, 0x67, 0x42] = .ok (([⟨0x67, [0x42]⟩] : List Nal).map Nal.bytes) ∧ Plain ⟨0x67, [0x42]⟩ :=
  ⟨C13_split_inverts_framing [(false, [0x67, 0x42])] (by simp) (by simp [Frameable]; decide), by decide⟩
example : ∃ (md5 : Bytes → Bytes) (d0 : Digest), (∀ a b, md5 a = md5 b → a = b) ∧
    newDigest b!"/a" b!"Digest realm=\"r\", nonce=\"n\", qop=auth" = .ok d0 ∧ d0.basic = false ∧ d0.qop ≠ [] ∧
    colons b!"u" [d0.realm, b!"p"] ≠ colons (md5hex md5 (colons b!"u" [d0.realm, b!"p"])) [d0.nonce, clientNonce []] :=
  ⟨id, { uri := b!"/a", realm := b!"r", nonce := b!"n", qop := b!"auth", algorithm := b!"md5" }, fun _ _ h => h, by decide⟩
/-- Two payloads, the first of two units. -/
def demoFramed : List Framed := [⟨[0, 0, 1, 0x67, 0x42, 0, 0, 1, 0x68, 0xce], 7, [⟨0x67, [0x42]⟩, ⟨0x68, [0xce]⟩]⟩, ⟨[0x41, 5], 8, [⟨0x41, [5]⟩]⟩]
example : ∀ f ∈ demoFramed, f.Ok := by
  intro f hf
  simp only [demoFramed, List.mem_cons, List.not_mem_nil, or_false] at hf
  rcases hf with rfl | rfl
  · exact ⟨by simp, C13_split_inverts_framing [(false, [0x67, 0x42]), (false, [0x68, 0xce])] (by simp) (by simp [Frameable]; decide), by decide⟩
  · exact ⟨by simp, by decide +kernel, by decide⟩
example : totals 65535 (demoFramed.map (·.units.length)) = [65537, 65538] := by decide

/-- C74, exactly: of a response that was read and is packed again before anything else, the whole is read, and after it what follows, if and only if it has
no body: with a body, whatever follows is read behind a line end and the first reading after it is an error. -/
theorem C74_iff (s : Sent) (hw : s.WF) (hne : s.reason ≠ []) (hlen : s.body.length ≤ 2048) (t : Sent) (ht : t.WF) (htl : t.body.length ≤ 2048)
    (r : Rdr) (rest : List Ev) (he : r.err = none) (hr : r.evs = s.text.map .byte ++ rest) :
    ∃ rsp r', unpackRsp r = (.ok rsp, r') ∧ ∀ order, order.Perm rsp.header → ∀ (r2 : Rdr) (rest2 : List Ev), r2.err = none →
      r2.evs = (rsp.pack order ++ t.text).map .byte ++ rest2 →
        ((∃ x y q q', unpackRsp r2 = (.ok x, q) ∧ unpackRsp q = (.ok y, q') ∧ x.body = rsp.body ∧ y.body = (if t.body = [] then none else some t.body)) ↔ s.body = []) := by
  obtain ⟨rsp, r', h1, h2⟩ := C74_again_partial s hw hne hlen r rest he hr
  refine ⟨rsp, r', h1, fun order ho r2 rest2 e2 hr2 => ?_⟩
  obtain ⟨x, q, g1, _, _, _, _, g6, _, g8, g9⟩ := h2 order ho r2 (t.text.map .byte ++ rest2) e2 (by rw [hr2, List.map_append, List.append_assoc])
  constructor
  · rintro ⟨x', y, q0, q', k1, k2, _⟩
    refine Classical.byContradiction fun hb => ?_
    rw [g1] at k1
    injection k1 with _ k1
    subst k1
    rw [if_neg hb] at g9
    obtain ⟨e, q2, h, _⟩ := C73_status_partial q [13] (t.text.map .byte ++ rest2) g8 g9 (by decide) (by
      rintro ⟨n, h⟩
      obtain ⟨a, b, c, h, _⟩ := h
      injection h with h _
      exact absurd h (by decide))
    rw [h] at k2
    cases k2
  · intro hb
    rw [if_pos hb, List.nil_append] at g9
    obtain ⟨q', h, _⟩ := unpack_exact t ht htl q rest2 g8 g9
    exact ⟨x, _, q, q', g1, h, g6, rfl⟩

theorem Runs.toRun {w : World} {s s' : Sess} {ops : List Op} (h : Runs w s ops s') : run w s ops = .ok s' := by
  induction h with
  | nil => rfl
  | cons h _ ih => rw [run, h]; exact ih

theorem refused_all (w : World) (k : Nat) (feeds : List Feed) : ∀ cs : List Int, Answered (Completes w k feeds) cs (cs.map fun c => .item (.response (demoRsp c 404 [] none)))
  | [] => .done
  | c :: cs => .answer (List.mem_cons_self ..) ⟨fun h => absurd (show (404 : Int) = 401 from h) (by decide), fun h => absurd (show (404 : Int) = 200 from h) (by decide)⟩ (by
      show Answered _ ((c :: cs).erase c) _
      rw [List.erase_cons_head]; exact refused_all w k feeds cs)

/-- **C61, exactly.** After the answer to the DESCRIBE, without another OPTIONS, DESCRIBE or SETUP of the user, Ready can be reported at all if and only if the
description had a feed: if it had none there is no answer with which it would be. -/
theorem C61_iff (w : World) (hw : ∀ o b, w.write o b = .ok) (hl : ∀ o k p, w.listen o k p = .ok) (s : Sess) (hr : PlainReachable w s)
    (rsp : Response) (req : Request) (hp : pending rsp.cseq s.out = some req) (hv : req.verb = b!"DESCRIBE") (h401 : rsp.statusCode ≠ 401)
    (body : Bytes) (hb : rsp.body = some body) (feeds : List Feed) (hf : parseFeeds s.proto body = .ok feeds) :
    ∃ t, step w s (.item (.response rsp)) = .ok (t, none) ∧
      ((∃ ops s', (∀ op ∈ ops, Spec.Plain op) ∧ run w t ops = .ok s' ∧ readies s'.out ≠ 0) ↔ feeds ≠ []) := by
  by_cases hne : feeds = []
  · subst hne
    obtain ⟨t, h1, _, h3⟩ := C61_none_refuted w s hr rsp req hp hv h401 body hb hf
    refine ⟨t, h1, ?_, fun h => absurd rfl h⟩
    rintro ⟨ops, s', h4, h5, h6⟩
    exact absurd (h3 ops s' h4 h5) h6
  · obtain ⟨t, h1, _, h3⟩ := C61_ready_partial w hw hl s hr rsp req hp hv h401 body hb feeds hf hne
    refine ⟨t, h1, fun _ => hne, fun _ => ?_⟩
    obtain ⟨s', sinks, rest, h4, h5, _⟩ := h3 _ (refused_all w _ feeds _)
    refine ⟨_, s', ?_, Runs.toRun h4, ?_⟩
    · intro op hop
      obtain ⟨c, _, rfl⟩ := List.mem_map.1 hop
      trivial
    · rw [h5]
      exact Nat.succ_ne_zero _

end Ouro
