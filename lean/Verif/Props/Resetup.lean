import Verif.Props.Concurrent
import Verif.Spec.Resetup
/-!
# C135: `Setup` of the user while a description arrives
-/
namespace Ouro
open Spec

/-- How often `Setup` went on. -/
def rgos (ts : List RTurn) : Nat := ts.countP fun t => match t with | .go => true | _ => false

theorem rturns_snoc (s : Resetup) (ts : List RTurn) (t : RTurn) : rturns s (ts ++ [t]) = rturn (rturns s ts) t := by
  unfold rturns; rw [List.foldl_append]; rfl

theorem rgos_snoc (ts : List RTurn) (t : RTurn) : rgos (ts ++ [t]) = rgos ts + (match t with | .go => 1 | _ => 0) := by
  unfold rgos
  rw [List.countP_append]
  cases t <;> rfl

/-- What holds at any time when every description has the streams of the first one at its beginning. -/
structure Following (base : Bytes) (fs : List Feed) (gos : Nat) (s : Resetup) : Prop where
  root : s.base = base
  n : s.n = fs.length
  le : s.i ≤ s.n
  calm : s.panicked = false
  feeds : fs.map (wish base) <+: s.feeds.map (wish base)
  over : s.i = s.n → s.pc = .control ∧ 3 * s.n ≤ gos
  place : s.i < s.n → gos = 3 * s.i + (match s.pc with | .control => 0 | .transport _ => 1 | .note => 2)
  uri : ∀ u, s.pc = .transport u → ∃ f, fs[s.i]? = some f ∧ u = (wish base f).1
  sent : s.sent = (fs.map (wish base)).take ((gos + 1) / 3)

theorem prefix_at {α : Type} {a b : List α} (h : a <+: b) {i : Nat} (hi : i < a.length) : b[i]? = a[i]? := by
  obtain ⟨c, rfl⟩ := h
  rw [List.getElem?_append_left hi]

theorem take_snoc_at {α : Type} (l : List α) (i : Nat) (x : α) (h : l[i]? = some x) : l.take i ++ [x] = l.take (i + 1) := by
  rw [List.take_add_one, h]; rfl

theorem following (base : Bytes) (fs : List Feed) (ds : List (List Feed)) (hd : ∀ d ∈ ds, fs.map (wish base) <+: d.map (wish base)) (ts : List RTurn) :
    Among ds ts → Following base fs (rgos ts) (rturns (resetup base fs) ts) := by
  refine snoc_induct (P := fun ts => Among ds ts → Following base fs (rgos ts) (rturns (resetup base fs) ts)) ?_ ?_ ts
  · intro _
    refine ⟨rfl, rfl, Nat.zero_le _, rfl, List.prefix_refl _, fun h => ⟨rfl, ?_⟩, fun _ => rfl, fun u h => (by cases h), rfl⟩
    have h : 0 = fs.length := h
    show 3 * fs.length ≤ 0
    omega
  · intro ts t ih ha
    have h := ih fun d hd => ha d (List.mem_append_left _ hd)
    rw [rturns_snoc, rgos_snoc]
    generalize rgos ts = g at *
    generalize rturns (resetup base fs) ts = s at *
    cases t with
    | description d =>
      exact ⟨h.root, h.n, h.le, h.calm, hd d (ha d (List.mem_append_right _ (List.mem_singleton.2 rfl))), h.over, h.place, h.uri, h.sent⟩
    | go =>
      show Following base fs (g + 1) _
      by_cases hi : s.n ≤ s.i
      · have e : rturn s .go = s := by show (if _ then _ else _) = _; rw [if_pos (.inr hi)]
        rw [e]
        have hin : s.i = s.n := Nat.le_antisymm h.le hi
        obtain ⟨o1, o2⟩ := h.over hin
        refine ⟨h.root, h.n, h.le, h.calm, h.feeds, fun _ => ⟨o1, by omega⟩, fun hl => by omega, h.uri, ?_⟩
        have hl : (fs.map (wish base)).length = s.n := by rw [List.length_map, h.n]
        rw [h.sent, List.take_of_length_le (by omega), List.take_of_length_le (by omega)]
      · have hlt : s.i < s.n := Nat.lt_of_not_le hi
        have hi' : s.i < fs.length := h.n ▸ hlt
        have hp := h.place hlt
        have hf := prefix_at h.feeds (i := s.i) (by rw [List.length_map]; exact hi')
        rw [List.getElem?_map, List.getElem?_map, List.getElem?_eq_getElem hi'] at hf
        cases e1 : s.feeds[s.i]? with
        | none => rw [e1] at hf; cases hf
        | some f =>
          rw [e1] at hf
          have hf : wish base f = wish base fs[s.i] := by injection hf
          have ew : (fs.map (wish base))[s.i]? = some (wish base fs[s.i]) := by rw [List.getElem?_map, List.getElem?_eq_getElem hi']; rfl
          have ec : ¬ (s.panicked = true ∨ s.n ≤ s.i) := fun x => x.elim (fun y => by rw [h.calm] at y; cases y) hi
          have er : rturn s .go = (match s.pc with
              | .control => { s with pc := .transport (setupURI s.base f.media.control) }
              | .transport uri => { s with pc := .note, sent := s.sent ++ [(uri, f.transportHeader)] }
              | .note => { s with pc := .control, i := s.i + 1 }) := by
            show (if _ then _ else _) = _
            rw [if_neg ec, e1]
            rfl
          rw [er]
          cases epc : s.pc with
          | control =>
            rw [epc] at hp
            dsimp only at hp ⊢
            refine ⟨h.root, h.n, h.le, h.calm, h.feeds, fun hx => absurd hx (Nat.ne_of_lt hlt), fun _ => by show g + 1 = 3 * s.i + 1; omega, fun u hu => ?_, ?_⟩
            · refine ⟨fs[s.i], List.getElem?_eq_getElem hi', ?_⟩
              injection hu with hu
              rw [← hu, h.root, ← hf]; rfl
            · show s.sent = _
              rw [h.sent, show (g + 1) / 3 = s.i by omega, show (g + 1 + 1) / 3 = s.i by omega]
          | transport uri =>
            rw [epc] at hp
            dsimp only at hp ⊢
            obtain ⟨f0, g1, g2⟩ := h.uri uri epc
            rw [List.getElem?_eq_getElem hi'] at g1
            injection g1 with g1
            refine ⟨h.root, h.n, h.le, h.calm, h.feeds, fun hx => absurd hx (Nat.ne_of_lt hlt), fun _ => by show g + 1 = 3 * s.i + 2; omega, fun u hu => (by cases hu), ?_⟩
            show s.sent ++ [(uri, f.transportHeader)] = _
            have e3 : (uri, f.transportHeader) = wish base fs[s.i] := by
              rw [g2, ← g1]
              show ((wish base fs[s.i]).1, (wish base f).2) = _
              rw [hf]
            rw [h.sent, show (g + 1) / 3 = s.i by omega, show (g + 1 + 1) / 3 = s.i + 1 by omega, e3, take_snoc_at _ _ _ ew]
          | note =>
            rw [epc] at hp
            dsimp only at hp ⊢
            refine ⟨h.root, h.n, hlt, h.calm, h.feeds, fun hx => ⟨rfl, ?_⟩, fun _ => by show g + 1 = 3 * (s.i + 1) + 0; omega, fun u hu => (by cases hu), ?_⟩
            · show 3 * s.n ≤ g + 1
              have hx : s.i + 1 = s.n := hx
              omega
            · show s.sent = _
              rw [h.sent, show (g + 1) / 3 = s.i + 1 by omega, show (g + 1 + 1) / 3 = s.i + 1 by omega]

/-- Left alone, `Setup` takes the streams one after the other. -/
theorem ralone (base : Bytes) (fs : List Feed) (k : Nat) (hk : k ≤ fs.length) :
    rturns (resetup base fs) (List.replicate (3 * k) .go) = { resetup base fs with i := k, sent := (fs.map (wish base)).take k } := by
  induction k with
  | zero => rfl
  | succ k ih =>
    have hk' : k < fs.length := hk
    rw [show 3 * (k + 1) = 3 * k + 1 + 1 + 1 by omega, List.replicate_succ', List.replicate_succ', List.replicate_succ', rturns_snoc, rturns_snoc, rturns_snoc,
      ih (Nat.le_of_lt hk')]
    have e : ∀ (p : RPc) (l : List (Bytes × Bytes)), rturn { resetup base fs with i := k, pc := p, sent := l } .go = (match p with
        | .control => { resetup base fs with i := k, pc := .transport (setupURI base fs[k].media.control), sent := l }
        | .transport uri => { resetup base fs with i := k, pc := .note, sent := l ++ [(uri, fs[k].transportHeader)] }
        | .note => { resetup base fs with pc := .control, i := k + 1, sent := l }) := fun p l => by
      show (if _ then _ else _) = _
      rw [if_neg (fun x => x.elim (fun y => by cases y) (fun y => absurd hk' (Nat.not_lt.2 y)))]
      show (match fs[k]? with | none => _ | some f => _) = _
      rw [List.getElem?_eq_getElem hk']
      cases p <;> rfl
    have e1 := e .control ((fs.map (wish base)).take k)
    rw [show ({ resetup base fs with i := k, pc := .control, sent := (fs.map (wish base)).take k } : Resetup) =
      { resetup base fs with i := k, sent := (fs.map (wish base)).take k } from rfl] at e1
    rw [e1]
    dsimp only
    rw [e]
    dsimp only
    rw [e]
    dsimp only
    rw [← take_snoc_at (fs.map (wish base)) k (wish base fs[k]) (by rw [List.getElem?_map, List.getElem?_eq_getElem hk']; rfl)]
    rfl

theorem rgos_replicate (k : Nat) : rgos (List.replicate k .go) = k := by
  unfold rgos
  rw [List.countP_replicate]; rfl

theorem rturns_append (s : Resetup) (a b : List RTurn) : rturns s (a ++ b) = rturns (rturns s a) b := List.foldl_append ..

/-- If a description comes that has not the streams of the first one at its beginning, there is a schedule in which `Setup` panics or asks for something else. -/
theorem rbad (base : Bytes) (fs d : List Feed) (h : ¬ fs.map (wish base) <+: d.map (wish base)) :
    ∃ k m, let ts := List.replicate (3 * k) RTurn.go ++ [.description d] ++ List.replicate m .go
      (rturns (resetup base fs) ts).panicked = true ∨ (rturns (resetup base fs) ts).sent ≠ (fs.map (wish base)).take ((rgos ts + 1) / 3) := by
  have hx : ∃ k, ∃ hk : k < fs.length, (d.map (wish base))[k]? ≠ some (wish base fs[k]) := by
    by_cases hc : ∃ k, ∃ hk : k < fs.length, (d.map (wish base))[k]? ≠ some (wish base fs[k])
    · exact hc
    · refine absurd ?_ h
      rw [List.prefix_iff_getElem?]
      intro i hi
      have hi' : i < fs.length := by rw [List.length_map] at hi; exact hi
      by_cases hy : (d.map (wish base))[i]? = some (wish base fs[i])
      · rw [hy, List.getElem_map]
      · exact absurd ⟨i, hi', hy⟩ hc
  obtain ⟨k, hk, hne⟩ := hx
  have e0 : rturns (resetup base fs) (List.replicate (3 * k) RTurn.go ++ [.description d]) =
      { resetup base fs with feeds := d, i := k, sent := (fs.map (wish base)).take k } := by
    rw [rturns_append, ralone base fs k (Nat.le_of_lt hk)]; rfl
  have en : ∀ (p : RPc) (l : List (Bytes × Bytes)), rturn { resetup base fs with feeds := d, i := k, pc := p, sent := l } .go =
      (match d[k]? with
      | none => { resetup base fs with feeds := d, i := k, pc := p, sent := l, panicked := true }
      | some f => match p with
        | .control => { resetup base fs with feeds := d, i := k, pc := .transport (setupURI base f.media.control), sent := l }
        | .transport uri => { resetup base fs with feeds := d, i := k, pc := .note, sent := l ++ [(uri, f.transportHeader)] }
        | .note => { resetup base fs with feeds := d, pc := .control, i := k + 1, sent := l }) := fun p l => by
    show (if _ then _ else _) = _
    rw [if_neg (fun x => x.elim (fun y => by cases y) (fun y => absurd hk (Nat.not_lt.2 y)))]
    show (match d[k]? with | none => _ | some f => _) = _
    cases d[k]? with
    | none => rfl
    | some f => cases p <;> rfl
  have en0 := en .control ((fs.map (wish base)).take k)
  rw [List.getElem?_map] at hne
  cases ed : d[k]? with
  | none =>
    refine ⟨k, 1, .inl ?_⟩
    rw [rturns_append, e0]
    show (rturn _ .go).panicked = true
    rw [ed] at en0
    exact congrArg Resetup.panicked en0
  | some f =>
    rw [ed] at hne
    refine ⟨k, 2, .inr ?_⟩
    rw [rturns_append, e0]
    show (rturn (rturn _ .go) .go).sent ≠ _
    have e1 : rturn { resetup base fs with feeds := d, i := k, sent := (fs.map (wish base)).take k } .go =
        { resetup base fs with feeds := d, i := k, pc := .transport (setupURI base f.media.control), sent := (fs.map (wish base)).take k } := by
      have := en0
      rw [ed] at this
      exact this
    rw [e1, en, ed]
    show (fs.map (wish base)).take k ++ [wish base f] ≠ _
    have hg : rgos (List.replicate (3 * k) RTurn.go ++ [.description d] ++ List.replicate 2 .go) = 3 * k + 2 := by
      unfold rgos
      rw [List.countP_append, List.countP_append]
      have a := rgos_replicate (3 * k)
      have b := rgos_replicate 2
      unfold rgos at a b
      rw [a, b]; rfl
    rw [hg, show (3 * k + 2 + 1) / 3 = k + 1 by omega,
      ← take_snoc_at (fs.map (wish base)) k (wish base fs[k]) (by rw [List.getElem?_map, List.getElem?_eq_getElem hk]; rfl)]
    intro hq
    have := List.append_cancel_left hq
    injection this with this
    exact hne (congrArg some this)

/-- C135, the exact law: whatever descriptions arrive and when, `Setup` does not panic and every third step is the request for the next stream of the description
it began with - with that stream's URI and that stream's transport, until all are asked for - if and only if every description that may arrive has,
in these respects, the same streams at its beginning. -/
theorem C135_iff (base : Bytes) (fs : List Feed) (ds : List (List Feed)) :
    (∀ ts, Among ds ts → (rturns (resetup base fs) ts).panicked = false ∧
      (rturns (resetup base fs) ts).sent = (fs.map (wish base)).take ((rgos ts + 1) / 3)) ↔
    ∀ d ∈ ds, fs.map (wish base) <+: d.map (wish base) := by
  constructor
  · intro h d hd
    by_cases hp : fs.map (wish base) <+: d.map (wish base)
    · exact hp
    · obtain ⟨k, m, hb⟩ := rbad base fs d hp
      obtain ⟨a, b⟩ := h _ (fun x hx => by
        rcases List.mem_append.1 hx with hx | hx
        · rcases List.mem_append.1 hx with hx | hx
          · cases List.eq_of_mem_replicate hx
          · have := List.mem_singleton.1 hx
            injection this with this
            rw [this]; exact hd
        · cases List.eq_of_mem_replicate hx : Among ds (List.replicate (3 * k) RTurn.go ++ [.description d] ++ List.replicate m .go))
      rcases hb with hb | hb
      · rw [a] at hb; cases hb
      · exact absurd b hb
  · intro hd ts ha
    have := following base fs ds hd ts ha
    exact ⟨this.calm, this.sent⟩

/-- C135, panics alone: `Setup` cannot panic if and only if no description that may arrive has fewer streams than the one it began with. -/
theorem C135_panic_iff (base : Bytes) (fs : List Feed) (ds : List (List Feed)) :
    (∀ ts, Among ds ts → (rturns (resetup base fs) ts).panicked = false) ↔ ∀ d ∈ ds, fs.length ≤ d.length := by
  constructor
  · intro h d hd
    by_cases hl : fs.length ≤ d.length
    · exact hl
    · have hk : d.length < fs.length := Nat.lt_of_not_le hl
      have := h (List.replicate (3 * d.length) RTurn.go ++ [.description d] ++ [.go]) (fun x hx => by
        rcases List.mem_append.1 hx with hx | hx
        · rcases List.mem_append.1 hx with hx | hx
          · cases List.eq_of_mem_replicate hx
          · have := List.mem_singleton.1 hx
            injection this with this
            rw [this]; exact hd
        · cases List.mem_singleton.1 hx)
      rw [rturns_snoc, rturns_snoc, ralone base fs d.length (Nat.le_of_lt hk)] at this
      have e : (rturn { resetup base fs with feeds := d, i := d.length, sent := (fs.map (wish base)).take d.length } .go).panicked = true := by
        show Resetup.panicked (if _ then _ else _) = _
        rw [if_neg (fun x => x.elim (fun y => by cases y) (fun y => absurd hk (Nat.not_lt.2 y)))]
        show Resetup.panicked (match d[d.length]? with | none => _ | some f => _) = _
        rw [List.getElem?_eq_none (Nat.le_refl _)]
      exact absurd (this.symm.trans e) (by decide)
  · intro hd ts
    have inv : Among ds ts → fs.length ≤ (rturns (resetup base fs) ts).feeds.length ∧ (rturns (resetup base fs) ts).n = fs.length ∧
        (rturns (resetup base fs) ts).panicked = false := by
      refine snoc_induct (P := fun ts => Among ds ts → fs.length ≤ (rturns (resetup base fs) ts).feeds.length ∧ (rturns (resetup base fs) ts).n = fs.length ∧
        (rturns (resetup base fs) ts).panicked = false) (fun _ => ⟨Nat.le_refl _, rfl, rfl⟩) ?_ ts
      intro ts t ih ha
      obtain ⟨h1, h2, h3⟩ := ih fun d hd => ha d (List.mem_append_left _ hd)
      rw [rturns_snoc]
      generalize rturns (resetup base fs) ts = s at *
      cases t with
      | description d => exact ⟨hd d (ha d (List.mem_append_right _ (List.mem_singleton.2 rfl))), h2, h3⟩
      | go =>
        by_cases hc : s.panicked = true ∨ s.n ≤ s.i
        · have e : rturn s .go = s := by show (if _ then _ else _) = _; rw [if_pos hc]
          rw [e]; exact ⟨h1, h2, h3⟩
        · have hi : s.i < s.feeds.length := by
            have : ¬ s.n ≤ s.i := fun x => hc (.inr x)
            omega
          have e : rturn s .go = (match s.pc with
              | .control => { s with pc := .transport (setupURI s.base s.feeds[s.i].media.control) }
              | .transport uri => { s with pc := .note, sent := s.sent ++ [(uri, s.feeds[s.i].transportHeader)] }
              | .note => { s with pc := .control, i := s.i + 1 }) := by
            show (if _ then _ else _) = _
            rw [if_neg hc, List.getElem?_eq_getElem hi]
            rfl
          rw [e]
          cases s.pc <;> exact ⟨h1, h2, h3⟩
    exact fun ha => (inv ha).2.2

/-- C135, what holds: when no description arrives meanwhile, one request for every stream, in order, with its URI and its transport. -/
theorem C135_alone_partial (base : Bytes) (fs : List Feed) (k : Nat) (hk : 3 * fs.length ≤ k) :
    (rturns (resetup base fs) (List.replicate k .go)).panicked = false ∧ (rturns (resetup base fs) (List.replicate k .go)).sent = fs.map (wish base) := by
  have := following base fs [] (fun d hd => by cases hd) (List.replicate k .go) (fun x hx => by cases List.eq_of_mem_replicate hx)
  refine ⟨this.calm, ?_⟩
  rw [this.sent, rgos_replicate, List.take_of_length_le (by rw [List.length_map]; omega)]

/-- Streams of a description with these control attributes, over TCP. -/
def streamsOf (cs : List Bytes) : List Feed := feedsFrom .tcp 0 (cs.map fun c => { control := c })

/-- C135 refuted: two streams. A description with one stream arrives after the first request: `Setup` panics. A description with the two streams in the other order
arrives then: the first stream is asked for twice - with the transport of the second - and the second never. -/
theorem C135_refuted :
    (rturns (resetup b!"rtsp://h" (streamsOf [b!"a", b!"b"])) [.go, .go, .go, .description (streamsOf [b!"a"]), .go]).panicked = true ∧
    (rturns (resetup b!"rtsp://h" (streamsOf [b!"a", b!"b"])) [.go, .go, .go, .description (streamsOf [b!"b", b!"a"]), .go, .go, .go]).sent =
      [(b!"rtsp://h/a", b!"RTP/AVP/TCP;interleaved=0-1"), (b!"rtsp://h/a", b!"RTP/AVP/TCP;interleaved=2-3")] ∧
    (streamsOf [b!"a", b!"b"]).map (wish b!"rtsp://h") =
      [(b!"rtsp://h/a", b!"RTP/AVP/TCP;interleaved=0-1"), (b!"rtsp://h/b", b!"RTP/AVP/TCP;interleaved=2-3")] := by
  refine ⟨by decide +kernel, by decide +kernel, by decide +kernel⟩

/-- A description that has one more stream does no harm. -/
example : (streamsOf [b!"a", b!"b"]).map (wish b!"rtsp://h") <+: (streamsOf [b!"a", b!"b", b!"c"]).map (wish b!"rtsp://h") ∧
    (rturns (resetup b!"rtsp://h" (streamsOf [b!"a", b!"b"])) [.go, .go, .description (streamsOf [b!"a", b!"b", b!"c"]), .go, .go, .go]).sent.length = 2 := by
  constructor <;> decide +kernel

end Ouro
