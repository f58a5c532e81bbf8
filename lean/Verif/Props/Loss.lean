import Verif.Props.Sending
import Verif.Spec.Loss
/-! # C100: lost packets only cost the units they belong to -/
namespace Ouro
open Spec

theorem depacketize_quiet {us : List Video} (h : ∀ v ∈ us, ∀ b t, v.load.units b t = []) (b : Bytes) : depacketize b us = [] := by
  induction us generalizing b with
  | nil => rfl
  | cons v vs ih => rw [depacketize, h v (by simp), ih (fun x hx => h x (by simp [hx])), List.nil_append]

/-- The video packets among those that arrive. -/
theorem got_videos {vs : List Video} {got : List (UInt8 × RtpWire)} (h : got.Sublist (vs.map fun v => (v.ch, v.rtp))) :
    ∃ us : List Video, us.Sublist vs ∧ us.map (fun v => (v.ch, v.rtp)) = got := by
  obtain ⟨us, h1, h2⟩ := List.sublist_map_iff.mp h
  exact ⟨us, h1, h2.symm⟩

theorem arrived_videos {how : List (UInt8 × RtpWire) → List (UInt8 × RtpWire) → Prop} {ss : List (Sending × Bool)} {ps : List (UInt8 × RtpWire)}
    (h : Arrived264 how ss ps) : ∃ vs : List Video, vs.map (fun v => (v.ch, v.rtp)) = ps ∧ (∀ v ∈ vs, v.Valid) ∧
      (∀ b, ((complete ss).map Sending.unescaped).Sublist (depacketize b vs)) ∧
      ((∀ got ps, how got ps → LastLost got ps) → ∀ b, depacketize b vs = (complete ss).map Sending.unescaped) := by
  induction h with
  | nil => exact ⟨[], rfl, by simp, fun _ => .slnil, fun _ _ => rfl⟩
  | whole h1 h2 _ ih =>
    obtain ⟨vs, a1, a2, a3, _⟩ := sending_videos h1 h2
    obtain ⟨us, b1, b2, b3, b4⟩ := ih
    refine ⟨vs ++ us, by rw [List.map_append, a1, b1], ?_, ?_, ?_⟩
    · intro v hv
      rcases List.mem_append.mp hv with hv | hv
      · exact a2 v hv
      · exact b2 v hv
    · intro b; rw [depacketize_append, a3]; exact (b3 _).cons_cons _
    · intro hh b; rw [depacketize_append, a3, b4 hh]; rfl
  | @lossy s ps got ss qs h1 h2 h3 _ h5 _ ih =>
    obtain ⟨vs, a1, a2, _, a4⟩ := sending_videos h1 h2
    obtain ⟨us, b1, b2, b3, b4⟩ := ih
    subst a1
    by_cases hl : LastLost got (vs.map fun v => (v.ch, v.rtp))
    · unfold LastLost at hl
      rw [← List.map_dropLast] at hl
      obtain ⟨gs, g1, g2⟩ := got_videos hl
      have hq := depacketize_quiet (us := gs) fun v hv => a4 v (g1.subset hv)
      refine ⟨gs ++ us, by rw [List.map_append, g2, b1], ?_, ?_, ?_⟩
      · intro v hv
        rcases List.mem_append.mp hv with hv | hv
        · exact a2 v (List.dropLast_subset _ (g1.subset hv))
        · exact b2 v hv
      · intro b; rw [depacketize_append, hq, List.nil_append]; exact b3 _
      · intro hh b; rw [depacketize_append, hq, List.nil_append, b4 hh]; rfl
    · obtain ⟨gs, g1, g2⟩ := got_videos h3
      refine ⟨gs ++ us, by rw [List.map_append, g2, b1], ?_, ?_, ?_⟩
      · intro v hv
        rcases List.mem_append.mp hv with hv | hv
        · exact a2 v (g1.subset hv)
        · exact b2 v hv
      · intro b; rw [depacketize_append]; exact (b3 _).trans (List.sublist_append_right _ _)
      · intro hh; exact absurd (hh _ _ h5) hl

/-- C100, the first half, in full: whatever packets are lost, the units all of whose packets arrived are reported, in order, each
with its time and its bytes. This for every schedule. -/
theorem C100_complete (w : World) (c : Client) (hr : ClientReachable w c) (ss : List (Sending × Bool)) (ps : List (UInt8 × RtpWire))
    (hs : Arrived264 (fun _ _ => True) ss ps) (h : onVideo (seen c.trace) = ps.map fun p => (p.1, p.2.encode)) :
    ((complete ss).map Sending.unescaped).Sublist (reported c.trace) := by
  obtain ⟨vs, e1, e2, e3, _⟩ := arrived_videos hs
  rw [C66_pipeline_partial w c hr vs ⟨by rw [h, encode_pairs e1], e2⟩]
  exact e3 _

/-- C100, the second half: if of each incomplete unit the last packet is lost, no matter which others, exactly the complete
units are reported. Missing: an incomplete unit whose last packet arrives (`C100_iff`, `C100_gap_refuted`, `C100_splice_refuted`). -/
theorem C100_sound_partial (w : World) (c : Client) (hr : ClientReachable w c) (ss : List (Sending × Bool)) (ps : List (UInt8 × RtpWire))
    (hs : Arrived264 LastLost ss ps) (h : onVideo (seen c.trace) = ps.map fun p => (p.1, p.2.encode)) :
    reported c.trace = (complete ss).map Sending.unescaped := by
  obtain ⟨vs, e1, e2, _, e4⟩ := arrived_videos hs
  rw [C66_pipeline_partial w c hr vs ⟨by rw [h, encode_pairs e1], e2⟩, e4 fun _ _ h => h]

theorem units_nil {l : Load} {b b' : Bytes} {t t' : Nat} (h : l.units b t = []) : l.units b' t' = [] := by
  cases l <;> simp_all [Load.units]

/-- Every unit of which the last packet arrives is reported, as something: if not only complete ones arrive, more units are reported. -/
theorem arrived_count {ss : List (Sending × Bool)} {ps : List (UInt8 × RtpWire)} (h : Arrived264 (fun _ _ => True) ss ps) :
    ∃ vs : List Video, vs.map (fun v => (v.ch, v.rtp)) = ps ∧ (∀ v ∈ vs, v.Valid) ∧ (∀ b, (complete ss).length ≤ (depacketize b vs).length) ∧
      (Arrived264 LastLost ss ps ∨ ∀ b, (complete ss).length < (depacketize b vs).length) := by
  induction h with
  | nil => exact ⟨[], rfl, by simp, fun _ => Nat.le_refl _, .inl .nil⟩
  | whole h1 h2 _ ih =>
    obtain ⟨vs, a1, a2, a3, _⟩ := sending_videos h1 h2
    obtain ⟨us, b1, b2, b3, b4⟩ := ih
    refine ⟨vs ++ us, by rw [List.map_append, a1, b1], ?_, ?_, ?_⟩
    · intro v hv
      rcases List.mem_append.mp hv with hv | hv
      · exact a2 v hv
      · exact b2 v hv
    · intro b
      rw [depacketize_append, a3]
      have := b3 (keptAfter b vs)
      simp only [complete, List.filter_cons, if_true, List.map_cons, List.length_cons, List.length_append, List.length_nil] at this ⊢
      omega
    · rcases b4 with b4 | b4
      · exact .inl (.whole h1 h2 b4)
      · refine .inr fun b => ?_
        rw [depacketize_append, a3]
        have := b4 (keptAfter b vs)
        simp only [complete, List.filter_cons, if_true, List.map_cons, List.length_cons, List.length_append, List.length_nil] at this ⊢
        omega
  | @lossy s ps got ss qs h1 h2 h3 h4 _ _ ih =>
    obtain ⟨vs, a1, a2, a3, a4⟩ := sending_videos h1 h2
    obtain ⟨us, b1, b2, b3, b4⟩ := ih
    subst a1
    obtain ⟨gs, g1, g2⟩ := got_videos h3
    have hc : complete ((s, false) :: ss) = complete ss := rfl
    refine ⟨gs ++ us, by rw [List.map_append, g2, b1], ?_, ?_, ?_⟩
    · intro v hv
      rcases List.mem_append.mp hv with hv | hv
      · exact a2 v (g1.subset hv)
      · exact b2 v hv
    · intro b
      rw [depacketize_append, hc, List.length_append]
      have := b3 (keptAfter b gs)
      omega
    · by_cases hl : LastLost got (vs.map fun v => (v.ch, v.rtp))
      · rcases b4 with b4 | b4
        · exact .inl (.lossy h1 h2 h3 h4 hl b4)
        · refine .inr fun b => ?_
          rw [depacketize_append, hc, List.length_append]
          have := b4 (keptAfter b gs)
          omega
      · refine .inr fun b => ?_
        have hne : vs ≠ [] := by
          intro e; subst e
          have := a3 []
          simp [depacketize] at this
        obtain ⟨v, hv⟩ : ∃ v, gs = gs.dropLast ++ [v] ∧ ∀ b t, v.load.units b t ≠ [] := by
          rw [← List.dropLast_concat_getLast hne] at g1
          rcases List.sublist_append_iff.mp g1 with ⟨x, y, e, hx, hy⟩
          cases y with
          | nil =>
            exfalso; apply hl
            unfold LastLost
            rw [← g2, e, List.append_nil, ← List.map_dropLast]
            exact hx.map _
          | cons z zs =>
            have := hy.length_le
            have hz : zs = [] := by cases zs with | nil => rfl | cons _ _ => simp at this
            subst hz
            have hz : z = vs.getLast hne := by simpa using hy.subset (List.mem_singleton.mpr rfl)
            refine ⟨z, by rw [e]; simp, fun b t hu => ?_⟩
            have := a3 []
            rw [← List.dropLast_concat_getLast hne, depacketize_append, depacketize_quiet (us := vs.dropLast) (fun v hv => a4 v hv), ← hz] at this
            simp [depacketize, units_nil hu] at this
        rw [depacketize_append, hc, List.length_append, hv.1, depacketize_append, List.length_append]
        have := b3 (keptAfter b (gs.dropLast ++ [v]))
        have h1 : 0 < (depacketize (keptAfter b gs.dropLast) [v]).length := by
          rw [List.length_pos_iff]
          simp only [depacketize, List.append_nil]
          exact hv.2 _ _
        omega

/-- C100, exactly: whatever packets are lost, the client reports the units that arrived complete and no others if and only if of every unit that
did not the last packet is lost. -/
theorem C100_iff (w : World) (c : Client) (hr : ClientReachable w c) (ss : List (Sending × Bool)) (ps : List (UInt8 × RtpWire))
    (hs : Arrived264 (fun _ _ => True) ss ps) (h : onVideo (seen c.trace) = ps.map fun p => (p.1, p.2.encode)) :
    reported c.trace = (complete ss).map Sending.unescaped ↔ Arrived264 LastLost ss ps := by
  refine ⟨fun e => ?_, fun ha => C100_sound_partial w c hr ss ps ha h⟩
  obtain ⟨vs, e1, e2, _, e4⟩ := arrived_count hs
  rw [C66_pipeline_partial w c hr vs ⟨by rw [h, encode_pairs e1], e2⟩] at e
  rcases e4 with e4 | e4
  · exact e4
  · have := e4 []
    rw [e, List.length_map] at this
    exact absurd this (Nat.lt_irrefl _)

theorem piece_infix {s : Sending} (hs : s.Ok) {p : Bytes} (hp : p ∈ s.pieces) : p <:+: s.unit.data := by
  rw [hs.2.2.2]
  obtain ⟨a, b, e⟩ := List.append_of_mem hp
  rw [e]
  exact ⟨a.flatten, b.flatten, by simp⟩

theorem unescape_ne {p : Bytes} (h : p ≠ []) : unescape 0 p ≠ [] := by
  cases p with
  | nil => exact absurd rfl h
  | cons x xs => unfold unescape; simp

theorem sublist_shorter {kept mids : List Bytes} (h : kept.Sublist mids) (hn : kept ≠ mids) (hm : ∀ m ∈ mids, m ≠ []) :
    (kept.flatMap (unescape 0)).length < (mids.flatMap (unescape 0)).length := by
  induction h with
  | slnil => exact absurd rfl hn
  | cons a h ih =>
    rename_i l1 l2
    have h1 : 0 < (unescape 0 a).length := List.length_pos_iff.mpr (unescape_ne (hm a (by simp)))
    rw [List.flatMap_cons, List.length_append]
    by_cases he : l1 = l2
    · rw [he]; omega
    · have := ih he fun m hm' => hm m (by simp [hm']); omega
  | cons_cons a h ih =>
    rw [List.flatMap_cons, List.flatMap_cons, List.length_append, List.length_append]
    have := ih (fun e => hn (by rw [e])) fun m hm' => hm m (by simp [hm'])
    omega

/-- C100 refuted, for every unit in fragments: the first and the last fragment arrive and some fragment between them is lost.
The client reports a unit, with a hole in it, that nobody sent. -/
theorem C100_gap_refuted (w : World) (c : Client) (hr : ClientReachable w c) (s : Sending) (hs : s.Ok) (first : Bytes) (mids : List Bytes) (last : Bytes)
    (hw : s.way = .cut first mids last) (hm : ∀ m ∈ mids, m ≠ []) (kept : List Bytes) (hk : kept.Sublist mids) (hlost : kept ≠ mids)
    (ps : List (UInt8 × RtpWire))
    (hp : PacketsOf s.ts (fuA s.unit.header true false first :: (kept.map (fuA s.unit.header false false) ++ [fuA s.unit.header false true last])) ps)
    (h : onVideo (seen c.trace) = ps.map fun p => (p.1, p.2.encode)) :
    reported c.trace = [(s.unit.header, s.ts, unescape 0 first ++ kept.flatMap (unescape 0) ++ unescape 0 last)] ∧
      s.unescaped ∉ reported c.trace := by
  have hpieces : s.pieces = first :: (mids ++ [last]) := by unfold Sending.pieces; rw [hw]
  have hrep : reported c.trace = [(s.unit.header, s.ts, unescape 0 first ++ kept.flatMap (unescape 0) ++ unescape 0 last)] := by
    cases hp with
    | cons h1 h2 =>
      rename_i p ps
      obtain ⟨vs, e1, e2, e3, _⟩ := mid_videos hs last (piece_infix hs (by simp [hpieces])) kept ps
        (fun m hm' => piece_infix hs (by simp [hpieces, hk.subset hm'])) h2
      rw [C66_pipeline_partial w c hr (fuLoad s.unit.header true false p first :: vs) ⟨by rw [h, encode_pairs (vs := fuLoad s.unit.header true false p first :: vs)]; rw [List.map_cons, e1]; rfl, ?_⟩]
      · simp [depacketize, fuLoad, Load.units, Load.kept, e3]
      · intro v hv
        rcases List.mem_cons.mp hv with rfl | hv
        · exact fu_video hs (piece_infix hs (by simp [hpieces])) h1
        · exact e2 v hv
  refine ⟨hrep, ?_⟩
  rw [hrep, List.mem_singleton, Sending.unescaped, hpieces]
  intro e
  have := congrArg (fun x : UInt8 × Nat × List UInt8 => x.2.2.length) e
  simp only [List.flatMap_cons, List.flatMap_append, List.flatMap_nil, List.length_append, List.append_nil] at this
  have := sublist_shorter hk hlost hm
  omega

theorem open_videos {s : Sending} (hs : s.Ok) : ∀ (mids : List Bytes) (ps : List (UInt8 × RtpWire)), (∀ m ∈ mids, m <:+: s.unit.data) →
    PacketsOf s.ts (mids.map (fuA s.unit.header false false)) ps →
    ∃ vs : List Video, vs.map (fun v => (v.ch, v.rtp)) = ps ∧ (∀ v ∈ vs, v.Valid) ∧ (∀ b, depacketize b vs = []) ∧
      ∀ b, keptAfter b vs = b ++ mids.flatMap (unescape 0) := by
  intro mids
  induction mids with
  | nil => intro ps _ hp; cases hp; exact ⟨[], rfl, by simp, fun _ => rfl, fun b => by simp [keptAfter]⟩
  | cons m mids ih =>
    intro ps hm hp
    cases hp with
    | cons h1 h2 =>
      rename_i p ps
      obtain ⟨vs, e1, e2, e3, e4⟩ := ih ps (fun x hx => hm x (by simp [hx])) h2
      refine ⟨fuLoad s.unit.header false false p m :: vs, by rw [List.map_cons, e1]; rfl, ?_, ?_, ?_⟩
      · intro v hv
        rcases List.mem_cons.mp hv with rfl | hv
        · exact fu_video hs (hm m (by simp)) h1
        · exact e2 v hv
      · intro b; simp [depacketize, fuLoad, Load.units, e3]
      · intro b; simp [keptAfter, fuLoad, Load.kept, e4]

/-- C100 refuted, for every two units in fragments: of the first the last fragment is lost, of the second the first fragment is
lost; other fragments in between may be lost too. The client reports one unit, put together from the data of both, with the
header and the time of the second. -/
theorem C100_splice_refuted (w : World) (c : Client) (hr : ClientReachable w c) (s t : Sending) (hs : s.Ok) (ht : t.Ok)
    (sfirst : Bytes) (smids : List Bytes) (slast : Bytes) (hsw : s.way = .cut sfirst smids slast)
    (tfirst : Bytes) (tmids : List Bytes) (tlast : Bytes) (htw : t.way = .cut tfirst tmids tlast)
    (skept tkept : List Bytes) (hsk : skept.Sublist smids) (htk : tkept.Sublist tmids) (ps qs : List (UInt8 × RtpWire))
    (hp : PacketsOf s.ts (fuA s.unit.header true false sfirst :: skept.map (fuA s.unit.header false false)) ps)
    (hq : PacketsOf t.ts (tkept.map (fuA t.unit.header false false) ++ [fuA t.unit.header false true tlast]) qs)
    (h : onVideo (seen c.trace) = (ps ++ qs).map fun p => (p.1, p.2.encode)) :
    reported c.trace = [(t.unit.header, t.ts,
      (sfirst :: skept).flatMap (unescape 0) ++ (tkept ++ [tlast]).flatMap (unescape 0))] := by
  have hsp : s.pieces = sfirst :: (smids ++ [slast]) := by unfold Sending.pieces; rw [hsw]
  have htp : t.pieces = tfirst :: (tmids ++ [tlast]) := by unfold Sending.pieces; rw [htw]
  cases hp with
  | cons h1 h2 =>
    rename_i p ps
    obtain ⟨vs, e1, e2, e3, e4⟩ := open_videos hs skept ps (fun m hm' => piece_infix hs (by simp [hsp, hsk.subset hm'])) h2
    obtain ⟨us, d1, d2, d3, _⟩ := mid_videos ht tlast (piece_infix ht (by simp [htp])) tkept qs
        (fun m hm' => piece_infix ht (by simp [htp, htk.subset hm'])) hq
    rw [C66_pipeline_partial w c hr (fuLoad s.unit.header true false p sfirst :: (vs ++ us))
      ⟨by rw [h, encode_pairs (vs := fuLoad s.unit.header true false p sfirst :: (vs ++ us))]; rw [List.map_cons, List.map_append, e1, d1]; rfl, ?_⟩]
    · simp only [depacketize, fuLoad, Load.units, Load.kept, Bool.false_eq_true, if_false, if_true, List.nil_append, depacketize_append, e3, d3, e4]
      simp [List.flatMap_cons, List.flatMap_append]
    · intro v hv
      rcases List.mem_cons.mp hv with rfl | hv
      · exact fu_video hs (piece_infix hs (by simp [hsp])) h1
      · rcases List.mem_append.mp hv with hv | hv
        · exact e2 v hv
        · exact d2 v hv

/-! ## Clients that have taken such packets -/

theorem demo_packet (m : Bool) (sn ts : Nat) (body : List UInt8) (h1 : sn < 65536) (h2 : ts < 2 ^ 32) :
    IsPacket body ts (0, ⟨false, m, 96, sn, ts, 7, [], none, body⟩) :=
  ⟨rfl, ⟨show 96 < 128 by decide, h1, h2, show 7 < 2 ^ 32 by decide, show 0 ≤ 15 by decide, fun c hc => by (cases hc), fun e he => by (cases he)⟩, rfl, rfl, rfl⟩

/-- A unit in three fragments, and a unit in one packet. -/
def demoCut : Sending := ⟨⟨0x65, [0x88, 1, 2, 3, 4, 5]⟩, .cut [0x88, 1] [[2, 3]] [4, 5], 180⟩
def demoWhole : Sending := ⟨⟨0x67, [0x42, 9]⟩, .whole, 270⟩

theorem demoCut_ok : demoCut.Ok := ⟨by decide, by decide, by decide, by decide⟩
theorem demoWhole_ok : demoWhole.Ok := ⟨by decide, by decide, by decide, by decide⟩

def demoCutSent : List (UInt8 × RtpWire) := [
  (0, ⟨false, false, 96, 2, 180, 7, [], none, fuA 0x65 true false [0x88, 1]⟩),
  (0, ⟨false, false, 96, 3, 180, 7, [], none, fuA 0x65 false false [2, 3]⟩),
  (0, ⟨false, true, 96, 4, 180, 7, [], none, fuA 0x65 false true [4, 5]⟩)]

def demoWholeSent : List (UInt8 × RtpWire) := [(0, ⟨false, false, 96, 5, 270, 7, [], none, [0x67, 0x42, 9]⟩)]

theorem demoCutSent_of : PacketsOf 180 demoCut.payloads demoCutSent :=
  .cons (demo_packet _ _ _ _ (by decide) (by decide)) (.cons (demo_packet _ _ _ _ (by decide) (by decide)) (.cons (demo_packet _ _ _ _ (by decide) (by decide)) .nil))

theorem demoWholeSent_of : PacketsOf 270 demoWhole.payloads demoWholeSent := .cons (demo_packet _ _ _ _ (by decide) (by decide)) .nil

/-- The last fragment is lost: only the other unit is reported. -/
example : ∃ c, ClientReachable demoWorld c ∧ onVideo (seen c.trace) = (demoCutSent.take 2 ++ demoWholeSent).map (fun p => (p.1, p.2.encode)) ∧
    reported c.trace = [(0x67, 270, [0x42, 9])] := by
  obtain ⟨c, h1, h2⟩ := demoClient_shows (frames := (demoCutSent.take 2 ++ demoWholeSent).map (·.2.encode)) (es := demoPlay ++ demoFrame ++ demoFrame ++ demoFrame)
    (f := fun c => onVideo (seen c.trace)) (a := (demoCutSent.take 2 ++ demoWholeSent).map fun p => (p.1, p.2.encode)) (by decide +kernel)
  refine ⟨c, h1, h2, ?_⟩
  have ha : Arrived264 LastLost [(demoCut, false), (demoWhole, true)] (demoCutSent.take 2 ++ (demoWholeSent ++ [])) :=
    .lossy demoCut_ok demoCutSent_of (List.take_sublist _ _) (by decide) (List.Sublist.refl _) (.whole demoWhole_ok demoWholeSent_of .nil)
  rw [C100_sound_partial demoWorld c h1 _ _ ha h2]
  decide

/-- The fragment between is lost: a unit that nobody sent. -/
example : ∃ c, ClientReachable demoWorld c ∧ onVideo (seen c.trace) = (demoCutSent.eraseIdx 1).map (fun p => (p.1, p.2.encode)) ∧
    reported c.trace = [(0x65, 180, [0x88, 1, 4, 5])] := by
  obtain ⟨c, h1, h2⟩ := demoClient_shows (frames := (demoCutSent.eraseIdx 1).map (·.2.encode)) (es := demoPlay ++ demoFrame ++ demoFrame)
    (f := fun c => onVideo (seen c.trace)) (a := (demoCutSent.eraseIdx 1).map fun p => (p.1, p.2.encode)) (by decide +kernel)
  refine ⟨c, h1, h2, ?_⟩
  exact (C100_gap_refuted demoWorld c h1 demoCut demoCut_ok [0x88, 1] [[2, 3]] [4, 5] rfl (by decide) [] (by simp) (by decide) (demoCutSent.eraseIdx 1)
    (.cons (demo_packet _ _ _ _ (by decide) (by decide)) (.cons (demo_packet _ _ _ _ (by decide) (by decide)) .nil)) h2).1

/-- `C100_iff`: the unit did not arrive complete, but its last packet did. -/
example : ∃ c, ClientReachable demoWorld c ∧ onVideo (seen c.trace) = (demoCutSent.eraseIdx 1 ++ []).map (fun p : UInt8 × RtpWire => (p.1, p.2.encode)) ∧
    Arrived264 (fun _ _ => True) [(demoCut, false)] (demoCutSent.eraseIdx 1 ++ []) ∧ ¬ Arrived264 LastLost [(demoCut, false)] (demoCutSent.eraseIdx 1 ++ []) := by
  obtain ⟨c, h1, h2⟩ := demoClient_shows (frames := (demoCutSent.eraseIdx 1).map (·.2.encode)) (es := demoPlay ++ demoFrame ++ demoFrame)
    (f := fun c => (onVideo (seen c.trace), reported c.trace)) (a := ((demoCutSent.eraseIdx 1).map fun p => (p.1, p.2.encode), [(0x65, 180, [0x88, 1, 4, 5])])) (by decide +kernel)
  have ha : Arrived264 (fun _ _ => True) [(demoCut, false)] (demoCutSent.eraseIdx 1 ++ []) :=
    .lossy demoCut_ok demoCutSent_of (List.eraseIdx_sublist _ _) (by decide) trivial .nil
  refine ⟨c, h1, (Prod.mk.inj h2).1, ha, fun hl => ?_⟩
  have := (C100_iff demoWorld c h1 _ _ ha (Prod.mk.inj h2).1).mpr hl
  rw [(Prod.mk.inj h2).2] at this
  cases this

/-- A second unit in fragments. -/
def demoCut2 : Sending := ⟨⟨0x41, [0x9a, 7, 8]⟩, .cut [0x9a] [] [7, 8], 360⟩

def demoCutSent2 : List (UInt8 × RtpWire) := [
  (0, ⟨false, false, 96, 5, 360, 7, [], none, fuA 0x41 true false [0x9a]⟩),
  (0, ⟨false, true, 96, 6, 360, 7, [], none, fuA 0x41 false true [7, 8]⟩)]

/-- The last fragment of one and the first of the next are lost: one unit made of both. -/
example : ∃ c, ClientReachable demoWorld c ∧ onVideo (seen c.trace) = (demoCutSent.take 2 ++ demoCutSent2.drop 1).map (fun p => (p.1, p.2.encode)) ∧
    reported c.trace = [(0x41, 360, [0x88, 1, 2, 3, 7, 8])] := by
  obtain ⟨c, h1, h2⟩ := demoClient_shows (frames := (demoCutSent.take 2 ++ demoCutSent2.drop 1).map (·.2.encode)) (es := demoPlay ++ demoFrame ++ demoFrame ++ demoFrame)
    (f := fun c => onVideo (seen c.trace)) (a := (demoCutSent.take 2 ++ demoCutSent2.drop 1).map fun p => (p.1, p.2.encode)) (by decide +kernel)
  refine ⟨c, h1, h2, ?_⟩
  rw [C100_splice_refuted demoWorld c h1 demoCut demoCut2 demoCut_ok ⟨by decide, by decide, by decide, by decide⟩ [0x88, 1] [[2, 3]] [4, 5] rfl [0x9a] [] [7, 8] rfl
    [[2, 3]] [] (List.Sublist.refl _) (by simp) (demoCutSent.take 2) (demoCutSent2.drop 1)
    (.cons (demo_packet _ _ _ _ (by decide) (by decide)) (.cons (demo_packet _ _ _ _ (by decide) (by decide)) .nil))
    (.cons (demo_packet _ _ _ _ (by decide) (by decide)) .nil) h2]
  decide

end Ouro
