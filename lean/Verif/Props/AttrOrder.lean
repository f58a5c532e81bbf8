import Verif.Props.Sections
import Verif.Spec.AttrOrder
import Mathlib.Data.List.Perm.Basic
/-!
# C141: the order of the lines of a section
-/
namespace Ouro
open Spec

theorem lineFun_eff (x : Bytes) : ∃ e : SdpEff, ∀ m, lineFun x m = e.apply m := by
  cases hc : cut 61 (trimSpace x) with
  | none => exact ⟨{}, fun m => by rw [SdpEff.unit_apply]; unfold lineFun; rw [hc]⟩
  | some p =>
    obtain ⟨k, v⟩ := p
    by_cases hk : k = b!"a"
    · obtain ⟨e, h, _⟩ := line_acts (l := x) (v := v) (by rw [(cut_some hc).1, hk]; rfl)
      exact ⟨e, h⟩
    · exact ⟨{}, fun m => by rw [SdpEff.unit_apply]; unfold lineFun; rw [hc]; exact if_neg hk⟩

theorem opt_comm {α} {a b : Option α} {d : α} (h : b.getD (a.getD d) = a.getD (b.getD d)) (d' : α) : b.getD (a.getD d') = a.getD (b.getD d') := by
  cases a <;> cases b <;> simp_all

/-- If two effects commute on one stream, they commute on all. -/
theorem SdpEff.comm_all {e g : SdpEff} {m : Media} (h : g.apply (e.apply m) = e.apply (g.apply m)) (n : Media) :
    g.apply (e.apply n) = e.apply (g.apply n) := by
  unfold SdpEff.apply at h ⊢
  injection h with h1 h2 h3 h4 h5 h6 h7 h8 h9
  rw [List.append_assoc, List.append_assoc] at h6
  dsimp only
  rw [opt_comm h1, opt_comm h2, opt_comm h3, opt_comm h4, opt_comm h5, opt_comm h8, opt_comm h9, List.append_assoc, List.append_assoc,
    List.append_cancel_left h6]

theorem exchange_iff {l a b : Bytes} {ls : List Bytes} (h : IsVideoSection l ls) (ha : a ∈ ls) (hb : b ∈ ls) :
    Exchange sdpParse l a b ↔ ∀ m, lineFun b (lineFun a m) = lineFun a (lineFun b m) := by
  have sec : ∀ x ∈ ls, ∀ y ∈ ls, sdpParse (unlines [l, x, y]) = .ok [lineFun y (lineFun x (lineMedia l))] := fun x hx y hy => by
    rw [sdpParse_section l [x, y] h.video]
    · rfl
    · intro z hz
      rcases List.mem_cons.1 hz with rfl | hz
      · exact h.same _ hx
      · rw [List.mem_singleton.1 hz]; exact h.same _ hy
    · intro z hz
      rcases List.mem_cons.1 hz with rfl | hz
      · exact h.lines _ (List.mem_cons_self ..)
      rcases List.mem_cons.1 hz with rfl | hz
      · exact h.lines _ (List.mem_cons_of_mem _ hx)
      · rw [List.mem_singleton.1 hz]; exact h.lines _ (List.mem_cons_of_mem _ hy)
  unfold Exchange
  rw [sec a ha b hb, sec b hb a ha]
  obtain ⟨e, he⟩ := lineFun_eff a
  obtain ⟨g, hg⟩ := lineFun_eff b
  constructor
  · intro hx m
    injection hx with hx
    injection hx with hx
    rw [he, hg, hg, he] at hx
    rw [he, hg, hg, he]
    exact SdpEff.comm_all hx m
  · intro hx; rw [hx]

theorem section_perm {l : Bytes} {ls ls' : List Bytes} (h : IsVideoSection l ls) (hp : ls'.Perm ls) : IsVideoSection l ls' :=
  ⟨h.video, fun x hx => h.same x (hp.mem_iff.1 hx), fun x hx => (List.mem_cons.1 hx).elim (fun e => h.lines x (e ▸ List.mem_cons_self ..))
    fun hx => h.lines x (List.mem_cons_of_mem _ (hp.mem_iff.1 hx))⟩

/-- C141: the lines of a video section may be put in any order, exactly if any two of them may be exchanged where there is nothing else. -/
theorem C141_iff (l : Bytes) (ls : List Bytes) (h : IsVideoSection l ls) :
    AnyOrder sdpParse l ls ↔ ∀ a ∈ ls, ∀ b ∈ ls, Exchange sdpParse l a b := by
  have val : ∀ ls', ls'.Perm ls → sdpParse (unlines (l :: ls')) = .ok [ls'.foldl (fun m x => lineFun x m) (lineMedia l)] := fun ls' hp => by
    have h' := section_perm h hp
    exact sdpParse_section l ls' h'.video h'.same h'.lines
  constructor
  · intro ho a ha b hb
    by_cases hab : a = b
    · subst hab; rfl
    obtain ⟨r, hr⟩ : ∃ r, (a :: b :: r).Perm ls := by
      have h1 := List.perm_cons_erase ha
      have h2 : b ∈ ls.erase a := (List.mem_erase_of_ne (Ne.symm hab)).2 hb
      exact ⟨_, ((List.perm_cons_erase h2).symm.cons a).trans h1.symm⟩
    have p1 : (r ++ [a, b]).Perm ls := List.perm_append_comm.trans hr
    have p2 : (r ++ [b, a]).Perm ls := List.perm_append_comm.trans ((List.Perm.swap a b r).trans hr)
    have e1 := ho _ p1
    rw [← ho _ p2, val _ p1, val _ p2, List.foldl_append, List.foldl_append] at e1
    injection e1 with e1
    injection e1 with e1
    refine (exchange_iff h ha hb).2 ?_
    obtain ⟨e, he⟩ := lineFun_eff a
    obtain ⟨g, hg⟩ := lineFun_eff b
    intro m
    change lineFun b (lineFun a _) = lineFun a (lineFun b _) at e1
    rw [he, hg, hg, he] at e1
    rw [he, hg, hg, he]
    exact SdpEff.comm_all e1 m
  · intro hx ls' hp
    rw [val _ hp, val _ (List.Perm.refl _)]
    rw [hp.foldl_eq' fun x hx' y hy m => (exchange_iff h (hp.mem_iff.1 hx') (hp.mem_iff.1 hy)).1 (hx _ (hp.mem_iff.1 hx') _ (hp.mem_iff.1 hy)) m]

/-- C141: and then they may be put in any order wherever the section is in a description. -/
theorem C141_anywhere (before after : List Bytes) (l : Bytes) (ls ls' : List Bytes) (h : IsVideoSection l ls) (hn : ∀ x ∈ before ++ after, (10 : UInt8) ∉ x)
    (hx : ∀ a ∈ ls, ∀ b ∈ ls, Exchange sdpParse l a b) (hp : ls'.Perm ls) :
    sdpParse (unlines (before ++ (l :: ls') ++ after)) = sdpParse (unlines (before ++ (l :: ls) ++ after)) := by
  have lines : ∀ us : List Bytes, IsVideoSection l us → ∀ st, sdpLines st (l :: us) = .ok ⟨st.feeds ++ [us.foldl (fun m x => lineFun x m) (lineMedia l)], true⟩ := by
    intro us hu st
    have go : ∀ (us : List Bytes), (∀ x ∈ us, isMLine x = false) → ∀ m, sdpLines ⟨st.feeds ++ [m], true⟩ us =
        .ok ⟨st.feeds ++ [us.foldl (fun m x => lineFun x m) m], true⟩ := by
      intro us
      induction us with
      | nil => intro _ m; rfl
      | cons u us ih =>
        intro hm m
        rw [sdpLines, sdpLine_other _ _ (hm u (List.mem_cons_self ..)), go_ok_bind]
        simp only [if_true, modifyLast_append]
        exact ih (fun x hx => hm x (List.mem_cons_of_mem _ hx)) _
    rw [sdpLines, sdpLine_video _ _ hu.video, go_ok_bind]
    exact go us hu.same _
  have h' := section_perm h hp
  have nl : ∀ us, IsVideoSection l us → ∀ x ∈ before ++ (l :: us) ++ after, (10 : UInt8) ∉ x := by
    intro us hu x hx
    rcases List.mem_append.1 hx with hx | hx
    · rcases List.mem_append.1 hx with hx | hx
      · exact hn x (List.mem_append_left _ hx)
      · exact hu.lines x hx
    · exact hn x (List.mem_append_right _ hx)
  rw [sdpParse_unlines _ (nl _ h'), sdpParse_unlines _ (nl _ h), List.append_assoc, List.append_assoc, sdpLines_cat, sdpLines_cat]
  congr 1
  cases sdpLines ⟨[], false⟩ before with
  | error p => rfl
  | ok st =>
    show sdpLines st _ = sdpLines st _
    rw [sdpLines_cat, sdpLines_cat, lines _ h', lines _ h]
    rw [hp.foldl_eq' fun x hx' y hy m => (exchange_iff h (hp.mem_iff.1 hx') (hp.mem_iff.1 hy)).1 (hx _ (hp.mem_iff.1 hx') _ (hp.mem_iff.1 hy)) m]

/-- C141: not all lines may be exchanged. With a rate of frames written as a fraction after the format of the stream, the clock of the stream is the lower number of
the fraction; before it, the clock is that of the format. -/
theorem C141_refuted : ∃ l ls, IsVideoSection l ls ∧ ¬ AnyOrder sdpParse l ls ∧
    ls = [b!"a=rtpmap:96 H264/90000", b!"a=framerate:30000/1001"] ∧
    (∃ m, sdpParse (unlines (l :: ls)) = .ok [m] ∧ m.timeScale = 1001) ∧ ∃ m, sdpParse (unlines (l :: ls.reverse)) = .ok [m] ∧ m.timeScale = 90000 := by
  have h : IsVideoSection b!"m=video 0 RTP/AVP 96" [b!"a=rtpmap:96 H264/90000", b!"a=framerate:30000/1001"] :=
    ⟨by decide +kernel, by decide +kernel, by decide +kernel⟩
  have h' := section_perm h (List.reverse_perm _)
  have e1 := sdpParse_section _ _ h.video h.same h.lines
  have e2 := sdpParse_section _ _ h'.video h'.same h'.lines
  have t1 : (secMedia (b!"m=video 0 RTP/AVP 96" :: [b!"a=rtpmap:96 H264/90000", b!"a=framerate:30000/1001"])).timeScale = 1001 := by decide +kernel
  have t2 : (secMedia (b!"m=video 0 RTP/AVP 96" :: [b!"a=rtpmap:96 H264/90000", b!"a=framerate:30000/1001"].reverse)).timeScale = 90000 := by decide +kernel
  refine ⟨_, _, h, fun ho => ?_, rfl, ⟨_, e1, t1⟩, ⟨_, e2, t2⟩⟩
  have := ho _ (List.reverse_perm _)
  rw [e1, e2] at this
  injection this with this
  injection this with this
  rw [this, t1] at t2
  exact absurd t2 (by decide)

/-- Lines that may be exchanged: the format, the address and parameters that nothing else names. -/
example : ∀ a ∈ [b!"a=rtpmap:96 H264/90000", b!"a=control:trackID=1", b!"a=fmtp:96 packetization-mode=1;sprop-parameter-sets=Z0I=,aM4="],
    ∀ b ∈ [b!"a=rtpmap:96 H264/90000", b!"a=control:trackID=1", b!"a=fmtp:96 packetization-mode=1;sprop-parameter-sets=Z0I=,aM4="],
    Exchange sdpParse b!"m=video 0 RTP/AVP 96" a b := by
  unfold Exchange
  decide +kernel

end Ouro
