import Verif.Props.Message
/-! # C74: packing a response that was read -/
namespace Ouro
open Spec

/-- A header map as `Unpack` makes it: different keys, each a name in the one form used in the map, with a value that is text. -/
structure MapOk (h : Header) : Prop where
  keys : (h.map (·.1)).Nodup
  entries : ∀ e ∈ h, IsName e.1 ∧ canonKey e.1 = e.1 ∧ IsText e.2

theorem canonKey_isName {k : Bytes} (h : IsName k) : IsName (canonKey k) ∧ canonKey (canonKey k) = canonKey k := by
  have e := canonKey_name h.2
  have h2 : ∀ c ∈ canonKey k, isToken c = true := by
    rw [e, ← List.all_eq_true, canonLoop_token, List.all_eq_true]; exact h.2
  refine ⟨⟨?_, h2⟩, (canonKey_same h2 h.2).2 ?_⟩
  · rw [e]
    intro h0
    have := congrArg List.length (canonLoop_lower true k)
    rw [h0] at this
    simp [lowerAscii] at this
    exact h.1 (List.length_eq_zero_iff.1 this.symm)
  · unfold sameName
    rw [e]
    exact canonLoop_lower true k

theorem mapOk_set {h : Header} (hm : MapOk h) {k v : Bytes} (hk : IsName k) (hv : IsText v) : MapOk (h.set k v) := by
  unfold Header.set
  obtain ⟨c1, c2⟩ := canonKey_isName hk
  refine ⟨?_, ?_⟩
  · rw [List.map_append, List.map_singleton, List.nodup_append]
    refine ⟨?_, by simp, ?_⟩
    · exact hm.keys.sublist (List.Sublist.map _ (List.filter_sublist))
    · intro a ha b hb
      rw [List.mem_singleton] at hb
      subst hb
      obtain ⟨e, he, rfl⟩ := List.mem_map.1 ha
      simpa using (List.mem_filter.1 he).2
  · intro e he
    rcases List.mem_append.1 he with he | he
    · exact hm.entries e (List.mem_filter.1 he).1
    · rw [List.mem_singleton] at he
      subst he
      exact ⟨c1, c2, hv⟩

theorem mapOk_setAll (hs : List SentHeader) (hw : ∀ e ∈ hs, e.WF) : ∀ h, MapOk h → MapOk (setAll h hs) := by
  induction hs with
  | nil => intro h hm; exact hm
  | cons e hs ih => intro h hm; exact ih (fun x hx => hw x (by simp [hx])) _ (mapOk_set hm (hw e (by simp)).1 (hw e (by simp)).2.2)

theorem at_mem {h : Header} (hk : (h.map (·.1)).Nodup) (k v : Bytes) : h.at k = some v ↔ (k, v) ∈ h := by
  induction h with
  | nil => simp [Header.at]
  | cons e h ih =>
    rw [List.map_cons, List.nodup_cons] at hk
    have ih := ih hk.2
    unfold Header.at at *
    rw [List.find?_cons]
    by_cases he : e.1 = k
    · rw [decide_eq_true he]
      simp only [Option.map_some, Option.some.injEq, List.mem_cons]
      constructor
      · rintro rfl; left; rw [← he]
      · rintro (rfl | hm)
        · rfl
        · exact absurd (List.mem_map.2 ⟨(k, v), hm, rfl⟩) (by rw [← he]; exact hk.1)
    · rw [decide_eq_false he, ih]
      simp only [List.mem_cons]
      constructor
      · exact .inr
      · rintro (rfl | hm)
        · exact absurd rfl he
        · exact hm

/-- The headers as `Pack` writes them. -/
def written (order : Header) : List SentHeader := order.map fun e => ⟨e.1, [32], e.2⟩

theorem written_wf {h order : Header} (hm : MapOk h) (hp : order.Perm h) : ∀ e ∈ written order, e.WF := by
  intro e he
  obtain ⟨x, hx, rfl⟩ := List.mem_map.1 he
  obtain ⟨h1, _, h3⟩ := hm.entries x (hp.mem_iff.1 hx)
  exact ⟨h1, fun c hc => .inl (by simpa using hc), h3⟩

theorem written_value {h order : Header} (hm : MapOk h) (hp : order.Perm h) (code : Nat) (reason body name : Bytes) (hn : IsName name) :
    (Sent.mk code reason (written order) body).value name = h.at (canonKey name) := by
  unfold Sent.value
  have hkey : ∀ x ∈ h, sameName x.1 name ↔ x.1 = canonKey name := by
    intro x hx
    obtain ⟨h1, h2, _⟩ := hm.entries x hx
    rw [← canonKey_same h1.2 hn.2, h2]
  have hback : ∀ x : SentHeader, x ∈ (written order).reverse → (x.name, x.value) ∈ h := by
    intro x hx
    rw [List.mem_reverse] at hx
    obtain ⟨y, hy, rfl⟩ := List.mem_map.1 hx
    exact hp.mem_iff.1 hy
  cases hf : (written order).reverse.find? fun h => sameName h.name name with
  | some x =>
    have h1 := List.find?_some hf
    have h2 := hback x (List.mem_of_find?_eq_some hf)
    have h3 := (hkey _ h2).1 (by simpa using h1)
    dsimp only at h3
    rw [Option.map_some]
    exact ((at_mem hm.keys _ _).2 (by rw [← h3]; exact h2)).symm
  | none =>
    rw [Option.map_none]
    cases ha : h.at (canonKey name) with
    | none => rfl
    | some v =>
      have := (at_mem hm.keys _ _).1 ha
      have hmem : (⟨canonKey name, [32], v⟩ : SentHeader) ∈ (written order).reverse :=
        List.mem_reverse.2 (List.mem_map.2 ⟨_, hp.mem_iff.2 this, rfl⟩)
      have := List.find?_eq_none.1 hf _ hmem
      exact absurd ((hkey _ ((at_mem hm.keys _ _).1 ha)).2 rfl) (by simpa using this)

/-- C74: a response that was read and is packed, in whatever order the header map is iterated, is read as the same response again: same status, code, number,
header values, length and body. Without a body nothing is left. With a body a line end is left over, which is not part of a message
(`C74_body_refuted`). Required: the reason phrase is not empty, and the body can be read at all (C50). -/
theorem C74_again_partial (s : Sent) (hw : s.WF) (hne : s.reason ≠ []) (hlen : s.body.length ≤ 2048) (r : Rdr) (rest : List Ev) (he : r.err = none) (hr : r.evs = s.text.map .byte ++ rest) :
    ∃ rsp r', unpackRsp r = (.ok rsp, r') ∧ ∀ order, order.Perm rsp.header → ∀ (r2 : Rdr) (rest2 : List Ev), r2.err = none →
      r2.evs = (rsp.pack order).map .byte ++ rest2 → ∃ rsp2 r3, unpackRsp r2 = (.ok rsp2, r3) ∧ rsp2.status = rsp.status ∧ rsp2.statusCode = rsp.statusCode ∧
        rsp2.cseq = rsp.cseq ∧ rsp2.contentLength = rsp.contentLength ∧ rsp2.body = rsp.body ∧ (∀ name, IsName name → rsp2.header.get name = rsp.header.get name) ∧
        r3.err = none ∧ r3.evs = (if s.body = [] then [] else [Ev.byte 13, Ev.byte 10]) ++ rest2 := by
  obtain ⟨r', h1, _, _⟩ := unpack_exact s hw hlen r rest he hr
  refine ⟨_, r', h1, ?_⟩
  intro order hord r2 rest2 he2 hr2
  have hm : MapOk (setAll [] s.headers) := mapOk_setAll _ hw.headers [] ⟨List.nodup_nil, fun e he => by (cases he)⟩
  have hord : order.Perm (setAll [] s.headers) := hord
  -- what Pack wrote
  let s2 : Sent := ⟨s.code, s.reason, written order, s.body⟩
  have hval : ∀ name, IsName name → s2.value name = s.value name := by
    intro name hn
    rw [written_value hm hord s.code s.reason s.body name hn, setAll_at s.headers hw.headers hn.2]
    rfl
  have hclname : IsName b!"Content-Length" := ⟨by decide, by decide⟩
  have hw2 : s2.WF := ⟨hw.code, hw.reason, written_wf hm hord, by rw [hval _ hclname]; exact hw.body⟩
  have hcl : contentLen ((s.value b!"Content-Length").getD []) = s.body.length := by
    rcases hw.body with h | ⟨h, h'⟩
    · rw [h]; exact contentLen_digits (by omega)
    · rw [h', h]; rfl
  have hflat : order.flatMap (fun e => headerLine e.1 e.2) = (written order).flatMap SentHeader.text := by
    unfold written
    rw [List.flatMap_map]
    congr 1
    funext e
    simp [headerLine, SentHeader.text, colsp, crnl]
  have htext : Response.pack { headOf s with body := if s.body = [] then none else some s.body } order = s2.text ++ if s.body = [] then [] else [13, 10] := by
    unfold Response.pack headOf
    dsimp only
    rw [if_neg hne, hcl, hflat]
    by_cases hb : s.body = []
    · rw [if_pos hb, if_neg (by rw [hb]; simp)]
      simp [Sent.text, s2, hb, crnl]
    · rw [if_neg hb, if_pos (by have := List.length_pos_iff.2 hb; omega)]
      simp [Sent.text, s2, crnl, hb]
  rw [htext, List.map_append, List.append_assoc] at hr2
  obtain ⟨r3, g1, g2, g3⟩ := unpack_exact s2 hw2 hlen r2 _ he2 hr2
  refine ⟨_, r3, g1, rfl, rfl, ?_, ?_, rfl, ?_, g2, ?_⟩
  · show (atoi ((s2.value b!"CSeq").getD [])).1 = (atoi ((s.value b!"CSeq").getD [])).1
    rw [hval _ ⟨by decide, by decide⟩]
  · show contentLen ((s2.value b!"Content-Length").getD []) = contentLen ((s.value b!"Content-Length").getD [])
    rw [hval _ hclname]
  · intro name hn
    show (setAll [] s2.headers).get name = (setAll [] s.headers).get name
    rw [get_value hw2 hn, get_value hw hn, hval name hn]
  · rw [g3]
    split <;> rfl

/-- A response that meets the requirements. -/
example : ∃ s : Sent, s.WF ∧ s.reason ≠ [] ∧ s.body.length ≤ 2048 ∧ s.text = b!"RTSP/1.0 200 OK\r\nCSEQ: 2\r\nContent-length: 5\r\n\r\nv=0\r\n" := by
  refine ⟨⟨200, b!"OK", [⟨b!"CSEQ", [32], b!"2"⟩, ⟨b!"Content-length", [32], b!"5"⟩], b!"v=0\r\n"⟩, ?_, by decide, by decide, by decide⟩
  refine ⟨by decide, ⟨by decide, by decide, by decide⟩, ?_, .inl (by decide)⟩
  intro h hh
  simp only [List.mem_cons, List.not_mem_nil, or_false] at hh
  rcases hh with rfl | rfl <;> exact ⟨⟨by decide, by decide⟩, by decide, by decide, by decide, by decide⟩

/-- C74 fails with a body: what is left over is taken for the next message and refused. -/
theorem C74_body_refuted : ∃ (rsp rsp2 : Response) (r1 r2 r3 : Rdr) (e : MsgErr), unpackRsp ⟨b!"RTSP/1.0 200 OK\r\nContent-Length: 2\r\n\r\nhi", none, []⟩ = (.ok rsp, r1) ∧
    unpackRsp ⟨rsp.pack rsp.header ++ rsp.pack rsp.header, none, []⟩ = (.ok rsp2, r2) ∧ rsp2 = rsp ∧ unpackRsp r2 = (.error e, r3) :=
  ⟨_, _, _, _, _, _, rfl, rfl, rfl, rfl⟩

end Ouro
