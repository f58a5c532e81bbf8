import Verif.Lemmas.AnnexB
/-! # C09–C14: emulation prevention and the Annex B byte stream -/
namespace Ouro
open Spec

/-! ## C09 -/

/-- C09: `EBSPToRaw` never panics and removes exactly the emulation prevention bytes (`Spec.unescape`). -/
theorem C09_ebspToRaw (buf : Bytes) : ebspToRaw buf = .ok (unescape 0 buf) := ebspToRaw_eq buf

/-- C09: data without `00 00 03` is unchanged. -/
theorem C09_ebspToRaw_identity (buf : Bytes) (h : ¬ [0, 0, 3] <:+: buf) : ebspToRaw buf = .ok buf := by
  rw [ebspToRaw_rawOf]
  congr 1
  have : ∀ n, ∀ l : Bytes, l.length ≤ n → ¬ [0, 0, 3] <:+: l → rawOf l = l := by
    intro n
    induction n with
    | zero => intro l hl _; exact rawOf_short (by omega)
    | succ n ih =>
      intro l hl hno
      match l, hl, hno with
      | [], _, _ => simp [rawOf]
      | a :: l, hl, hno =>
        rw [rawOf, ih l (by simpa using hl) (fun hi => hno (hi.trans (List.suffix_cons a l).isInfix))]
        rintro rest rfl rfl
        exact hno ⟨[], rest, by simp⟩
  exact this _ buf (Nat.le_refl _) h

/-- C09: at each emulation prevention position the byte is dropped and decoding continues afresh. -/
theorem C09_ebspToRaw_step (pre post : Bytes) (hpre : ¬ [0, 0, 3] <:+: pre ++ [0, 0]) (out : Bytes)
    (hpost : ebspToRaw post = .ok out) : ebspToRaw (pre ++ [0, 0, 3] ++ post) = .ok (pre ++ [0, 0] ++ out) := by
  have h1 := C09_ebspToRaw_identity (pre ++ [0, 0]) hpre
  rw [ebspToRaw_eq] at h1 hpost ⊢
  cases hpost
  have key : ∀ (l : Bytes) z, unescape z (l ++ [0, 0]) = l ++ [0, 0] →
      unescape z (l ++ [0, 0, 3] ++ post) = l ++ [0, 0] ++ unescape 0 post := by
    intro l
    induction l with
    | nil => intro z _; simp [unescape]
    | cons a l ih =>
      intro z h
      simp only [List.cons_append] at h ⊢
      rw [unescape] at h ⊢
      split at h
      · have := congrArg List.length h
        have hl := (unescape_sublist (l ++ [0, 0]) 0).length_le
        simp at this hl
        omega
      · next hc =>
        rw [if_neg hc, ih _ (by simpa using h)]
  rw [key pre 0 (by simpa using h1)]

example : ebspToRaw [1, 0, 0, 3, 1, 0, 0, 0, 3, 3] = .ok [1, 0, 0, 1, 0, 0, 0, 3] := by
  rw [C09_ebspToRaw]; decide
example : ¬ ([0, 0, 3] : Bytes) <:+: [7, 0] ++ [0, 0] := by decide

/-! ## C12 -/

/-- C12, exact law: `RBSPToEncapsulated` panics exactly when the input ends in a run of zeros of length 2 modulo 3. -/
theorem C12_encapsulate_panics_iff (x : Bytes) :
    Panics (rbspToEncapsulated x) ↔ ∃ k, (k, none) ∈ zeroRuns 0 x ∧ k % 3 = 2 := by
  rw [← encOf_none_iff, rbspToEncapsulated_eq]
  cases h : encOf x <;> simp [orIndex, Panics]

/-- C12 for inputs that do not end in two zero bytes. Missing: inputs that do, see the exact law. -/
theorem C12_encapsulate_total_partial (x : Bytes) (h : ¬ [0, 0] <:+ x) : ∃ y, rbspToEncapsulated x = .ok y := by
  rw [rbspToEncapsulated_eq]
  cases he : encOf x with
  | some y => exact ⟨y, rfl⟩
  | none =>
    exfalso
    obtain ⟨k, hm, hk⟩ := (encOf_none_iff x).mp he
    apply h
    have : ∀ x : Bytes, (k, none) ∈ zeroRuns 0 x → List.replicate k 0 <:+ x := by
      intro x
      induction x using runs_induction with
      | h0 j => rw [zeroRuns_zeros]; intro hm; simp at hm; subst hm; exact List.suffix_refl _
      | h1 j b rest hb ih =>
        rw [zeroRuns_block j b rest hb]
        intro hm
        rw [List.mem_cons] at hm
        rcases hm with hm | hm
        · cases hm
        · exact (ih hm).trans ((List.suffix_cons b rest).trans (List.suffix_append _ _))
    refine List.IsSuffix.trans ?_ (this x hm)
    refine ⟨List.replicate (k - 2) 0, ?_⟩
    rw [show ([0, 0] : Bytes) = List.replicate 2 0 from rfl, List.replicate_append_replicate]
    congr 1; omega

/-- The full C12 statement is false of the code. -/
theorem C12_encapsulate_total_refuted : ¬ ∀ x : Bytes, ¬ Panics (rbspToEncapsulated x) := by
  intro H
  exact H [0, 0] ((C12_encapsulate_panics_iff _).mpr ⟨2, by decide, by decide⟩)

example : ¬ ([0, 0] : Bytes) <:+ [0, 0, 1, 0] := by decide
example : ∃ k, (k, none) ∈ zeroRuns 0 [9, 0, 0, 0, 0, 0] ∧ k % 3 = 2 := ⟨5, by decide, by decide⟩

/-! ## C10 -/

/-- C10, exact law: when `RBSPToEncapsulated` returns, decoding its result gives the input back unless the input contains
a maximal run of 4, 7, 10, … zeros followed by `03`; in that case it does not. -/
theorem C10_roundtrip_iff (x y : Bytes) (h : rbspToEncapsulated x = .ok y) :
    ebspToRaw y = .ok x ↔ ¬ ∃ k, (k, some 3) ∈ zeroRuns 0 x ∧ 4 ≤ k ∧ k % 3 = 1 := by
  rw [rbspToEncapsulated_eq] at h
  cases he : encOf x with
  | none => rw [he] at h; cases h
  | some e =>
    rw [he] at h
    have h : e = y := by cases h; rfl
    subst h
    obtain ⟨_, h2, h3⟩ := roundtrip x e he
    rw [ebspToRaw_eq]
    constructor
    · intro heq hc
      have := h2 hc
      cases heq; simp_all
    · intro hc; rw [h3 hc]

/-- A payload that the encoder handles correctly: no three zeros in a row, not ending in two zeros. -/
def NoLongZeroRun (x : Bytes) : Prop := ¬ [0, 0, 0] <:+: x ∧ ¬ [0, 0] <:+ x

theorem runs_short {x : Bytes} (h : ¬ ([0, 0, 0] : Bytes) <:+: x) : ∀ k b, (k, b) ∈ zeroRuns 0 x → k ≤ 2 := by
  have key : ∀ x : Bytes, ∀ k b, (k, b) ∈ zeroRuns 0 x → List.replicate k 0 <:+: x := by
    intro x
    induction x using runs_induction with
    | h0 j => rw [zeroRuns_zeros]; intro k b hm; simp at hm; rw [hm.1]
              exact List.infix_refl _
    | h1 j c rest hc ih =>
      rw [zeroRuns_block j c rest hc]
      intro k b hm
      rw [List.mem_cons] at hm
      rcases hm with hm | hm
      · cases hm; exact (List.prefix_append _ _).isInfix
      · exact (ih k b hm).trans ((List.suffix_cons c rest).trans (List.suffix_append _ _)).isInfix
  intro k b hm
  refine Nat.le_of_not_lt fun hk => h (List.IsInfix.trans ?_ (key x k b hm))
  refine ⟨[], List.replicate (k - 3) 0, ?_⟩
  rw [show ([0, 0, 0] : Bytes) = List.replicate 3 0 from rfl, List.nil_append, List.replicate_append_replicate]
  congr 1; omega

/-- C10 for payloads without three consecutive zeros and not ending in two. Missing: longer runs, see the exact laws. -/
theorem C10_roundtrip_partial (x : Bytes) (h : NoLongZeroRun x) :
    ∃ y, rbspToEncapsulated x = .ok y ∧ ebspToRaw y = .ok x := by
  obtain ⟨y, hy⟩ := C12_encapsulate_total_partial x h.2
  refine ⟨y, hy, (C10_roundtrip_iff x y hy).mpr ?_⟩
  rintro ⟨k, hm, hk, _⟩
  have := runs_short h.1 k _ hm
  omega

/-- The full C10 statement is false of the code, even where the encoder does not panic. -/
theorem C10_roundtrip_refuted : ∃ x y, rbspToEncapsulated x = .ok y ∧ ebspToRaw y ≠ .ok x := by
  obtain ⟨y, hy⟩ := C12_encapsulate_total_partial [0, 0, 0, 0, 3] (by decide)
  exact ⟨_, y, hy, fun hc => (C10_roundtrip_iff _ y hy).mp hc ⟨4, by decide, by decide, by decide⟩⟩

example : NoLongZeroRun [0, 0, 1, 0, 0, 3, 7, 0, 0, 0x80] := ⟨by decide, by decide⟩

/-! ## C11 -/

/-- C11, exact law: the output contains a forbidden pattern exactly when the input has a maximal run of at least five
zeros, or one of four zeros followed by `01` or `02`. -/
theorem C11_emulation_iff (x y : Bytes) (h : rbspToEncapsulated x = .ok y) :
    HasForbidden y ↔ ∃ k b, (k, b) ∈ zeroRuns 0 x ∧ (5 ≤ k ∨ (k = 4 ∧ (b = some 1 ∨ b = some 2))) := by
  rw [rbspToEncapsulated_eq] at h
  cases he : encOf x with
  | none => rw [he] at h; cases h
  | some e =>
    rw [he] at h
    have h : e = y := by cases h; rfl
    subst h
    rw [forb_iff]
    exact forb_enc x e he

/-- C11 for payloads without three consecutive zeros. Missing: longer runs, see the exact law. -/
theorem C11_no_emulation_partial (x y : Bytes) (hx : ¬ [0, 0, 0] <:+: x) (h : rbspToEncapsulated x = .ok y) :
    ¬ HasForbidden y := by
  rw [C11_emulation_iff x y h]
  rintro ⟨k, b, hm, hk⟩
  have := runs_short hx k b hm
  omega

/-- The full C11 statement is false of the code. -/
theorem C11_no_emulation_refuted : ∃ x y, rbspToEncapsulated x = .ok y ∧ [0, 0, 1] <:+: y := by
  refine ⟨[0, 0, 0, 0, 1], [0, 0, 3, 0, 0, 1], ?_, by decide⟩
  rw [rbspToEncapsulated_eq]; decide

example : ¬ ([0, 0, 0] : Bytes) <:+: [0, 0, 1, 0, 0, 3] ∧
    rbspToEncapsulated [0, 0, 1, 0, 0, 3] = .ok [0, 0, 3, 1, 0, 0, 3, 3] := by
  refine ⟨by decide, ?_⟩
  rw [rbspToEncapsulated_eq]; decide

/-! ## C13 -/

/-- C13: splitting a byte stream of framed units returns those units with emulation prevention removed. -/
theorem C13_split_inverts_framing (us : List (Bool × Bytes)) (hne : us ≠ []) (h : ∀ u ∈ us, Frameable u.2) :
    splitAnnexB (byteStream us) = .ok (us.map fun u => unescape 0 u.2) := by
  rw [splitAnnexB_eq, pieces_byteStream us hne h]
  simp [Function.comp_def]

/-- C13 with C10 and C11: payloads encapsulated, framed with any start codes and split come back, in order. -/
theorem C13_encode_frame_split (xs : List (Bool × Bytes)) (hne : xs ≠ [])
    (h : ∀ x ∈ xs, ¬ [0, 0, 0] <:+: x.2 ∧ x.2 ≠ [] ∧ x.2.getLast? ≠ some 0) :
    ∃ es : List (Bool × Bytes), es.map Prod.fst = xs.map Prod.fst ∧
      es.map (fun e => Except.ok e.2) = xs.map (fun x => rbspToEncapsulated x.2) ∧
      splitAnnexB (byteStream es) = .ok (xs.map Prod.snd) := by
  have hone : ∀ x : Bytes, ¬ [0, 0, 0] <:+: x → x ≠ [] → x.getLast? ≠ some 0 →
      ∃ e, rbspToEncapsulated x = .ok e ∧ unescape 0 e = x ∧ Frameable e := by
    intro x h1 h2 h3
    have hsuf : ¬ ([0, 0] : Bytes) <:+ x := by
      rintro ⟨t, rfl⟩; simp at h3
    obtain ⟨e, he, hr⟩ := C10_roundtrip_partial x ⟨h1, hsuf⟩
    rw [ebspToRaw_eq] at hr
    have hr : unescape 0 e = x := by cases hr; rfl
    have hf := C11_no_emulation_partial x e h1 he
    refine ⟨e, he, hr, ?_, fun hc => hf (.inl hc), fun hc => hf (.inr (.inl hc)), ?_⟩
    · rintro rfl; simp [unescape] at hr; exact h2 hr
    · have hl : ∀ l : Bytes, ∀ z, (∃ t, l = t ++ [0]) → (unescape z l).getLast? = some 0 := by
        intro l
        induction l with
        | nil => rintro z ⟨t, ht⟩; simp at ht
        | cons a l ih =>
          rintro z ⟨t, ht⟩
          match t, ht with
          | [], ht => simp at ht; obtain ⟨rfl, rfl⟩ := ht; simp [unescape]
          | b :: t, ht =>
            simp at ht
            have hi := fun z => ih z ⟨t, ht.2⟩
            rw [unescape]
            split
            · exact hi 0
            · rw [List.getLast?_cons, hi]; rfl
      intro hc
      obtain ⟨t, ht⟩ := List.getLast?_eq_some_iff.mp hc
      have := hl e 0 ⟨t, ht⟩
      rw [hr] at this
      exact h3 this
  have hall : ∃ es : List (Bool × Bytes), es.map Prod.fst = xs.map Prod.fst ∧
      es.map (fun e => Except.ok e.2) = xs.map (fun x => rbspToEncapsulated x.2) ∧
      (es.map fun e => unescape 0 e.2) = xs.map Prod.snd ∧ ∀ e ∈ es, Frameable e.2 := by
    clear hne
    induction xs with
    | nil => exact ⟨[], rfl, rfl, rfl, by simp⟩
    | cons x xs ih =>
      obtain ⟨es, i1, i2, i3, i4⟩ := ih (fun y hy => h y (by simp [hy]))
      obtain ⟨g1, g2, g3⟩ := h x (by simp)
      obtain ⟨e, e1, e2, e3⟩ := hone x.2 g1 g2 g3
      refine ⟨(x.1, e) :: es, by simp [i1], by simp [i2, e1], by simp [i3, e2], ?_⟩
      intro y hy
      rw [List.mem_cons] at hy
      rcases hy with rfl | hy
      · exact e3
      · exact i4 y hy
  obtain ⟨es, i1, i2, i3, i4⟩ := hall
  refine ⟨es, i1, i2, ?_⟩
  rw [C13_split_inverts_framing es ?_ i4, i3]
  rintro rfl
  simp at i1
  exact hne i1

/-- C13 does not extend to the zero padding Annex B allows before a start code: an extra zero byte becomes a unit. -/
theorem C13_zero_padding_refuted : splitAnnexB [0, 0, 0, 0, 1, 0x67] = .ok [[0], [0x67]] := by
  rw [splitAnnexB_eq, pieces_cons (by simp), pieces_cons (by simp), pieces_start, pieces_last _ _ (by decide)]
  simp [dropZero, unescape]

example : (∀ u ∈ [(true, [0x67, 0x42, 0, 0, 3, 1]), (false, [0x68, 0xce])], Frameable u.2) ∧
    byteStream [(true, [0x67, 0x42, 0, 0, 3, 1]), (false, [0x68, 0xce])] =
      [0, 0, 0, 1, 0x67, 0x42, 0, 0, 3, 1, 0, 0, 1, 0x68, 0xce] := by
  refine ⟨?_, by decide⟩
  intro u hu
  simp only [List.mem_cons, List.not_mem_nil, or_false] at hu
  rcases hu with rfl | rfl <;> exact ⟨by decide, by decide, by decide, by decide⟩

/-! ## C14 -/

/-- C14, exact law: `SplitAnnexB` never panics; it returns the pieces a byte-by-byte scan for start codes finds
(`Spec.pieces`), with emulation prevention removed. -/
theorem C14_split_exact (buf : Bytes) : splitAnnexB buf = .ok ((pieces [] buf).map (unescape 0)) := splitAnnexB_eq buf

/-- C14: at least one unit; no empty unit unless the input is empty; the units are, in order, made of bytes of the input. -/
theorem C14_split_sane (buf : Bytes) : ∃ us, splitAnnexB buf = .ok us ∧ us ≠ [] ∧
    (buf ≠ [] → ∀ u ∈ us, u ≠ []) ∧ us.flatten.Sublist buf := by
  refine ⟨_, splitAnnexB_eq buf, ?_, ?_, ?_⟩
  · simpa using pieces_ne_nil _ buf [] (Nat.le_refl _)
  · intro hne u hu
    rw [List.mem_map] at hu
    obtain ⟨p, hp, rfl⟩ := hu
    exact unescape_ne_nil (pieces_nonempty _ buf [] (Nat.le_refl _) (by simpa using hne) p hp)
  · simpa using pieces_sublist _ buf [] (Nat.le_refl _)

/-- C14: data without a start code is a single unit. -/
theorem C14_split_no_start_code (buf : Bytes) (h : ¬ [0, 0, 1] <:+: buf) :
    splitAnnexB buf = .ok [unescape 0 buf] := by
  rw [splitAnnexB_eq, pieces_last buf [] h]; simp

example : ¬ ([0, 0, 1] : Bytes) <:+: [0x65, 0, 0, 3, 1] := by decide

end Ouro
