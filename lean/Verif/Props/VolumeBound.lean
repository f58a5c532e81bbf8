import Verif.Props.Volume

/-! C118: a bound on all that is reported, for whatever packets come. -/

namespace Ouro
open Spec

theorem stapLoop_count {ts : Nat} (fuel : Nat) : ∀ {s s' : NALSink} {buf : Bytes} {e : Option H264Err}, stapLoop fuel s buf ts = .ok (e, s') →
    s'.units.length ≤ s.units.length + buf.length := by
  induction fuel with
  | zero => intro s s' buf e h; cases h
  | succ n ih =>
    intro s s' buf e h
    unfold stapLoop at h
    split at h
    · injection h with h; injection h with _ h; subst h; exact Nat.le_add_right _ _
    · split at h
      · cases h
      · split at h
        · injection h with h; injection h with _ h; subst h; exact Nat.le_add_right _ _
        · split at h
          · cases h
          · split at h
            · cases h
            · next hd =>
              split at h
              · cases h
              · next hr =>
                have := ih h
                unfold slice at hd
                split at hd
                · next hk =>
                  unfold sliceFrom at hr
                  split at hr
                  · injection hr with hr; subst hr
                    simp only [List.length_append, List.length_singleton, List.length_drop] at this
                    omega
                  · cases hr
                · cases hd

theorem mtapLoop_count {ts : Nat} {typ : UInt8} {off : Nat} (ho : off < 65535) (fuel : Nat) : ∀ {s s' : NALSink} {buf : Bytes} {e : Option H264Err},
    mtapLoop fuel typ off s buf ts = .ok (e, s') → s'.units.length ≤ s.units.length + buf.length := by
  induction fuel with
  | zero => intro s s' buf e h; cases h
  | succ n ih =>
    intro s s' buf e h
    unfold mtapLoop at h
    split at h
    · injection h with h; injection h with _ h; subst h; exact Nat.le_add_right _ _
    · split at h
      · split at h
        · cases h
        · split at h
          · injection h with h; injection h with _ h; subst h; exact Nat.le_add_right _ _
          · split at h
            · cases h
            · split at h
              · cases h
              · next hd =>
                split at h
                · cases h
                · next hr =>
                  have := ih h
                  unfold slice at hd
                  split at hd
                  · next hk =>
                    unfold sliceFrom at hr
                    split at hr
                    · injection hr with hr; subst hr
                      have hu : u16 (off + 1) = off + 1 := by unfold u16; omega
                      rw [hu] at hk
                      simp only [List.length_append, List.length_singleton, List.length_drop] at this
                      omega
                    · cases hr
                  · cases hd
      · cases h
      · cases h
      · cases h
      · cases h

theorem sliceFrom_length {b d : Bytes} {i : Nat} (h : sliceFrom b i = .ok d) : d.length ≤ b.length := (sliceFrom_sublist h).length_le

theorem parseSTAP_count {ts : Nat} {typ : UInt8} {s s' : NALSink} {buf : Bytes} {e : Option H264Err} (h : parseSTAP typ s buf ts = .ok (e, s')) :
    s'.units.length ≤ s.units.length + buf.length := by
  unfold parseSTAP at h
  split at h
  · split at h
    · injection h with h; injection h with _ h; subst h; exact Nat.le_add_right _ _
    · split at h
      · cases h
      · split at h
        · cases h
        · next hr =>
          have h1 := stapLoop_count _ h
          have h2 := sliceFrom_length hr
          dsimp only at h1
          omega
  · exact stapLoop_count _ h

theorem parseMTAP_count {ts : Nat} {typ : UInt8} {s s' : NALSink} {buf : Bytes} {e : Option H264Err} (h : parseMTAP typ s buf ts = .ok (e, s')) :
    s'.units.length ≤ s.units.length + buf.length := by
  unfold parseMTAP at h
  split at h
  · injection h with h; injection h with _ h; subst h; exact Nat.le_add_right _ _
  · split at h
    · cases h
    · split at h
      · cases h
      · next hr =>
        have h1 := mtapLoop_count (by split <;> decide) _ h
        have h2 := sliceFrom_length hr
        dsimp only at h1
        omega

theorem addFragment_count (s : NALSink) (i h : UInt8) (don ts : Nat) (d : Bytes) : (addFragment s i h don ts d).units.length ≤ s.units.length + 1 := by
  unfold addFragment
  dsimp only
  split
  · simp
  · exact Nat.le_succ _

theorem parseNAL_count {s s' : NALSink} {nal : Bytes} {ts : Nat} {e : Option H264Err} (h : parseNAL s nal ts = .ok (e, s')) :
    s'.units.length ≤ nal.length := by
  unfold parseNAL at h
  dsimp only at h
  cases nal with
  | nil => injection h with h; injection h with _ h; subst h; exact Nat.le_refl _
  | cons b0 rest =>
    dsimp only at h
    have agg : ∀ {s' : NALSink}, s'.units.length ≤ ([] : List NALUnit).length + rest.length → s'.units.length ≤ (b0 :: rest).length := by
      intro s' h
      simp only [List.length_nil, List.length_cons] at h ⊢
      omega
    have short : ∀ {s' : NALSink}, { s with units := [] } = s' → s'.units.length ≤ (b0 :: rest).length := by
      intro s' hs'; subst hs'; exact Nat.zero_le _
    have one : ∀ i h don d, (addFragment { s with units := [] } i h don ts d).units.length ≤ (b0 :: rest).length := by
      intro i h don d
      refine Nat.le_trans (addFragment_count _ i h don ts d) ?_
      simp
    split at h
    · exact agg (parseSTAP_count h)
    · split at h
      · exact agg (parseSTAP_count h)
      · split at h
        · exact agg (parseMTAP_count h)
        · split at h
          · exact agg (parseMTAP_count h)
          · split at h
            · split at h
              · injection h with h; injection h with _ h; exact short h
              · split at h
                · injection h with h; injection h with _ h; subst h; exact one _ _ _ _
                · cases h
                · cases h
            · split at h
              · split at h
                · injection h with h; injection h with _ h; exact short h
                · split at h
                  · split at h
                    · injection h with h; injection h with _ h; subst h; exact one _ _ _ _
                    · cases h
                  · cases h
                  · cases h
                  · cases h
              · injection h with h; injection h with _ h; subst h
                simp

theorem pushLoop_count {ts : Nat} (nals : List Bytes) : ∀ {s s' : NALSink} {e : Option H264Err}, nals ≠ [] → pushLoop s ts nals = .ok (e, s') →
    s'.units.length ≤ nals.flatten.length := by
  induction nals with
  | nil => intro s s' e h; exact absurd rfl h
  | cons nal nals ih =>
    intro s s' e _ h
    rw [List.flatten_cons, List.length_append]
    unfold pushLoop at h
    split at h
    · cases h
    · next hp =>
      injection h with h; injection h with _ h; subst h
      exact Nat.le_trans (parseNAL_count hp) (Nat.le_add_right _ _)
    · next s1 hp =>
      cases nals with
      | nil =>
        injection h with h; injection h with _ h; subst h
        exact Nat.le_trans (parseNAL_count hp) (Nat.le_add_right _ _)
      | cons n ns => exact Nat.le_trans (ih (by simp) h) (Nat.le_add_left _ _)

theorem push_count {s s' : NALSink} {buf : Bytes} {ts : Nat} {e : Option H264Err} (h : push s buf ts = .ok (e, s')) : s'.units.length ≤ buf.length := by
  obtain ⟨us, h1, h2, _, h3⟩ := C14_split_sane buf
  unfold push at h
  rw [h1] at h
  exact Nat.le_trans (pushLoop_count us h2 h) h3.length_le

theorem fed_count (s : NALSink × List (UInt8 × Nat × Bytes)) (x : UInt8 × Bytes) :
    (fed s x).2.length ≤ s.2.length + ((onVideo [x]).map Prod.snd).flatten.length := by
  unfold fed
  split
  · next hev =>
    have hv : ((onVideo [x]).map Prod.snd).flatten = x.2 := by unfold onVideo; simp [hev]
    rw [hv]
    split
    · next p hp =>
      have hpl := (rtpUnpack_pl hp).length_le
      split
      · next hpu =>
        have := push_count hpu
        rw [List.length_append, List.length_map]
        omega
      · exact Nat.le_add_right _ _
      · exact Nat.le_add_right _ _
    · exact Nat.le_add_right _ _
  · exact Nat.le_add_right _ _

/-- **C118**: no more units are reported than bytes were received in video packets, whatever they are. -/
theorem C118_count (w : World) (c : Client) (hr : ClientReachable w c) : (reported c.trace).length ≤ (videoBytes c.trace).flatten.length := by
  have key : ∀ (xs : List (UInt8 × Bytes)) (s : NALSink × List (UInt8 × Nat × Bytes)),
      (xs.foldl fed s).2.length ≤ s.2.length + ((onVideo xs).map Prod.snd).flatten.length := by
    intro xs
    induction xs with
    | nil => intro s; exact Nat.le_add_right _ _
    | cons x xs ih =>
      intro s
      have h1 := ih (fed s x)
      have h2 := fed_count s x
      rw [show onVideo (x :: xs) = onVideo [x] ++ onVideo xs from by unfold onVideo; rw [← List.filter_append]; rfl, List.map_append, List.flatten_append, List.length_append]
      rw [List.foldl_cons]
      omega
  have h2 : reported c.trace = ((seen c.trace).foldl fed (newNALSink, [])).2 := by rw [← client_fed hr]
  rw [h2]
  have := key (seen c.trace) (newNALSink, [])
  simpa [videoBytes] using this

theorem volume_le (us : List (UInt8 × Nat × Bytes)) (n : Nat) (h : ∀ u ∈ us, u.2.2.length ≤ n) : volume us ≤ us.length * n := by
  induction us with
  | nil => exact Nat.zero_le _
  | cons u us ih =>
    have h1 := h u (List.mem_cons_self ..)
    have h2 := ih fun x hx => h x (List.mem_cons_of_mem _ hx)
    rw [List.length_cons, Nat.add_mul, Nat.one_mul]
    show u.2.2.length + volume us ≤ _
    omega

/-- **C118**, what holds for whatever packets come: all that is reported together is at most the square of what was received. (`C118_refuted` shows that it does grow
like the square: `n` packets of 15 bytes give `n (n + 1) / 2`.) -/
theorem C118_square_partial (w : World) (c : Client) (hr : ClientReachable w c) :
    volume (reported c.trace) ≤ (videoBytes c.trace).flatten.length * (videoBytes c.trace).flatten.length :=
  Nat.le_trans (volume_le _ _ fun u hu => C118_each w c hr u.1 u.2.1 u.2.2 hu) (Nat.mul_le_mul_right _ (C118_count w c hr))

-- A client that has reported a unit.
example : ∃ c, ClientReachable demoWorld c ∧ (reported c.trace).length = 1 ∧ volume (reported c.trace) = 3 := by
  obtain ⟨c, h1, h2⟩ := demoClient_shows (frames := [[0x80, 96, 0, 1, 0, 0, 0, 2, 0, 0, 0, 3, 0x7C, 0x85, 7], [0x80, 96, 0, 2, 0, 0, 0, 2, 0, 0, 0, 3, 0x7C, 0x45, 8, 9]])
    (es := demoPlay ++ demoFrame ++ demoFrame) (f := fun c => reported c.trace) (a := [(0x65, 2, [7, 8, 9])]) (by decide +kernel)
  exact ⟨c, h1, by rw [h2]; rfl, by rw [h2]; rfl⟩

end Ouro
