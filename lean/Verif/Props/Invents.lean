import Verif.Props.Determined
/-!
# C117: nothing is made up
-/
namespace Ouro
open Spec

theorem slice_sublist {b d : Bytes} {i j : Nat} (h : slice b i j = .ok d) : d.Sublist b := by
  unfold slice at h
  split at h
  · injection h with h; subst h; exact (List.drop_sublist _ _).trans (List.take_sublist _ _)
  · cases h

theorem sliceFrom_sublist {b d : Bytes} {i : Nat} (h : sliceFrom b i = .ok d) : d.Sublist b := by
  unfold sliceFrom at h
  split at h
  · injection h with h; subst h; exact List.drop_sublist _ _
  · cases h

theorem stapLoop_from {ts : Nat} (fuel : Nat) : ∀ {s s' : NALSink} {buf : Bytes} {e : Option H264Err}, stapLoop fuel s buf ts = .ok (e, s') →
    s'.fragments = s.fragments ∧ ∀ u ∈ s'.units, u ∈ s.units ∨ u.data.Sublist buf := by
  induction fuel with
  | zero => intro s s' buf e h; cases h
  | succ n ih =>
    intro s s' buf e h
    unfold stapLoop at h
    split at h
    · injection h with h; injection h with _ h; subst h; exact ⟨rfl, fun u hu => .inl hu⟩
    · split at h
      · cases h
      · split at h
        · injection h with h; injection h with _ h; subst h; exact ⟨rfl, fun u hu => .inl hu⟩
        · split at h
          · cases h
          · split at h
            · cases h
            · next d hd =>
              split at h
              · cases h
              · next rest hr =>
                obtain ⟨h1, h2⟩ := ih h
                refine ⟨h1, fun u hu => ?_⟩
                rcases h2 u hu with hu | hu
                · rcases List.mem_append.1 hu with hu | hu
                  · exact .inl hu
                  · rw [List.mem_singleton] at hu; subst hu; exact .inr (slice_sublist hd)
                · exact .inr (hu.trans (sliceFrom_sublist hr))

theorem parseSTAP_from {ts : Nat} {typ : UInt8} {s s' : NALSink} {buf : Bytes} {e : Option H264Err} (h : parseSTAP typ s buf ts = .ok (e, s')) :
    s'.fragments = s.fragments ∧ ∀ u ∈ s'.units, u ∈ s.units ∨ u.data.Sublist buf := by
  unfold parseSTAP at h
  split at h
  · split at h
    · injection h with h; injection h with _ h; subst h; exact ⟨rfl, fun u hu => .inl hu⟩
    · split at h
      · cases h
      · split at h
        · cases h
        · next rest hr =>
          obtain ⟨h1, h2⟩ := stapLoop_from _ h
          exact ⟨h1, fun u hu => (h2 u hu).imp_right fun hu => hu.trans (sliceFrom_sublist hr)⟩
  · exact stapLoop_from _ h

theorem mtapLoop_from {ts : Nat} {typ : UInt8} {off : Nat} (fuel : Nat) : ∀ {s s' : NALSink} {buf : Bytes} {e : Option H264Err}, mtapLoop fuel typ off s buf ts = .ok (e, s') →
    s'.fragments = s.fragments ∧ ∀ u ∈ s'.units, u ∈ s.units ∨ u.data.Sublist buf := by
  induction fuel with
  | zero => intro s s' buf e h; cases h
  | succ n ih =>
    intro s s' buf e h
    unfold mtapLoop at h
    split at h
    · injection h with h; injection h with _ h; subst h; exact ⟨rfl, fun u hu => .inl hu⟩
    · split at h
      · split at h
        · cases h
        · split at h
          · injection h with h; injection h with _ h; subst h; exact ⟨rfl, fun u hu => .inl hu⟩
          · split at h
            · cases h
            · split at h
              · cases h
              · next d hd =>
                split at h
                · cases h
                · next rest hr =>
                  obtain ⟨h1, h2⟩ := ih h
                  refine ⟨h1, fun u hu => ?_⟩
                  rcases h2 u hu with hu | hu
                  · rcases List.mem_append.1 hu with hu | hu
                    · exact .inl hu
                    · rw [List.mem_singleton] at hu; subst hu; exact .inr (slice_sublist hd)
                  · exact .inr (hu.trans (sliceFrom_sublist hr))
      · cases h
      · cases h
      · cases h
      · cases h

theorem parseMTAP_from {ts : Nat} {typ : UInt8} {s s' : NALSink} {buf : Bytes} {e : Option H264Err} (h : parseMTAP typ s buf ts = .ok (e, s')) :
    s'.fragments = s.fragments ∧ ∀ u ∈ s'.units, u ∈ s.units ∨ u.data.Sublist buf := by
  unfold parseMTAP at h
  split at h
  · injection h with h; injection h with _ h; subst h; exact ⟨rfl, fun u hu => .inl hu⟩
  · split at h
    · cases h
    · split at h
      · cases h
      · next rest hr =>
        obtain ⟨h1, h2⟩ := mtapLoop_from _ h
        exact ⟨h1, fun u hu => (h2 u hu).imp_right fun hu => hu.trans (sliceFrom_sublist hr)⟩

theorem addFragment_from {s : NALSink} (hs : s.units = []) (i h : UInt8) (don ts : Nat) {d nal : Bytes} (hd : d.Sublist nal) :
    (keptIn (addFragment s i h don ts d)).Sublist (keptIn s ++ nal) ∧ ∀ u ∈ (addFragment s i h don ts d).units, u.data.Sublist (keptIn s ++ nal) := by
  have key : (List.flatMap (·.unit.data) ((if (h &&& 0x80) != 0 then [] else s.fragments) ++ [({ unit := { header := i, don := don, ts := ts, data := d }, flags := h } : NALFragment)])).Sublist
      (keptIn s ++ nal) := by
    rw [List.flatMap_append]
    refine List.Sublist.append ?_ (by simpa using hd)
    split
    · exact List.nil_sublist _
    · exact List.Sublist.refl _
  unfold addFragment keptIn
  dsimp only
  split
  · refine ⟨key, fun u hu => ?_⟩
    rw [hs, List.nil_append, List.mem_singleton] at hu
    subst hu
    exact key
  · refine ⟨key, fun u hu => ?_⟩
    dsimp only at hu
    rw [hs] at hu
    cases hu

theorem parseNAL_from {s s' : NALSink} {nal : Bytes} {ts : Nat} {e : Option H264Err} (h : parseNAL s nal ts = .ok (e, s')) :
    (keptIn s').Sublist (keptIn s ++ nal) ∧ ∀ u ∈ s'.units, u.data.Sublist (keptIn s ++ nal) := by
  unfold parseNAL at h
  dsimp only at h
  cases nal with
  | nil =>
    injection h with h; injection h with _ h; subst h
    exact ⟨List.sublist_append_left _ _, fun u hu => by (cases hu)⟩
  | cons b0 rest =>
    dsimp only at h
    have agg : ∀ {s' : NALSink}, (s'.fragments = s.fragments ∧ ∀ u ∈ s'.units, u ∈ ([] : List NALUnit) ∨ u.data.Sublist rest) →
        (keptIn s').Sublist (keptIn s ++ b0 :: rest) ∧ ∀ u ∈ s'.units, u.data.Sublist (keptIn s ++ b0 :: rest) := by
      intro s' ⟨h1, h2⟩
      refine ⟨?_, fun u hu => ?_⟩
      · unfold keptIn; rw [h1]; exact List.sublist_append_left _ _
      · rcases h2 u hu with hu | hu
        · cases hu
        · exact (hu.trans (List.sublist_cons_self _ _)).trans (List.sublist_append_right _ _)
    have short : ∀ {s' : NALSink}, s' = { s with units := [] } → (keptIn s').Sublist (keptIn s ++ b0 :: rest) ∧ ∀ u ∈ s'.units, u.data.Sublist (keptIn s ++ b0 :: rest) := by
      intro s' hs'; subst hs'
      exact ⟨List.sublist_append_left _ _, fun u hu => by (cases hu)⟩
    split at h
    · exact agg (parseSTAP_from h)
    · split at h
      · exact agg (parseSTAP_from h)
      · split at h
        · exact agg (parseMTAP_from h)
        · split at h
          · exact agg (parseMTAP_from h)
          · split at h
            · split at h
              · injection h with h; injection h with _ h; exact short h.symm
              · split at h
                · next d _ hd =>
                  injection h with h; injection h with _ h; subst h
                  exact addFragment_from (s := { s with units := [] }) rfl _ _ _ _ (sliceFrom_sublist hd)
                · cases h
                · cases h
            · split at h
              · split at h
                · injection h with h; injection h with _ h; exact short h.symm
                · split at h
                  · next d _ hd =>
                    split at h
                    · injection h with h; injection h with _ h; subst h
                      exact addFragment_from (s := { s with units := [] }) rfl _ _ _ _ (sliceFrom_sublist hd)
                    · cases h
                  · cases h
                  · cases h
                  · cases h
              · injection h with h; injection h with _ h; subst h
                refine ⟨List.sublist_append_left _ _, fun u hu => ?_⟩
                dsimp only at hu
                rw [List.nil_append, List.mem_singleton] at hu
                subst hu
                exact (List.sublist_cons_self _ _).trans (List.sublist_append_right _ _)

theorem pushLoop_from {ts : Nat} (nals : List Bytes) : ∀ {s s' : NALSink} {e : Option H264Err}, pushLoop s ts nals = .ok (e, s') →
    (keptIn s').Sublist (keptIn s ++ nals.flatten) ∧ (nals ≠ [] → ∀ u ∈ s'.units, u.data.Sublist (keptIn s ++ nals.flatten)) := by
  induction nals with
  | nil => intro s s' e h; injection h with h; injection h with _ h; subst h; exact ⟨List.sublist_append_left _ _, fun hx => absurd rfl hx⟩
  | cons nal nals ih =>
    intro s s' e h
    unfold pushLoop at h
    have wide : ∀ {l : Bytes}, l.Sublist (keptIn s ++ nal) → l.Sublist (keptIn s ++ (nal :: nals).flatten) := by
      intro l hl
      rw [List.flatten_cons, ← List.append_assoc]
      exact hl.trans (List.sublist_append_left _ _)
    split at h
    · cases h
    · next hp =>
      injection h with h; injection h with _ h; subst h
      obtain ⟨h1, h2⟩ := parseNAL_from hp
      exact ⟨wide h1, fun _ u hu => wide (h2 u hu)⟩
    · next s1 hp =>
      obtain ⟨h1, h2⟩ := parseNAL_from hp
      obtain ⟨h3, h4⟩ := ih h
      have more : ∀ {l : Bytes}, l.Sublist (keptIn s1 ++ nals.flatten) → l.Sublist (keptIn s ++ (nal :: nals).flatten) := by
        intro l hl
        rw [List.flatten_cons, ← List.append_assoc]
        exact hl.trans (List.Sublist.append h1 (List.Sublist.refl _))
      refine ⟨more h3, fun _ u hu => ?_⟩
      cases nals with
      | nil => injection h with h; injection h with _ h; subst h; exact wide (h2 u hu)
      | cons n ns => exact more (h4 (by simp) u hu)

theorem push_from {s s' : NALSink} {buf : Bytes} {ts : Nat} {e : Option H264Err} (h : push s buf ts = .ok (e, s')) :
    (keptIn s').Sublist (keptIn s ++ buf) ∧ ∀ u ∈ s'.units, u.data.Sublist (keptIn s ++ buf) := by
  obtain ⟨us, h1, h2, _, h3⟩ := C14_split_sane buf
  unfold push at h
  rw [h1] at h
  obtain ⟨h4, h5⟩ := pushLoop_from us h
  have more : ∀ {l : Bytes}, l.Sublist (keptIn s ++ us.flatten) → l.Sublist (keptIn s ++ buf) := fun hl => hl.trans (List.Sublist.append (List.Sublist.refl _) h3)
  exact ⟨more h4, fun u hu => more (h5 h2 u hu)⟩

theorem rtpUnpack_pl {buf : Bytes} {p : RtpPacket} (h : rtpUnpack buf = .ok (.ok p)) : p.pl.Sublist buf := by
  unfold rtpUnpack at h
  simp only [bind, Except.bind, pure, Except.pure] at h
  split at h
  · cases h
  · split at h
    · cases h
    · split at h
      · cases h
      · split at h
        · cases h
        · split at h
          · cases h
          · split at h
            · cases h
            · split at h
              · cases h
              · split at h
                · cases h
                · split at h
                  · cases h
                  · next hs =>
                    injection h with h; injection h with h; subst h
                    exact sliceFrom_sublist hs

theorem fed_from {s : NALSink × List (UInt8 × Nat × Bytes)} {x : UInt8 × Bytes} {b : Bytes} (h1 : (keptIn s.1).Sublist b) (h2 : ∀ r ∈ s.2, r.2.2.Sublist b) :
    (keptIn (fed s x).1).Sublist (b ++ (onVideo [x]).flatMap (·.2)) ∧ ∀ r ∈ (fed s x).2, r.2.2.Sublist (b ++ (onVideo [x]).flatMap (·.2)) := by
  have same : (keptIn s.1).Sublist (b ++ (onVideo [x]).flatMap (·.2)) ∧ ∀ r ∈ s.2, r.2.2.Sublist (b ++ (onVideo [x]).flatMap (·.2)) :=
    ⟨h1.trans (List.sublist_append_left _ _), fun r hr => (h2 r hr).trans (List.sublist_append_left _ _)⟩
  unfold fed
  split
  · next hev =>
    have hv : (onVideo [x]).flatMap (·.2) = x.2 := by unfold onVideo; simp [hev]
    split
    · next p hp =>
      have hpl := rtpUnpack_pl hp
      have up : ∀ {l : Bytes}, l.Sublist (keptIn s.1 ++ p.pl) → l.Sublist (b ++ (onVideo [x]).flatMap (·.2)) := fun hl => by
        rw [hv]; exact hl.trans (List.Sublist.append h1 hpl)
      split
      · next hpu =>
        obtain ⟨k1, k2⟩ := push_from hpu
        refine ⟨up k1, fun r hr => ?_⟩
        rcases List.mem_append.1 hr with hr | hr
        · exact same.2 r hr
        · obtain ⟨u, hu, rfl⟩ := List.mem_map.1 hr
          exact up (k2 u hu)
      · next hpu =>
        obtain ⟨k1, k2⟩ := push_from hpu
        exact ⟨up k1, same.2⟩
      · exact same
    · exact same
  · exact same

/-- C117: whatever the server sends, the data of every unit that is reported consists of bytes of the video packets received so far, in the order in
which they came. -/
theorem C117_received (w : World) (c : Client) (hr : ClientReachable w c) (h : UInt8) (ts : Nat) (d : Bytes) (hu : (h, ts, d) ∈ reported c.trace) :
    d.Sublist (videoBytes c.trace).flatten := by
  have key : ∀ (xs : List (UInt8 × Bytes)) (s : NALSink × List (UInt8 × Nat × Bytes)) (b : Bytes), (keptIn s.1).Sublist b → (∀ r ∈ s.2, r.2.2.Sublist b) →
      ∀ r ∈ (xs.foldl fed s).2, r.2.2.Sublist (b ++ ((onVideo xs).map Prod.snd).flatten) := by
    intro xs
    induction xs with
    | nil => intro s b _ h2 r hr; exact (h2 r hr).trans (List.sublist_append_left _ _)
    | cons x xs ih =>
      intro s b h1 h2 r hr
      obtain ⟨k1, k2⟩ := fed_from (x := x) h1 h2
      have := ih (fed s x) _ k1 k2 r hr
      rw [show onVideo (x :: xs) = onVideo [x] ++ onVideo xs from by unfold onVideo; rw [← List.filter_append]; rfl, List.map_append, List.flatten_append, ← List.append_assoc]
      rw [List.flatMap_def] at this
      exact this
  have hf := client_fed hr
  have h2 : reported c.trace = ((seen c.trace).foldl fed (newNALSink, [])).2 := by rw [← hf]
  rw [h2] at hu
  have := key _ (newNALSink, []) [] (List.Sublist.refl _) (fun r hr => by (cases hr)) _ hu
  exact this

-- A unit in two fragments is made of the bytes received.
example : ∃ c, ClientReachable demoWorld c ∧ reported c.trace = [(0x65, 2, [7, 8, 9])] ∧ ([7, 8, 9] : Bytes).Sublist (videoBytes c.trace).flatten := by
  obtain ⟨c, h1, h2⟩ := demoClient_shows (frames := [[0x80, 96, 0, 1, 0, 0, 0, 2, 0, 0, 0, 3, 0x7C, 0x85, 7], [0x80, 96, 0, 2, 0, 0, 0, 2, 0, 0, 0, 3, 0x7C, 0x45, 8, 9]])
    (es := demoPlay ++ demoFrame ++ demoFrame) (f := fun c => reported c.trace) (a := [(0x65, 2, [7, 8, 9])]) (by decide +kernel)
  exact ⟨c, h1, h2, C117_received demoWorld c h1 0x65 2 _ (by rw [h2]; exact List.mem_singleton.2 rfl)⟩

end Ouro
