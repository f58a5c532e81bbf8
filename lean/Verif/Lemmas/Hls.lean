import Verif.Model.Hls
import Verif.Spec.Hls
import Verif.Lemmas.Rtp
/-! # Lemmas about the playlist -/
namespace Ouro
open Spec

variable {D : Type}

/-- The j-th segment of a history as the model stores it. -/
def histSeg (hist : List (D × Int)) (j : Nat) : Option (Segment D) :=
  hist[j]?.map fun x => ⟨x.1, i64 (total (hist.take j)), x.2⟩

theorem total_append (a b : List (D × Int)) : total (a ++ b) = total a + total b := by
  induction a with
  | nil => simp [total]
  | cons x t ih => obtain ⟨d, l⟩ := x; simp only [List.cons_append, total, ih]; omega

theorem i64_add (a b : Int) : i64 (i64 a + b) = i64 (a + b) := by unfold i64; omega

theorem histSeg_append (hist : List (D × Int)) (x : D × Int) (j : Nat) (h : j < hist.length) :
    histSeg (hist ++ [x]) j = histSeg hist j := by
  unfold histSeg
  rw [List.getElem?_append_left h, List.take_append_of_le_length (by omega)]

theorem histSeg_last (hist : List (D × Int)) (x : D × Int) :
    histSeg (hist ++ [x]) hist.length = some ⟨x.1, i64 (total hist), x.2⟩ := by
  unfold histSeg
  simp

/-- The state after a history. -/
structure PlInv (uri : Bytes) (n : Nat) (hist : List (D × Int)) (pl : Playlist D) : Prop where
  version : pl.version = 4
  uri : pl.uri = uri
  len : pl.segments.length = n
  empty : hist = [] → pl.first = -1 ∧ pl.last = -1
  last : hist ≠ [] → pl.last = (((hist.length - 1) % n : Nat) : Int)
  first : hist ≠ [] → pl.first = ((min (hist.length - n) n : Nat) : Int)
  slots : ∀ j, j < hist.length → hist.length ≤ j + n → pl.segments[j % n]? = histSeg hist j

theorem plInv_new (zero : D) (uri : Bytes) (n : Nat) : PlInv uri n [] (newPlaylist zero uri n) where
  version := rfl
  uri := rfl
  len := by simp [newPlaylist]
  empty := fun _ => ⟨rfl, rfl⟩
  last := fun h => absurd rfl h
  first := fun h => absurd rfl h
  slots := fun j h => by simp at h

theorem mod_ne {n a b : Nat} (h1 : a < b) (h2 : b < a + n) : a % n ≠ b % n := by
  intro h
  have ha := Nat.div_add_mod a n
  have hb := Nat.div_add_mod b n
  rw [h] at ha
  have hlt : n * (a / n) < n * (b / n) := by omega
  have : a / n < b / n := Nat.lt_of_mul_lt_mul_left hlt
  have : n * (a / n + 1) ≤ n * (b / n) := Nat.mul_le_mul_left n (by omega)
  rw [Nat.mul_add, Nat.mul_one] at this
  omega

theorem succ_mod (n k : Nat) (hn : 0 < n) : (k % n + 1) % n = (k + 1) % n := by simp

theorem addSegment_ok {uri : Bytes} {n : Nat} (hn : 1 ≤ n) {hist : List (D × Int)} {pl : Playlist D} (h : PlInv uri n hist pl)
    (x : D × Int) : ∃ pl', addSegment pl x.1 x.2 = .ok pl' ∧ PlInv uri n (hist ++ [x]) pl' := by
  have hpos : nextPosition pl = .ok (i64 (total hist)) := by
    unfold nextPosition
    by_cases he : hist = []
    · rw [if_neg (by rw [(h.empty he).2]; decide), he]; rfl
    · have hl : 0 < hist.length := List.length_pos_iff.2 he
      have hs := h.slots (hist.length - 1) (by omega) (by omega)
      rw [h.last he, if_pos (by omega)]
      unfold idxInt
      rw [if_pos (by omega), Int.toNat_natCast, idx, hs]
      unfold histSeg
      rw [List.getElem?_eq_getElem (by omega)]
      simp only [Option.map_some, go_ok_bind]
      show Except.ok _ = Except.ok _
      congr 1
      rw [i64_add]
      congr 1
      have : hist = hist.take (hist.length - 1) ++ [hist[hist.length - 1]] := by
        conv => lhs; rw [← List.take_append_drop (hist.length - 1) hist]
        congr 1
        rw [List.drop_eq_getElem_cons (by omega), List.drop_eq_nil_of_le (by omega)]
      conv => rhs; rw [this]
      rw [total_append]
      simp [total]
  have hlast : modInt (pl.last + 1) pl.segments.length = .ok ((hist.length % n : Nat) : Int) := by
    unfold modInt
    rw [h.len, if_neg (by omega)]
    congr 1
    by_cases he : hist = []
    · rw [(h.empty he).2, he]; simp
    · have hl : 0 < hist.length := List.length_pos_iff.2 he
      rw [h.last he]
      have : (((hist.length - 1) % n : Nat) : Int) + 1 = (((hist.length - 1) % n + 1 : Nat) : Int) := by omega
      rw [this, ← Int.ofNat_tmod, succ_mod _ _ hn]
      have : hist.length - 1 + 1 = hist.length := by omega
      rw [this]
  have hmod : hist.length % n < n := Nat.mod_lt _ hn
  unfold addSegment
  rw [hpos, go_ok_bind, hlast, go_ok_bind]
  unfold setInt
  rw [if_pos (by rw [h.len]; omega), go_ok_bind]
  refine ⟨_, rfl, ?_⟩
  exact {
    version := h.version
    uri := h.uri
    len := by simp [h.len]
    empty := fun he => by simp at he
    last := fun _ => by simp
    first := fun _ => by
      dsimp only
      rw [List.length_append, List.length_singleton]
      by_cases he : hist = []
      · subst he
        rw [(h.empty rfl).1, if_neg (by simp), if_pos (by decide)]
        simp; omega
      · have hl : 0 < hist.length := List.length_pos_iff.2 he
        rw [h.first he]
        by_cases hk : hist.length < n
        · rw [Nat.mod_eq_of_lt hk, if_neg (by omega), if_neg (by omega)]
          omega
        · by_cases hk2 : hist.length < 2 * n
          · have : hist.length % n = hist.length - n := by
              rw [Nat.mod_eq_sub_mod (by omega), Nat.mod_eq_of_lt (by omega)]
            rw [this, if_pos (by omega)]
            omega
          · rw [if_neg (by omega), if_neg (by omega)]
            omega
    slots := fun j hj hjn => by
      dsimp only
      rw [List.length_append, List.length_singleton] at hj hjn
      rw [Int.toNat_natCast]
      by_cases he : j = hist.length
      · subst he
        rw [histSeg_last, List.getElem?_set_self (by rw [h.len]; exact hmod)]
      · rw [histSeg_append _ _ _ (by omega), List.getElem?_set_ne, h.slots j (by omega) (by omega)]
        exact (mod_ne (by omega) (by omega)).symm }

theorem addSegments_ok {uri : Bytes} {n : Nat} (hn : 1 ≤ n) (hs : List (D × Int)) : ∀ {hist : List (D × Int)} {pl : Playlist D},
    PlInv uri n hist pl → ∃ pl', addSegments pl hs = .ok pl' ∧ PlInv uri n (hist ++ hs) pl' := by
  induction hs with
  | nil => intro hist pl h; exact ⟨pl, rfl, by simpa using h⟩
  | cons x t ih =>
    intro hist pl h
    obtain ⟨pl1, h1, i1⟩ := addSegment_ok hn h x
    obtain ⟨pl2, h2, i2⟩ := ih i1
    refine ⟨pl2, ?_, by simpa using i2⟩
    rw [addSegments, h1, go_ok_bind, h2]

/-- The listing loop, started at the slot of the segment with number `base + t`, lists the segments up to the newest. -/
theorem playlistLoop_ok (fmt : D → Bytes) {uri : Bytes} {n : Nat} (hn : 1 ≤ n) {hist : List (D × Int)} {pl : Playlist D}
    (h : PlInv uri n hist pl) (hne : hist ≠ []) : ∀ (r j fuel : Nat), j + r + 1 = hist.length → r + 1 ≤ n → r + 1 ≤ fuel →
    ∃ segs : List (Segment D), playlistLoop fmt pl fuel ((j % n : Nat) : Int) = .ok (segs.flatMap (segmentText fmt uri)) ∧
      segs.length = r + 1 ∧ ∀ i, i < r + 1 → segs[i]? = histSeg hist (j + i) := by
  intro r
  induction r with
  | zero =>
    intro j fuel hj hr hf
    obtain ⟨fuel, rfl⟩ : ∃ f, fuel = f + 1 := ⟨fuel - 1, by omega⟩
    rw [playlistLoop]
    have hs := h.slots j (by omega) (by omega)
    have hg : hist[j]? = some hist[j] := List.getElem?_eq_getElem (by omega)
    have hs' : histSeg hist j = some ⟨hist[j].1, i64 (total (hist.take j)), hist[j].2⟩ := by unfold histSeg; rw [hg]; rfl
    unfold idxInt
    rw [if_pos (by omega), Int.toNat_natCast, idx, hs, hs', go_ok_bind, h.last hne, if_pos (by rw [← hj]; simp), h.uri]
    refine ⟨[_], by simp [List.flatMap_cons]; rfl, rfl, ?_⟩
    intro i hi
    obtain rfl : i = 0 := by omega
    simp [hs']
  | succ r ih =>
    intro j fuel hj hr hf
    obtain ⟨fuel, rfl⟩ : ∃ f, fuel = f + 1 := ⟨fuel - 1, by omega⟩
    rw [playlistLoop]
    have hs := h.slots j (by omega) (by omega)
    have hg : hist[j]? = some hist[j] := List.getElem?_eq_getElem (by omega)
    have hs' : histSeg hist j = some ⟨hist[j].1, i64 (total (hist.take j)), hist[j].2⟩ := by unfold histSeg; rw [hg]; rfl
    unfold idxInt
    have hne' : ((j % n : Nat) : Int) ≠ pl.last := by
      rw [h.last hne]
      have := mod_ne (n := n) (a := j) (b := hist.length - 1) (by omega) (by omega)
      omega
    rw [if_pos (by omega), Int.toNat_natCast, idx, hs, hs', go_ok_bind, if_neg hne']
    have hm : modInt (((j % n : Nat) : Int) + 1) pl.segments.length = .ok (((j + 1) % n : Nat) : Int) := by
      unfold modInt
      rw [h.len, if_neg (by omega)]
      congr 1
      have : ((j % n : Nat) : Int) + 1 = ((j % n + 1 : Nat) : Int) := by omega
      rw [this, ← Int.ofNat_tmod, succ_mod _ _ hn]
    obtain ⟨segs, h1, h2, h3⟩ := ih (j + 1) fuel (by omega) (by omega) (by omega)
    rw [hm, go_ok_bind, h1, go_ok_bind, h.uri]
    refine ⟨_ :: segs, by rw [List.flatMap_cons]; rfl, by simp [h2], ?_⟩
    intro i hi
    cases i with
    | zero => simp [hs']
    | succ i =>
      rw [List.getElem?_cons_succ, h3 i (by omega)]
      congr 1; omega

end Ouro
