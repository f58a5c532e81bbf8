import Verif.Props.Session
import Verif.Lemmas.TransportField
/-! # C57: responses whose CSeq is missing or is no number -/
namespace Ouro
open Spec

theorem atoiParts_bad {neg : Bool} {ds : Bytes} {e : NumErr} (h : (atoiParts neg ds).2 = some e) :
    (atoiParts neg ds).1 ≤ 0 ∨ (atoiParts neg ds).1 = 2 ^ 63 - 1 := by
  unfold atoiParts at h ⊢
  by_cases h0 : ds = []
  · rw [if_pos h0] at h ⊢; left; simp
  · rw [if_neg h0] at h ⊢
    cases hs : scanUint 0 ds with
    | error e' => cases e' <;> cases neg <;> simp
    | ok n =>
      rw [hs] at h
      simp only at h ⊢
      cases neg with
      | true =>
        simp only [if_true] at h ⊢
        by_cases hn : n > 2 ^ 63
        · rw [if_pos hn]; simp
        · rw [if_neg hn] at h; cases h
      | false =>
        simp only [Bool.false_eq_true, if_false] at h ⊢
        by_cases hn : n ≥ 2 ^ 63
        · rw [if_pos hn]; simp
        · rw [if_neg hn] at h; cases h

/-- What is left in the variable when a number is refused: no number from 1 to 2^63 - 2. -/
theorem atoi_refused {v : Bytes} (h : ∀ i, ¬ Numeral v i) : (atoi v).1 ≤ 0 ∨ (atoi v).1 = 2 ^ 63 - 1 := by
  have h2 : ∃ e, (atoi v).2 = some e := by
    cases he : (atoi v).2 with
    | some e => exact ⟨e, rfl⟩
    | none => exact absurd ((atoi_iff v (atoi v).1).mp (by rw [← he])) (h _)
  obtain ⟨e, he⟩ := h2
  cases v with
  | nil => left; simp [atoi]
  | cons c cs =>
    rw [atoi] at he ⊢
    split
    · rename_i hc; rw [if_pos hc] at he; exact atoiParts_bad he
    · rename_i hc
      rw [if_neg hc] at he
      split
      · rename_i hc; rw [if_pos hc] at he; exact atoiParts_bad he
      · rename_i hc; rw [if_neg hc] at he; exact atoiParts_bad he

/-- The number of a response that was read is its CSeq field read as a number. -/
theorem unpackRsp_cseq {r r' : Rdr} {rsp : Response} (h : unpackRsp r = (.ok rsp, r')) : rsp.cseq = (atoi (rsp.header.get b!"CSeq")).1 := by
  unfold unpackRsp at h
  split at h
  · cases h
  · split at h
    · cases h
    · split at h
      · cases h
      · simp only at h
        split at h
        · split at h
          · cases h
          · cases h; rfl
        · cases h; rfl

/-- C57: a response that was read from the connection without a CSeq, or with one that is no number, answers no request: it is
an error and changes nothing. This as long as less than 2^63 - 1 requests were sent. -/
theorem C57_unreadable (w : World) (s : Sess) (h : Reachable w s) (r r' : Rdr) (rsp : Response) (hr : unpackRsp r = (.ok rsp, r'))
    (hn : ∀ i, ¬ Numeral (rsp.header.get b!"CSeq") i) (hfew : (newSeqs s.out).length < 2 ^ 63 - 1) :
    step w s (.item (.response rsp)) = .ok ({ s with out := .got rsp :: s.out }, some .badResponse) := by
  refine C57_unknown w s h rsp ?_
  cases hp : pending rsp.cseq s.out with
  | none => rfl
  | some req =>
    have hi := inv_reachable h
    obtain ⟨h1, h2, _⟩ := hi.range _ _ hp
    rw [unpackRsp_cseq hr] at h1 h2
    rw [hi.seqs] at hfew
    have := atoi_refused hn
    omega

/-- A response without a CSeq, and one with a CSeq that is no number, are read. -/
example : (match unpackRsp ⟨b!"RTSP/1.0 200 OK\r\nSession: 1\r\n\r\n", none, []⟩ with
    | (.ok rsp, _) => rsp.header.get b!"CSeq" == [] && rsp.header.get b!"Session" == b!"1"
    | _ => false) = true := by decide +kernel
example : (match unpackRsp ⟨b!"RTSP/1.0 200 OK\r\nCSeq: one\r\n\r\n", none, []⟩ with
    | (.ok rsp, _) => rsp.header.get b!"CSeq" == b!"one"
    | _ => false) = true := by decide +kernel

/-- They are no numbers. -/
example : ∀ v ∈ [b!"", b!"one", b!"1 ", b!"99999999999999999999"], ∀ i, ¬ Numeral v i := by
  intro v hv i h
  have h2 := congrArg Prod.snd ((atoi_iff v i).mpr h)
  have hall : ∀ v ∈ [b!"", b!"one", b!"1 ", b!"99999999999999999999"], (atoi v).2 ≠ none := by decide +kernel
  exact hall v hv h2

end Ouro
