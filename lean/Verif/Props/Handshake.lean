import Verif.Props.Http
import Verif.Props.Malformed
/-! # C70: exactly which answers to the GET request are accepted -/
namespace Ouro
open Spec

theorem lineLoop_inv : ∀ (net : List Ev) (acc line : Bytes) (r' : Rdr), (10 : UInt8) ∉ acc → lineLoop acc net = (.ok line, r') →
    ∃ l, line = acc ++ l ++ [10] ∧ (10 : UInt8) ∉ l ∧ net = (l ++ [10]).map .byte ++ r'.evs ∧ r'.err = none
  | [], acc, line, r', ha, h => by cases h
  | .timeout :: t, acc, line, r', ha, h => by cases h
  | .reset :: t, acc, line, r', ha, h => by cases h
  | .byte b :: t, acc, line, r', ha, h => by
    unfold lineLoop at h
    split at h
    · rename_i hb
      injection h with h1 h2
      injection h1 with h1
      subst hb; subst h1; subst h2
      exact ⟨[], by simp, by simp, by simp [Rdr.evs], rfl⟩
    · rename_i hb
      obtain ⟨l, h1, h2, h3, h4⟩ := lineLoop_inv t (acc ++ [b]) line r' (by simp [ha]; exact fun h => hb h.symm) h
      exact ⟨b :: l, by rw [h1]; simp, by simp [h2]; exact fun h => hb h.symm, by rw [h3]; simp, h4⟩

/-- What `ReadLine` returns is what came up to the first line feed. -/
theorem readLine_inv {r r' : Rdr} {line : Bytes} (he : r.err = none) (h : r.readLine = (.ok line, r')) :
    ∃ l, line = l ++ [10] ∧ (10 : UInt8) ∉ l ∧ r.evs = (l ++ [10]).map .byte ++ r'.evs ∧ r'.err = none := by
  unfold Rdr.readLine at h
  cases hc : cut 10 r.buf with
  | some p =>
    obtain ⟨a, b⟩ := p
    rw [hc] at h
    injection h with h1 h2
    injection h1 with h1
    subst h1; subst h2
    obtain ⟨e, ha⟩ := cut_some hc
    exact ⟨a, rfl, ha, by simp [Rdr.evs, e], he⟩
  | none =>
    rw [hc, he] at h
    obtain ⟨l, h1, h2, h3, h4⟩ := lineLoop_inv r.net r.buf line r' (cut_none.1 hc) h
    refine ⟨r.buf ++ l, by rw [h1], ?_, by unfold Rdr.evs at h3 ⊢; rw [h3]; simp, h4⟩
    rw [List.mem_append]
    rintro (h | h)
    · exact cut_none.1 hc h
    · exact h2 h

theorem splitN2_colon (s : Bytes) : (splitN2 58 s).length = 2 ↔ (58 : UInt8) ∈ s := by
  unfold splitN2
  cases hc : cut 58 s with
  | none => simpa using cut_none.1 hc
  | some p => obtain ⟨e, _⟩ := cut_some hc; rw [e]; simp

/-- The lines of an answer's header: not blank and with a colon, up to a blank line. -/
theorem httpHeaderLoop_inv : ∀ (n : Nat) (r r' : Rdr), r.err = none → httpHeaderLoop n r = (none, r') →
    ∃ (ls : List Bytes) (blank : Bytes), (∀ l ∈ ls, (10 : UInt8) ∉ l ∧ NotBlank l ∧ HasColon l) ∧ ((10 : UInt8) ∉ blank ∧ ¬ NotBlank blank) ∧
      r.evs = (linesText (ls ++ [blank])).map .byte ++ r'.evs ∧ r'.err = none
  | 0, r, r', he, h => by cases h
  | n + 1, r, r', he, h => by
    unfold httpHeaderLoop at h
    cases hl : r.readLine with
    | mk x q =>
      rw [hl] at h
      cases x with
      | error e => cases h
      | ok line =>
        obtain ⟨l, h1, h2, h3, h4⟩ := readLine_inv he hl
        subst h1
        dsimp only at h
        by_cases ht : trimSpace (l ++ [10]) = []
        · rw [if_pos ht] at h
          injection h with _ h
          subst h
          exact ⟨[], l, by simp, ⟨h2, by simpa [NotBlank] using ht⟩, by rw [h3]; simp [linesText], h4⟩
        · rw [if_neg ht] at h
          split at h
          · cases h
          · rename_i hk
            obtain ⟨ls, blank, g1, g2, g3, g4⟩ := httpHeaderLoop_inv n q r' h4 h
            refine ⟨l :: ls, blank, ?_, g2, ?_, g4⟩
            · intro x hx
              rcases List.mem_cons.1 hx with rfl | hx
              · exact ⟨h2, ht, (splitN2_colon _).1 (by omega)⟩
              · exact g1 x hx
            · rw [h3, g3]; simp [linesText]

/-- C70, exactly: opening succeeds if and only if the request was written and the server sent lines that are a status line with version 1.0 and any code of three
digits (or a sign and two digits, as in C73), header lines that each have a colon, and a blank line; reading goes on right behind them. The status itself does not
matter (`C70_status_refuted`). -/
theorem C70_accepts_iff (w : Bytes → Bool) (uri guid : Bytes) (r : Rdr) (he : r.err = none) (rest : List Ev) :
    (∃ c, dialHTTP w uri guid r = .ok c ∧ c.rdr.err = none ∧ c.rdr.evs = rest) ↔
      w (connectHTTP b!"GET" uri guid) = true ∧ ∃ (line : Bytes) (ls : List Bytes) (blank : Bytes),
        r.evs = (linesText (line :: ls ++ [blank])).map .byte ++ rest ∧
        (10 : UInt8) ∉ line ∧ (∃ n, StatusTextOf b!"HTTP/1.0" (fun c => ThreeDigits c n ∨ SignedCode c n) line) ∧
        (∀ l ∈ ls, (10 : UInt8) ∉ l ∧ NotBlank l ∧ HasColon l) ∧ ((10 : UInt8) ∉ blank ∧ ¬ NotBlank blank) := by
  constructor
  · rintro ⟨c, h, -, hc⟩
    unfold dialHTTP at h
    split at h
    · rename_i hw
      refine ⟨hw, ?_⟩
      unfold receiveHTTP at h
      cases hl : r.readLine with
      | mk x q =>
        rw [hl] at h
        cases x with
        | error e => cases h
        | ok line =>
          obtain ⟨l, h1, h2, h3, h4⟩ := readLine_inv he hl
          subst h1
          dsimp only at h
          cases hs : statusLine b!"HTTP/1.0" (l ++ [10]) with
          | error e => rw [hs] at h; cases h
          | ok p =>
            rw [hs] at h
            dsimp only at h
            cases hh : httpHeaderLoop (q.buf.length + q.net.length + 1) q with
            | mk x r' =>
              rw [hh] at h
              cases x with
              | some e => cases h
              | none =>
                injection h with h
                subst h
                obtain ⟨ls, blank, g1, g2, g3, g4⟩ := httpHeaderLoop_inv _ _ _ h4 hh
                refine ⟨l, ls, blank, ?_, h2, ⟨p.2, (statusLine_iff_of _ (by decide) l p.2).1 ⟨p.1, hs⟩⟩, g1, g2⟩
                dsimp only at hc
                rw [h3, g3, ← hc]
                simp [linesText]
    · cases h
  · rintro ⟨hw, line, ls, blank, hr, hl, ⟨n, hok⟩, hls, hb⟩
    obtain ⟨r1, h1, h2, h3⟩ := readLine_ok (l := line) (rest := (linesText (ls ++ [blank])).map .byte ++ rest) he (by rw [hr]; simp [linesText]) hl
    obtain ⟨status, hs⟩ := (statusLine_iff_of b!"HTTP/1.0" (by decide) line n).2 hok
    have hlen : ls.length + 1 ≤ r1.buf.length + r1.net.length := by
      have := evs_size r1
      unfold Rdr.size at this
      rw [this, h3, List.length_append, List.length_map]
      have := linesText_length (ls ++ [blank])
      rw [List.length_append, List.length_singleton] at this
      omega
    obtain ⟨m, hm⟩ : ∃ m, r1.buf.length + r1.net.length + 1 = ls.length + (m + 1) := ⟨r1.buf.length + r1.net.length - ls.length, by omega⟩
    obtain ⟨r2, h', g1, g2, g3⟩ := headerLoop_lines ls (m + 1) r1 [] ((blank ++ [10]).map .byte ++ rest) h2 (by rw [h3]; simp [linesText]) hls
    obtain ⟨r3, k1, k2, k3⟩ := readLine_ok g2 g3 hb.1
    refine ⟨{ uri, guid, rdr := r3, conn := [connectHTTP b!"GET" uri guid] }, ?_, k2, k3⟩
    unfold dialHTTP receiveHTTP
    rw [if_pos hw, h1]
    dsimp only
    rw [hs]
    dsimp only
    rw [httpHeaderLoop_eq _ r1 [] h' r3]
    rw [hm, g1, headerLoop, k1]
    dsimp only
    rw [if_pos (by simpa [NotBlank] using hb.2)]

/-- An answer that meets the conditions, with its lines, and one with a header line without a colon that is refused. -/
example : StatusTextOf b!"HTTP/1.0" (fun c => ThreeDigits c 200 ∨ SignedCode c 200) b!"HTTP/1.0 200 OK\r" ∧
    (NotBlank b!"Server: x\r" ∧ HasColon b!"Server: x\r") ∧ ¬ NotBlank b!"\r" ∧
    (match dialHTTP (fun _ => true) b!"/x" b!"00ff" ⟨[], none, b!"HTTP/1.0 200 OK\r\nServer\r\n\r\n".map .byte⟩ with | .ok _ => false | .error e => decide (e = .malformed)) = true :=
  ⟨⟨b!"200 OK\r", b!"200", b!" OK", by decide, by decide, by decide, by decide, .inl ⟨50, 48, 48, rfl, by decide, by decide, by decide, by decide⟩⟩,
    ⟨by unfold NotBlank; decide, by unfold HasColon; decide⟩, by unfold NotBlank; decide, by decide +kernel⟩

end Ouro
