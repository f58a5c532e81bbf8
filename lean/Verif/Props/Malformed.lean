import Verif.Spec.Malformed
import Verif.Props.Message
/-! # C73: malformed responses -/
namespace Ouro
open Spec

theorem atoi3_general (x y z : UInt8) (n : Int) : (atoi [x, y, z] = (n, none) ∧ 0 ≤ n) ↔ ThreeDigits [x, y, z] n ∨ SignedCode [x, y, z] n := by
  have hdig : ∀ c : UInt8, isDigit c = true → 48 ≤ c.toNat ∧ c.toNat ≤ 57 := by
    intro c h
    unfold isDigit at h
    simp only [Bool.and_eq_true, decide_eq_true_eq, UInt8.le_iff_toNat_le] at h
    exact h
  have hd : ∀ c : UInt8, isDigit c = true → c.toNat - 48 < 10 := fun c h => by have := hdig c h; omega
  have h43 : isDigit 43 = false := by decide
  have h45 : isDigit 45 = false := by decide
  have hz0 : ∀ c : UInt8, isDigit c = true → c.toNat - 48 = 0 → c = 48 := fun c h h0 => UInt8.toNat_inj.1 (by have := hdig c h; show c.toNat = 48; omega)
  have scan2 : ∀ a b : UInt8, scanUint 0 [a, b] = if isDigit a = true ∧ isDigit b = true then .ok ((a.toNat - 48) * 10 + (b.toNat - 48)) else .error .syntax := by
    intro a b
    unfold scanUint
    by_cases ha : isDigit a = true
    · rw [if_pos ha, if_pos (by have := hd a ha; omega)]
      unfold scanUint
      by_cases hb : isDigit b = true
      · rw [if_pos hb, if_pos (by have := hd a ha; have := hd b hb; omega), if_pos ⟨ha, hb⟩]
        unfold scanUint
        simp
      · rw [if_neg hb, if_neg (fun h => hb h.2)]
    · rw [if_neg ha, if_neg (fun h => ha h.1)]
  have scan3 : ∀ a b c : UInt8, scanUint 0 [a, b, c] = if isDigit a = true ∧ isDigit b = true ∧ isDigit c = true then
      .ok ((a.toNat - 48) * 100 + (b.toNat - 48) * 10 + (c.toNat - 48)) else .error .syntax := by
    intro a b c
    unfold scanUint
    by_cases ha : isDigit a = true
    · rw [if_pos ha, if_pos (by have := hd a ha; omega)]
      unfold scanUint
      by_cases hb : isDigit b = true
      · rw [if_pos hb, if_pos (by have := hd a ha; have := hd b hb; omega)]
        unfold scanUint
        by_cases hc : isDigit c = true
        · rw [if_pos hc, if_pos (by have := hd a ha; have := hd b hb; have := hd c hc; omega), if_pos ⟨ha, hb, hc⟩]
          unfold scanUint
          congr 1
          omega
        · rw [if_neg hc, if_neg (fun h => hc h.2.2)]
      · rw [if_neg hb, if_neg (fun h => hb h.2.1)]
    · rw [if_neg ha, if_neg (fun h => ha h.1)]
  rw [atoi]
  by_cases hp : x = 43
  · subst hp
    rw [if_pos rfl]
    unfold atoiParts
    rw [if_neg (by simp), scan2]
    constructor
    · intro ⟨h, h0⟩
      split at h
      · injection h with h _; cases h; contradiction
      · injection h with h1 h2; cases h2
      · rename_i k hk
        split at hk
        · rename_i hyz
          injection hk with hk
          have b1 := hd y hyz.1
          have b2 := hd z hyz.2
          rw [if_neg (by decide), if_neg (by omega)] at h
          injection h with h _
          right; left
          exact ⟨y, z, rfl, hyz.1, hyz.2, by omega⟩
        · cases hk
    · intro h
      rcases h with ⟨a, b, c, h, ha, _⟩ | ⟨a, b, h, ha, hb, hn⟩ | ⟨h, _⟩
      · injection h with h _; rw [← h, h43] at ha; cases ha
      · injection h with _ h; injection h with h1 h; injection h with h2 _
        subst h1; subst h2
        have b1 := hd y ha
        have b2 := hd z hb
        rw [if_pos ⟨ha, hb⟩]
        dsimp only
        rw [if_neg (by decide), if_neg (by omega)]
        exact ⟨by rw [hn]; simp, by omega⟩
      · injection h with h _; exact absurd h (by decide)
  · rw [if_neg hp]
    by_cases hm : x = 45
    · subst hm
      rw [if_pos rfl]
      unfold atoiParts
      rw [if_neg (by simp), scan2]
      constructor
      · intro ⟨h, h0⟩
        split at h
        · injection h with h1 h2; cases h2
        · injection h with h1 h2; cases h2
        · rename_i k hk
          split at hk
          · rename_i hyz
            injection hk with hk
            have b1 := hd y hyz.1
            have b2 := hd z hyz.2
            rw [if_pos rfl, if_neg (by omega)] at h
            injection h with h _
            right; right
            have e1 := hz0 y hyz.1 (by omega)
            have e2 := hz0 z hyz.2 (by omega)
            rw [e1, e2]
            exact ⟨rfl, by omega⟩
          · cases hk
      · intro h
        rcases h with ⟨a, b, c, h, ha, _⟩ | ⟨a, b, h, _⟩ | ⟨h, hn⟩
        · injection h with h _; rw [← h, h45] at ha; cases ha
        · injection h with h _; exact absurd h (by decide)
        · injection h with _ h; injection h with h1 h; injection h with h2 _
          subst h1; subst h2; subst hn
          exact ⟨by decide, by decide⟩
    · rw [if_neg hm]
      unfold atoiParts
      rw [if_neg (by simp), scan3]
      constructor
      · intro ⟨h, h0⟩
        split at h
        · injection h with h1 h2; cases h2
        · injection h with h1 h2; cases h2
        · rename_i k hk
          split at hk
          · rename_i hyz
            injection hk with hk
            have b0 := hd x hyz.1
            have b1 := hd y hyz.2.1
            have b2 := hd z hyz.2.2
            rw [if_neg (by decide), if_neg (by omega)] at h
            injection h with h _
            left
            exact ⟨x, y, z, rfl, hyz.1, hyz.2.1, hyz.2.2, by omega⟩
          · cases hk
      · intro h
        rcases h with ⟨a, b, c, h, ha, hb, hc, hn⟩ | ⟨a, b, h, _⟩ | ⟨h, hn⟩
        · injection h with h1 h; injection h with h2 h; injection h with h3 _
          subst h1; subst h2; subst h3
          have b0 := hd x ha
          have b1 := hd y hb
          have b2 := hd z hc
          rw [if_pos ⟨ha, hb, hc⟩]
          dsimp only
          rw [if_neg (by decide), if_neg (by omega)]
          exact ⟨by rw [hn]; simp, by omega⟩
        · injection h with h _; exact absurd h hp
        · injection h with h _; exact absurd h hm

/-- The first word. -/
def firstWord (s : Bytes) : Bytes :=
  match cut 32 s with
  | some (c, _) => c
  | none => s

theorem statusLine_eq (proto line : Bytes) : statusLine proto line =
    match cut 32 line with
    | none => .error .malformed
    | some (p, rest) =>
      if p ≠ proto then .error .notSupported
      else if (firstWord (trimSpace rest)).length ≠ 3 then .error .invalidStatus
      else match atoi (firstWord (trimSpace rest)) with
        | (n, none) => if n < 0 then .error .invalidStatus else .ok (trimSpace rest, n)
        | (_, some _) => .error .invalidStatus := rfl

theorem first_word (s word : Bytes) : firstWord s = word ↔
    ∃ tail, s = word ++ tail ∧ (32 : UInt8) ∉ word ∧ (tail = [] ∨ tail.head? = some 32) := by
  unfold firstWord
  cases h : cut 32 s with
  | none =>
    have := cut_none.1 h
    constructor
    · rintro rfl; exact ⟨[], by simp, this, .inl rfl⟩
    · rintro ⟨tail, rfl, hw, ht⟩
      rcases ht with rfl | ht
      · simp
      · exact absurd (List.mem_append_right _ (List.mem_of_mem_head? (by rw [ht]; rfl))) this
  | some p =>
    obtain ⟨a, b⟩ := p
    obtain ⟨rfl, ha⟩ := cut_some h
    constructor
    · rintro rfl; exact ⟨32 :: b, rfl, ha, .inr rfl⟩
    · rintro ⟨tail, ht, hw, hh⟩
      rcases hh with rfl | hh
      · rw [List.append_nil] at ht
        exact absurd (by rw [← ht]; simp) hw
      · cases tail with
        | nil => cases hh
        | cons c tail =>
          have : c = 32 := by simpa using hh
          subst this
          have := cut_append tail hw
          rw [← ht, h] at this
          injection this with this
          injection this

/-- The status line is accepted exactly if it has the form above, with three digits or a sign and two. -/
theorem statusLine_iff_of (proto : Bytes) (hproto : (32 : UInt8) ∉ proto) (line : Bytes) (n : Int) : (∃ status, statusLine proto (line ++ [10]) = .ok (status, n)) ↔
    StatusTextOf proto (fun c => ThreeDigits c n ∨ SignedCode c n) line := by
  rw [statusLine_eq]
  unfold StatusTextOf
  cases hc : cut 32 (line ++ [10]) with
  | none =>
    constructor
    · rintro ⟨_, h⟩; cases h
    · rintro ⟨rest, _, _, h, _⟩
      exact absurd (by rw [h]; simp) (cut_none.1 hc)
  | some p =>
    obtain ⟨a, b⟩ := p
    obtain ⟨e, ha⟩ := cut_some hc
    dsimp only
    by_cases hp : a = proto
    · rw [if_neg (by simpa using hp)]
      -- the rest of the line
      obtain ⟨rest, hrest⟩ : ∃ rest, b = rest ++ [10] := by
        rcases List.eq_nil_or_concat b with rfl | ⟨l, z, rfl⟩
        · have := congrArg (fun l => l.getLast?) e
          simp at this
        · have e : line ++ [10] = (a ++ 32 :: l) ++ [z] := by rw [e]; simp
          have := (List.append_inj' e rfl).2
          injection this with this _
          exact ⟨l, by rw [this]; simp⟩
      have hline : line = proto ++ b!" " ++ rest := by
        rw [hrest, hp] at e
        have e : line ++ [10] = (proto ++ b!" " ++ rest) ++ [10] := by rw [e]; simp
        exact List.append_cancel_right e
      generalize hw : firstWord (trimSpace b) = word
      obtain ⟨tail, w1, w2, w3⟩ := (first_word _ _).1 hw
      constructor
      · rintro ⟨status, h⟩
        refine ⟨rest, word, tail, hline, by rw [← hrest]; exact w1, w2, w3, ?_⟩
        split at h
        · cases h
        · rename_i h3
          match word, h3 with
          | [x, y, z], _ =>
            refine (atoi3_general x y z n).1 ?_
            split at h
            · rename_i m hm
              split at h
              · cases h
              · injection h with h; injection h with _ h; subst h
                exact ⟨hm, by omega⟩
            · cases h
          | [], h3 => exact absurd (by simp) h3
          | [_], h3 => exact absurd (by simp) h3
          | [_, _], h3 => exact absurd (by simp) h3
          | _ :: _ :: _ :: _ :: _, h3 => exact absurd (by simp) h3
      · rintro ⟨rest', word', tail', h1, h2, h3, h4, h5⟩
        have hr : rest' = rest := by rw [hline] at h1; exact (List.append_cancel_left h1).symm
        subst hr
        have hword : word' = word := by
          rw [← hw]
          exact ((first_word _ _).2 ⟨tail', by rw [hrest]; exact h2, h3, h4⟩).symm
        subst hword
        obtain ⟨x, y, z, hx⟩ : ∃ x y z, word' = [x, y, z] := by
          rcases h5 with ⟨x, y, z, h, _⟩ | ⟨y, z, h, _⟩ | ⟨h, _⟩
          · exact ⟨x, y, z, h⟩
          · exact ⟨43, y, z, h⟩
          · exact ⟨45, 48, 48, h⟩
        subst hx
        obtain ⟨g1, g2⟩ := (atoi3_general x y z n).2 h5
        refine ⟨trimSpace b, ?_⟩
        rw [if_neg (by simp), g1]
        dsimp only
        rw [if_neg (by omega)]
    · rw [if_pos hp]
      constructor
      · rintro ⟨_, h⟩; cases h
      · rintro ⟨rest, _, _, h, _⟩
        rw [h] at hc
        have : cut 32 (proto ++ b!" " ++ rest ++ [10]) = some (proto, rest ++ [10]) := by
          rw [show proto ++ b!" " ++ rest ++ [10] = proto ++ 32 :: (rest ++ [10]) by simp]
          exact cut_append _ hproto
        rw [this] at hc
        injection hc with hc
        injection hc with hc _
        exact absurd hc.symm hp

theorem statusLine_iff (line : Bytes) (n : Int) : (∃ status, statusLine b!"RTSP/1.0" (line ++ [10]) = .ok (status, n)) ↔
    StatusText (fun c => ThreeDigits c n ∨ SignedCode c n) line := statusLine_iff_of _ (by decide) line n

theorem headerLoop_lines (ls : List Bytes) : ∀ (n : Nat) (r : Rdr) (h : Header) (rest : List Ev), r.err = none → r.evs = (linesText ls).map .byte ++ rest →
    (∀ l ∈ ls, (10 : UInt8) ∉ l ∧ NotBlank l ∧ HasColon l) → ∃ r' h', headerLoop (ls.length + n) r h = headerLoop n r' h' ∧ r'.err = none ∧ r'.evs = rest := by
  induction ls with
  | nil => intro n r h rest he hr _; exact ⟨r, h, by rw [List.length_nil, Nat.zero_add], he, by rw [hr]; rfl⟩
  | cons l ls ih =>
    intro n r h rest he hr hls
    obtain ⟨h10, hb, hc⟩ := hls l (by simp)
    obtain ⟨r1, h1, h2, h3⟩ := readLine_ok (l := l) (rest := (linesText ls).map .byte ++ rest) he (by rw [hr]; simp [linesText]) h10
    obtain ⟨k, v, hkv⟩ : ∃ k v, splitN2 58 (trimSpace (l ++ [10])) = [k, v] := by
      unfold splitN2
      cases hcut : cut 58 (trimSpace (l ++ [10])) with
      | none => exact absurd hc (cut_none.1 hcut)
      | some p => exact ⟨p.1, p.2, rfl⟩
    obtain ⟨r2, h', g1, g2, g3⟩ := ih n r1 (h.set (trimSpace k) (trimSpace v)) rest h2 h3 (fun x hx => hls x (by simp [hx]))
    refine ⟨r2, h', ?_, g2, g3⟩
    rw [List.length_cons, show ls.length + 1 + n = ls.length + n + 1 by omega, headerLoop, h1]
    dsimp only
    rw [if_neg hb, hkv]
    exact g1

theorem evs_size (r : Rdr) : r.size = r.evs.length := by
  unfold Rdr.size Rdr.evs
  simp

theorem linesText_length (ls : List Bytes) : ls.length ≤ (linesText ls).length := by
  induction ls with
  | nil => simp
  | cons l ls ih => unfold linesText at *; simp only [List.flatMap_cons, List.length_append, List.length_cons, List.length_nil]; omega

/-- C73: a response whose status line is not the version, a space and a code of three characters that are a number is refused, whatever follows; only that line
is read. The codes that are accepted are three digits, or a sign and two digits of a number that is not negative (see `C73_sign_refuted`). -/
theorem C73_status_partial (r : Rdr) (line : Bytes) (rest : List Ev) (he : r.err = none) (hr : r.evs = (line ++ [10]).map .byte ++ rest) (hl : (10 : UInt8) ∉ line)
    (hbad : ¬ ∃ n, StatusText (fun c => ThreeDigits c n ∨ SignedCode c n) line) :
    ∃ e r', unpackRsp r = (.error e, r') ∧ (∀ x, e ≠ .io x) ∧ r'.err = none ∧ r'.evs = rest := by
  obtain ⟨r1, h1, h2, h3⟩ := readLine_ok he hr hl
  unfold unpackRsp
  rw [h1]
  dsimp only
  cases hs : statusLine b!"RTSP/1.0" (line ++ [10]) with
  | ok p => exact absurd ⟨p.2, (statusLine_iff line p.2).1 ⟨p.1, hs⟩⟩ hbad
  | error e =>
    refine ⟨e, r1, rfl, ?_, h2, h3⟩
    rw [statusLine_eq] at hs
    intro x hx
    subst hx
    repeat' (split at hs)
    all_goals cases hs

/-- C73: a response with a header line that has no colon is refused; nothing after that line is read. -/
theorem C73_header (r : Rdr) (line : Bytes) (ls : List Bytes) (bad : Bytes) (rest : List Ev) (he : r.err = none)
    (hr : r.evs = (linesText (line :: ls ++ [bad])).map .byte ++ rest) (hl : (10 : UInt8) ∉ line) (n : Int) (hok : StatusText (fun c => ThreeDigits c n ∨ SignedCode c n) line)
    (hls : ∀ l ∈ ls, (10 : UInt8) ∉ l ∧ NotBlank l ∧ HasColon l) (hb : (10 : UInt8) ∉ bad ∧ NotBlank bad ∧ ¬ HasColon bad) :
    ∃ r', unpackRsp r = (.error .malformed, r') ∧ r'.err = none ∧ r'.evs = rest := by
  obtain ⟨r1, h1, h2, h3⟩ := readLine_ok (l := line) (rest := (linesText (ls ++ [bad])).map .byte ++ rest) he (by rw [hr]; simp [linesText]) hl
  obtain ⟨status, hs⟩ := (statusLine_iff line n).2 hok
  have hlen : ls.length + 1 ≤ r1.buf.length + r1.net.length := by
    have := evs_size r1
    unfold Rdr.size at this
    rw [this, h3, List.length_append, List.length_map]
    have := linesText_length (ls ++ [bad])
    rw [List.length_append, List.length_singleton] at this
    omega
  obtain ⟨m, hm⟩ : ∃ m, r1.buf.length + r1.net.length + 1 = ls.length + (m + 1) := ⟨r1.buf.length + r1.net.length - ls.length, by omega⟩
  obtain ⟨r2, h', g1, g2, g3⟩ := headerLoop_lines ls (m + 1) r1 [] ((bad ++ [10]).map .byte ++ rest) h2 (by rw [h3]; simp [linesText]) hls
  obtain ⟨r3, k1, k2, k3⟩ := readLine_ok g2 g3 hb.1
  refine ⟨r3, ?_, k2, k3⟩
  unfold unpackRsp
  rw [h1]
  dsimp only
  rw [hs]
  dsimp only
  rw [hm, g1, headerLoop, k1]
  dsimp only
  rw [if_neg hb.2.1, splitN2_none hb.2.2]

/-- C73, the other direction: any other response is accepted with its code, unless it announces a body that cannot be read from what follows (bodies are in C50). -/
theorem C73_accepted (r : Rdr) (line : Bytes) (ls : List Bytes) (blank : Bytes) (rest : List Ev) (he : r.err = none)
    (hr : r.evs = (linesText (line :: ls ++ [blank])).map .byte ++ rest) (hl : (10 : UInt8) ∉ line) (n : Int) (hok : StatusText (fun c => ThreeDigits c n ∨ SignedCode c n) line)
    (hls : ∀ l ∈ ls, (10 : UInt8) ∉ l ∧ NotBlank l ∧ HasColon l) (hb : (10 : UInt8) ∉ blank ∧ ¬ NotBlank blank) :
    (∃ (r2 r' : Rdr) (k : Nat) (e : IOErr), 0 < k ∧ r2.evs = rest ∧ r2.readBytes k = (.error e, r') ∧ unpackRsp r = (.error (.io e), r')) ∨ ∃ rsp r', unpackRsp r = (.ok rsp, r') ∧ rsp.statusCode = n ∧ (rsp.contentLength ≤ 0 → r'.err = none ∧ r'.evs = rest) := by
  obtain ⟨r1, h1, h2, h3⟩ := readLine_ok (l := line) (rest := (linesText (ls ++ [blank])).map .byte ++ rest) he (by rw [hr]; simp [linesText]) hl
  obtain ⟨status, hs⟩ := (statusLine_iff line n).2 hok
  have hlen : ls.length + 1 ≤ r1.buf.length + r1.net.length := by
    have := evs_size r1
    unfold Rdr.size at this
    rw [this, h3, List.length_append, List.length_map]
    have := linesText_length (ls ++ [blank])
    rw [List.length_append, List.length_singleton] at this
    omega
  obtain ⟨m, hm⟩ : ∃ m, r1.buf.length + r1.net.length + 1 = ls.length + (m + 1) := ⟨r1.buf.length + r1.net.length - ls.length, by omega⟩
  obtain ⟨r2, h', g1, g2, g3⟩ := headerLoop_lines ls (m + 1) r1 [] ((blank ++ [10]).map .byte ++ rest) h2 (by rw [h3]; simp [linesText]) hls
  obtain ⟨r3, k1, k2, k3⟩ := readLine_ok g2 g3 hb.1
  unfold unpackRsp
  rw [h1]
  dsimp only
  rw [hs]
  dsimp only
  rw [hm, g1, headerLoop, k1]
  dsimp only
  rw [if_pos (by simpa [NotBlank] using hb.2)]
  dsimp only
  split
  · rename_i hpos
    cases hbody : r3.readBytes (contentLen (h'.get b!"Content-Length")).toNat with
    | mk x r4 =>
      cases x with
      | error e => left; exact ⟨r3, r4, (contentLen (h'.get b!"Content-Length")).toNat, e, by omega, k3, hbody, rfl⟩
      | ok b => right; exact ⟨_, r4, rfl, rfl, fun h => absurd hpos (by dsimp only at h; omega)⟩
  · right; exact ⟨_, r3, rfl, rfl, fun _ => ⟨k2, k3⟩⟩

/-- C73 fails for codes with a sign: `+20` is taken for the code 20, `-00` for 0. -/
theorem C73_sign_refuted : ∃ a b ra rb, unpackRsp ⟨b!"RTSP/1.0 +20 OK\r\n\r\n", none, []⟩ = (.ok a, ra) ∧ a.statusCode = 20 ∧
    unpackRsp ⟨b!"RTSP/1.0 -00 OK\r\n\r\n", none, []⟩ = (.ok b, rb) ∧ b.statusCode = 0 ∧ (∀ n, ¬ ThreeDigits b!"+20" n) ∧ ∀ n, ¬ ThreeDigits b!"-00" n := by
  refine ⟨_, _, _, _, rfl, by decide, rfl, by decide, ?_, ?_⟩
  · rintro n ⟨x, y, z, h, hx, _⟩
    injection h with h _
    rw [← h] at hx
    exact absurd hx (by decide)
  · rintro n ⟨x, y, z, h, hx, _⟩
    injection h with h _
    rw [← h] at hx
    exact absurd hx (by decide)

/-- A status line that is accepted, one that is not, good header lines, a bad one and a blank one. -/
example : StatusText (fun c => ThreeDigits c 404 ∨ SignedCode c 404) b!"RTSP/1.0 404 Not Found\r" ∧ (¬ ∃ n, StatusText (fun c => ThreeDigits c n ∨ SignedCode c n) b!"RTSP/1.0 4040 Not Found\r") ∧
    (NotBlank b!"CSeq: 1\r" ∧ HasColon b!"CSeq: 1\r") ∧ (NotBlank b!"CSeq 1\r" ∧ ¬ HasColon b!"CSeq 1\r") ∧ ¬ NotBlank b!" \r" := by
  refine ⟨⟨b!"404 Not Found\r", b!"404", b!" Not Found", by decide, by decide, by decide, by decide, .inl ⟨52, 48, 52, rfl, by decide, by decide, by decide, by decide⟩⟩, ?_,
    ⟨by unfold NotBlank; decide, by unfold HasColon; decide⟩, ⟨by unfold NotBlank; decide, by unfold HasColon; decide⟩, by unfold NotBlank; decide⟩
  rintro ⟨n, h⟩
  obtain ⟨s, hs⟩ := (statusLine_iff _ n).2 h
  rw [show statusLine b!"RTSP/1.0" (b!"RTSP/1.0 4040 Not Found\r" ++ [10]) = .error .invalidStatus from rfl] at hs
  cases hs

end Ouro
