import Verif.Spec.Output
import Verif.Spec.Log
import Verif.Lemmas.LineFeed
import Verif.Lemmas.Log
import Verif.Lemmas.ClientRun
/-! # What the lines of the output say about NAL units -/
namespace Ouro
open Spec

/-! ## Lines -/

theorem textLines_ne : ∀ s : Bytes, textLines s ≠ [] := by
  intro s
  cases s with
  | nil => simp [textLines]
  | cons c t =>
    rw [textLines]
    split
    · simp
    · split <;> simp

theorem textLines_line {a : Bytes} (b : Bytes) (h : (10 : UInt8) ∉ a) : textLines (a ++ 10 :: b) = a :: textLines b := by
  induction a with
  | nil => rw [List.nil_append, textLines, if_pos rfl]
  | cons c a ih =>
    rw [List.cons_append, textLines, if_neg (fun e => h (by simp [e])), ih (fun hm => h (by simp [hm]))]

theorem textLines_last {a : Bytes} (h : (10 : UInt8) ∉ a) : textLines a = [a] := by
  induction a with
  | nil => rfl
  | cons c a ih => rw [textLines, if_neg (fun e => h (by simp [e])), ih (fun hm => h (by simp [hm]))]

theorem textLines_append (a b : Bytes) : textLines (a ++ 10 :: b) = textLines a ++ textLines b := by
  induction a with
  | nil => exact textLines_line b List.not_mem_nil
  | cons c a ih =>
    rw [List.cons_append, textLines, textLines]
    split
    · rw [ih]; rfl
    · rw [ih]
      cases hl : textLines a with
      | nil => exact absurd hl (textLines_ne a)
      | cons l ls => rfl

theorem shown_append (a b : Bytes) : unitsShown (a ++ 10 :: b) = unitsShown a ++ unitsShown b := by
  unfold unitsShown; rw [textLines_append, List.filterMap_append]

theorem shown_line {a : Bytes} (h : (10 : UInt8) ∉ a) : unitsShown a = (unitLine a).toList := by
  unfold unitsShown
  rw [textLines_last h]
  cases hu : unitLine a <;> simp [hu]

theorem shown_nil : unitsShown [] = [] := by decide

/-- The shape of a date and time. -/
theorem stamp_shape {s : Bytes} (h : isStamp s = true) : s.length = 20 ∧ (10 : UInt8) ∉ s ∧ ∃ a d x, s = a ++ 58 :: d :: x ∧ (58 : UInt8) ∉ a ∧ d ≠ 32 := by
  unfold isStamp at h
  rw [Bool.and_eq_true, beq_iff_eq] at h
  obtain ⟨hl, h⟩ := h
  match s, hl, h with
  | [c0, c1, c2, c3, c4, c5, c6, c7, c8, c9, c10, c11, c12, c13, c14, c15, c16, c17, c18, c19], _, h =>
    have hd : ∀ c : UInt8, (48 ≤ c && c ≤ 57) = true → c ≠ 58 ∧ c ≠ 10 ∧ c ≠ 32 := forall_u8 (by decide +kernel)
    have hd1 : ∀ {c : UInt8}, (48 ≤ c && c ≤ 57) = true → (58 : UInt8) ≠ c := fun h => (hd _ h).1.symm
    have hd2 : ∀ {c : UInt8}, (48 ≤ c && c ≤ 57) = true → (10 : UInt8) ≠ c := fun h => (hd _ h).2.1.symm
    have dg : ∀ {c : UInt8}, (if (48 : UInt8) = 48 then (48 ≤ c && c ≤ 57) else c == 48) = true → (48 ≤ c && c ≤ 57) = true := fun h => by rwa [if_pos rfl] at h
    have eq : ∀ {c p : UInt8}, p ≠ 48 → (if p = 48 then (48 ≤ c && c ≤ 57) else c == p) = true → c = p := fun hp h => by rw [if_neg hp] at h; exact beq_iff_eq.1 h
    simp only [List.zip_cons_cons, List.zip_nil_left, List.all_cons, List.all_nil, Bool.and_true] at h
    simp only [Bool.and_eq_true (a := ite _ _ _)] at h
    obtain ⟨h0, h1, h2, h3, h4, h5, h6, h7, h8, h9, h10, h11, h12, h13, h14, h15, h16, h17, h18, h19⟩ := h
    have h4 := eq (by decide) h4
    have h7 := eq (by decide) h7
    have h10 := eq (by decide) h10
    have h13 := eq (by decide) h13
    have h16 := eq (by decide) h16
    have h19 := eq (by decide) h19
    subst h4 h7 h10 h13 h16 h19
    refine ⟨rfl, ?_, [c0, c1, c2, c3, 47, c5, c6, 47, c8, c9, 32, c11, c12], c14, [c15, 58, c17, c18, 32], rfl, ?_, (hd _ (dg h14)).2.2⟩
    · simp only [List.mem_cons, List.not_mem_nil, or_false, not_or]
      exact ⟨hd2 (dg h0), hd2 (dg h1), hd2 (dg h2), hd2 (dg h3), by decide, hd2 (dg h5), hd2 (dg h6), by decide, hd2 (dg h8), hd2 (dg h9), by decide,
        hd2 (dg h11), hd2 (dg h12), by decide, hd2 (dg h14), hd2 (dg h15), by decide, hd2 (dg h17), hd2 (dg h18), by decide⟩
    · simp only [List.mem_cons, List.not_mem_nil, or_false, not_or]
      exact ⟨hd1 (dg h0), hd1 (dg h1), hd1 (dg h2), hd1 (dg h3), by decide, hd1 (dg h5), hd1 (dg h6), by decide, hd1 (dg h8), hd1 (dg h9), by decide,
        hd1 (dg h11), hd1 (dg h12)⟩

theorem colon_unique {a b x y : Bytes} (ha : (58 : UInt8) ∉ a) (hb : (58 : UInt8) ∉ b) (h : a ++ 58 :: x = b ++ 58 :: y) : x = y := by
  induction a generalizing b with
  | nil =>
    cases b with
    | nil => simpa using h
    | cons c b => simp only [List.nil_append, List.cons_append, List.cons.injEq] at h; exact absurd h.1 (fun e => hb (by simp [← e]))
  | cons c a ih =>
    cases b with
    | nil => simp only [List.nil_append, List.cons_append, List.cons.injEq] at h; exact absurd h.1.symm (fun e => ha (by simp [← e]))
    | cons d b =>
      simp only [List.cons_append, List.cons.injEq] at h
      exact ih (fun hm => ha (by simp [hm])) (fun hm => hb (by simp [hm])) h.2

/-- A header line is not a line about a unit: after its first colon there is a space, and after that of a date and time there is not. -/
theorem unitLine_header {k v : Bytes} (hk : (58 : UInt8) ∉ k) : unitLine (k ++ 58 :: 32 :: v) = none := by
  unfold unitLine
  rw [if_neg]
  intro h
  rw [Bool.and_eq_true] at h
  obtain ⟨-, -, a, d, x, e, ha, hd⟩ := stamp_shape h.1
  have := List.take_append_drop 20 (k ++ 58 :: 32 :: v)
  rw [e, List.append_assoc] at this
  have := colon_unique ha hk (by simpa using this)
  simp only [List.cons_append, List.cons.injEq] at this
  exact hd this.1

theorem unitLine_stamp {s t : Bytes} (hs : isStamp s = true) : unitLine (s ++ t) = if b!"NAL ".isPrefixOf t then some t else none := by
  have hl := (stamp_shape hs).1
  unfold unitLine
  rw [List.take_left' hl, List.drop_left' hl, hs, Bool.true_and]

theorem shown_header {k v : Bytes} (hk : (58 : UInt8) ∉ k) (hk' : (10 : UInt8) ∉ k) (hv : (10 : UInt8) ∉ v) (rest : Bytes) :
    unitsShown (headerLine k v ++ rest) = unitsShown rest := by
  have e : headerLine k v ++ rest = (k ++ 58 :: 32 :: (v ++ [13])) ++ 10 :: rest := by simp [headerLine, colsp, crnl]
  rw [e, shown_append, shown_line, unitLine_header hk]
  · rfl
  · intro hm
    simp only [List.mem_append, List.mem_cons, List.not_mem_nil, or_false] at hm
    rcases hm with hm | hm | hm | hm | hm
    · exact hk' hm
    · cases hm
    · cases hm
    · exact hv hm
    · cases hm

theorem shown_headers {l : List (Bytes × Bytes)} (h : ∀ e ∈ l, (58 : UInt8) ∉ e.1 ∧ (10 : UInt8) ∉ e.1 ∧ (10 : UInt8) ∉ e.2) (rest : Bytes) :
    unitsShown (l.flatMap (fun e => headerLine e.1 e.2) ++ rest) = unitsShown rest := by
  induction l with
  | nil => rfl
  | cons e l ih =>
    obtain ⟨h1, h2, h3⟩ := h e (by simp)
    rw [List.flatMap_cons, List.append_assoc, shown_header h1 h2 h3, ih (fun x hx => h x (List.mem_cons_of_mem _ hx))]

/-- A line with the date and time that does not begin with `NAL `. -/
theorem shown_other {s t : Bytes} (hs : isStamp s = true) (ht : (10 : UInt8) ∉ t) (hn : b!"NAL ".isPrefixOf t = false) (rest : Bytes) :
    unitsShown (s ++ t ++ 10 :: rest) = unitsShown rest := by
  have : (10 : UInt8) ∉ s ++ t := by
    intro hm
    rcases List.mem_append.1 hm with hm | hm
    · exact (stamp_shape hs).2.1 hm
    · exact ht hm
  rw [shown_append, shown_line this, unitLine_stamp hs, hn]
  rfl

theorem shown_unit {s t : Bytes} (hs : isStamp s = true) (ht : (10 : UInt8) ∉ t) (hn : b!"NAL ".isPrefixOf t = true) : unitsShown (s ++ t ++ [10]) = [t] := by
  have : (10 : UInt8) ∉ s ++ t := by
    intro hm
    rcases List.mem_append.1 hm with hm | hm
    · exact (stamp_shape hs).2.1 hm
    · exact ht hm
  rw [shown_append, shown_line this, unitLine_stamp hs, hn, shown_nil]
  rfl

/-! ## Entries -/

/-- What an entry says, whenever it is made. -/
def Says (e : LogEntry) (x : List Bytes) : Prop :=
  ∀ lw, Sane lw → ∀ older, (older = [] ∨ ∃ o, printed lw older = o ++ [10]) → unitsShown (printed lw (e :: older)) = unitsShown (printed lw older) ++ x ∧
    ∃ o, printed lw (e :: older) = o ++ [10]

theorem shown_after {a : Bytes} (h : a = [] ∨ ∃ o, a = o ++ [10]) (b : Bytes) : unitsShown (a ++ b) = unitsShown a ++ unitsShown b := by
  rcases h with rfl | ⟨o, rfl⟩
  · rfl
  · rw [shown_append, shown_nil, List.append_nil, List.append_assoc, List.singleton_append, shown_append]

theorem says_text {msg : Bytes} {x : List Bytes} (h : ∀ s, isStamp s = true → unitsShown (s ++ (msg ++ [10])) = x) : Says (.text (msg ++ [10])) x := by
  intro lw hl older ho
  have ho : printed lw older = [] ∨ ∃ o, printed lw older = o ++ [10] := ho.imp (fun e => by rw [e]; rfl) id
  rw [printed, logOutput, if_pos (by simp), List.append_nil, shown_after ho, h _ (hl.stamp _)]
  exact ⟨rfl, printed lw older ++ lw.stamp older.length ++ msg, by simp⟩

theorem says_other {t : Bytes} (ht : (10 : UInt8) ∉ t) (hn : b!"NAL ".isPrefixOf t = false) : Says (.text (t ++ [10])) [] :=
  says_text fun s hs => by rw [← List.append_assoc, shown_other hs ht hn, shown_nil]

theorem says_error : Says .error [] := by
  intro lw hl older ho
  have ho : printed lw older = [] ∨ ∃ o, printed lw older = o ++ [10] := ho.imp (fun e => by rw [e]; rfl) id
  rw [printed, logOutput, if_pos (by simp), List.append_nil, shown_after ho, ← List.append_assoc, shown_other (hl.stamp _) (hl.line _), shown_nil]
  · exact ⟨rfl, printed lw older ++ lw.stamp older.length ++ lw.text older.length, by simp⟩
  · rw [Bool.eq_false_iff]
    exact fun h => hl.other _ (List.isPrefixOf_iff_prefix.1 h)

theorem digits_noLF (n : Nat) : (10 : UInt8) ∉ natDigits n := fun hm => absurd (natDigits_digit n _ hm) (by decide)

theorem says_request {q : Request} (hq : LF.CleanReq q) {order : Header} (ho : order.Perm q.header) : Says (println (q.pack order)) [] := by
  refine says_text fun s hs => ?_
  have hl : ∀ e ∈ packLines q order, (58 : UInt8) ∉ e.1 ∧ (10 : UInt8) ∉ e.1 ∧ (10 : UInt8) ∉ e.2 := by
    intro e he
    unfold packLines at he
    simp only [List.mem_append] at he
    rcases he with (((he | he) | he) | he) | he
    · rw [List.mem_singleton] at he; subst he; exact ⟨show (58 : UInt8) ∉ b!"CSeq" by decide, show (10 : UInt8) ∉ b!"CSeq" by decide, LF.itoa_noLF _⟩
    · exact hq.header e (ho.mem_iff.1 he)
    · split at he
      · rw [List.mem_singleton] at he; subst he; exact ⟨show (58 : UInt8) ∉ b!"Session" by decide, show (10 : UInt8) ∉ b!"Session" by decide, hq.session⟩
      · cases he
    · split at he
      · rw [List.mem_singleton] at he; subst he; exact ⟨show (58 : UInt8) ∉ b!"Authorization" by decide, show (10 : UInt8) ∉ b!"Authorization" by decide, hq.auth⟩
      · cases he
    · simp only [List.mem_cons, List.not_mem_nil, or_false] at he
      rcases he with rfl | rfl <;> decide
  have e : s ++ (q.pack order ++ [10]) = s ++ (q.verb ++ b!" " ++ q.uri ++ b!" RTSP/1.0" ++ [13]) ++ 10 :: ((packLines q order).flatMap (fun e => headerLine e.1 e.2) ++ [13, 10, 10]) := by
    rw [pack_lines]; simp
  rw [e, shown_other hs, shown_headers hl]
  · decide
  · exact LF.app_noLF (LF.app_noLF (LF.app_noLF (LF.app_noLF hq.verb.1 (by decide)) hq.uri) (by decide)) (by decide)
  · obtain ⟨-, h1, h2⟩ := hq.verb
    cases hv : q.verb with
    | nil => exact absurd hv h1
    | cons c v =>
      rw [hv] at h2
      rw [Bool.eq_false_iff]
      intro h
      have := List.isPrefixOf_iff_prefix.1 h
      simp only [List.cons_append] at this
      obtain ⟨z, hz⟩ := this
      simp only [List.cons_append, List.cons.injEq] at hz
      exact h2 (by simp [← hz.1])

theorem says_response {rsp : Response} (hr : LF.PlainAnswer rsp) {order : Header} (ho : order.Perm rsp.header) :
    Says (println (rsp.pack order)) (match rsp.body with | none => [] | some b => unitsShown (b ++ [13])) := by
  refine says_text fun s hs => ?_
  obtain ⟨h1, h2, h3⟩ := hr
  have e : s ++ (rsp.pack order ++ [10]) = s ++ (b!"RTSP/1.0" ++ b!" " ++ rsp.status ++ [13]) ++ 10 :: (order.flatMap (fun e => headerLine e.1 e.2) ++ ([13] ++ 10 ::
      ((if rsp.contentLength > 0 then rsp.body.getD [] ++ crnl else []) ++ [10]))) := by
    unfold Response.pack; simp [crnl]
  rw [e, shown_other hs, shown_headers (fun x hx => h2 x (ho.mem_iff.1 hx)), shown_append, show unitsShown [13] = [] by decide, List.nil_append]
  · cases hb : rsp.body with
    | none =>
      rw [if_neg (fun h => h3.1 h hb)]
      decide
    | some b =>
      rw [if_pos (h3.2 (by rw [hb]; simp))]
      dsimp only [Option.getD_some]
      rw [show b ++ crnl ++ [10] = (b ++ [13]) ++ 10 :: [10] by simp [crnl], shown_append, show unitsShown [10] = [] by decide, List.append_nil]
  · exact LF.app_noLF (LF.app_noLF (LF.app_noLF (by decide) (by decide)) h1) (by decide)
  · rfl

theorem unitText_entry (u : NALUnit) : b!"NAL Zero=" ++ boolText u.zeroBit ++ b!", RefIdc=" ++ natDigits u.refIdc.toNat ++ b!", Type=" ++
      natDigits u.type.toNat ++ b!", Size=" ++ natDigits u.data.length ++ b!"\r\n" = unitText u ++ [10] := by
  have h1 : ∀ h : UInt8, ((h &&& 0x80) == 0) = decide (h < 128) := forall_u8 (by decide +kernel)
  have h2 : ∀ h : UInt8, ((h &&& 0x60) >>> 5).toNat = h.toNat / 32 % 4 := forall_u8 (by decide +kernel)
  have h3 : ∀ h : UInt8, (h &&& 0x1F).toNat = h.toNat % 32 := forall_u8 (by decide +kernel)
  unfold unitText NALUnit.zeroBit NALUnit.refIdc NALUnit.type boolText
  rw [h1, h2, h3]
  simp

theorem unitText_noLF (u : NALUnit) : (10 : UInt8) ∉ unitText u := by
  unfold unitText
  refine LF.app_noLF (LF.app_noLF (LF.app_noLF (LF.app_noLF (LF.app_noLF (LF.app_noLF (LF.app_noLF (LF.app_noLF (by decide) ?_) (by decide)) (digits_noLF _)) (by decide)) (digits_noLF _)) (by decide)) (digits_noLF _)) (by decide)
  split <;> decide

theorem unitText_nal (u : NALUnit) : b!"NAL ".isPrefixOf (unitText u) = true := by
  unfold unitText
  simp [List.isPrefixOf]

/-! ## Logs -/

/-- What a log says. -/
def Reads (log : List LogEntry) (x : List Bytes) : Prop := ∀ lw, Sane lw → unitsShown (printed lw log) = x ∧ (log = [] ∨ ∃ o, printed lw log = o ++ [10])

theorem reads_cons {e : LogEntry} {log : List LogEntry} {x y : List Bytes} (he : Says e y) (h : Reads log x) : Reads (e :: log) (x ++ y) := by
  intro lw hl
  obtain ⟨h1, h2⟩ := h lw hl
  obtain ⟨g1, g2⟩ := he lw hl log h2
  exact ⟨by rw [g1, h1], .inr g2⟩

theorem reads_same {e : LogEntry} {log : List LogEntry} {x : List Bytes} (he : Says e []) (h : Reads log x) : Reads (e :: log) x := by
  have := reads_cons he h
  rwa [List.append_nil] at this

/-- What can be in the trace. -/
def GoodAct : Act → Prop
  | .wire (.sent _ q _) => LF.CleanReq q
  | .wire (.got rsp) => LF.PlainAnswer rsp
  | _ => True

theorem reads_act {ord : Orders} (ho : Complete ord) {a : Act} (ha : GoodAct a) (k : Nat) {log : List LogEntry} {x : List Bytes} (h : Reads log x) :
    Reads ((logEntries ord k a).reverse ++ log) (x ++ unitsExpected [a]) := by
  have none' : ∀ {y}, Reads y x → Reads y (x ++ []) := fun h => by rwa [List.append_nil]
  cases a with
  | wire o =>
    cases o with
    | sent r q res => exact reads_cons (says_request ha (ho.1 q)) h
    | got rsp =>
      have := reads_cons (says_response ha (ho.2 rsp)) h
      rw [logEntries]
      unfold unitsExpected
      cases hb : rsp.body with
      | none => rw [hb] at this; simpa [hb] using this
      | some b => rw [hb] at this; simpa [hb] using this
    | notified => exact none' h
    | started => exact none' h
    | data => exact none' h
  | timer =>
    have h1 : Says (.text (b!"Timer: stage=" ++ natDigits k ++ b!"\n")) [] := says_other (LF.app_noLF (by decide) (digits_noLF _)) rfl
    have h2 : Says (println b!"Stage: Closing") [] := says_other (by decide) rfl
    refine none' ?_
    rw [logEntries]
    split
    · exact reads_same h2 (reads_same h1 h)
    · exact reads_same h1 h
  | stage j =>
    refine none' ?_
    rw [logEntries]
    split
    · exact reads_same (says_other (by decide) rfl) h
    · split
      · exact reads_same (says_other (by decide) rfl) h
      · split
        · exact reads_same (says_other (by decide) rfl) h
        · split
          · exact reads_same (says_other (by decide) rfl) h
          · exact reads_same (says_other (LF.app_noLF (by decide) (digits_noLF _)) rfl) h
  | packet ch payload =>
    refine none' ?_
    rw [logEntries]
    split
    · split
      · rename_i p _
        refine reads_same ?_ h
        have := says_other (t := b!"RTP [" ++ natDigits ch.toNat ++ b!"] PT=" ++ natDigits p.pt.toNat ++ b!", CC=" ++ natDigits p.cc.toNat ++
          b!", M=" ++ boolText p.m ++ b!", SN=" ++ natDigits p.sn ++ b!"\r") ?_ rfl
        · simpa using this
        · refine LF.app_noLF (LF.app_noLF (LF.app_noLF (LF.app_noLF (LF.app_noLF (LF.app_noLF (LF.app_noLF (LF.app_noLF (LF.app_noLF (LF.app_noLF (by decide) (digits_noLF _)) (by decide)) (digits_noLF _))
            (by decide)) (digits_noLF _)) (by decide)) ?_) (by decide)) (digits_noLF _)) (by decide)
          unfold boolText; split <;> decide
      · exact h
    · split
      · rename_i p _
        refine reads_same ?_ h
        have := says_other (t := b!"RTCP [" ++ natDigits ch.toNat ++ b!"] PT=" ++ natDigits p.pt.toNat ++ b!", LN=" ++ natDigits p.ln ++
          b!", C=" ++ natDigits p.c.toNat ++ b!"\r") ?_ rfl
        · simpa using this
        · exact LF.app_noLF (LF.app_noLF (LF.app_noLF (LF.app_noLF (LF.app_noLF (LF.app_noLF (LF.app_noLF (LF.app_noLF (by decide) (digits_noLF _)) (by decide)) (digits_noLF _))
            (by decide)) (digits_noLF _)) (by decide)) (digits_noLF _)) (by decide)
      · exact h
  | unit u =>
    refine reads_cons ?_ h
    rw [unitText_entry]
    exact says_text fun s hs => by rw [← List.append_assoc, shown_unit hs (unitText_noLF u) (unitText_nal u)]; rfl
  | ended why =>
    refine none' ?_
    cases why with
    | finished => exact h
    | badPacket => exact reads_same says_error h
    | fatal => exact reads_same says_error h

theorem expected_cons (a : Act) (t : List Act) : unitsExpected (a :: t) = unitsExpected t ++ unitsExpected [a] := by
  unfold unitsExpected
  rw [List.reverse_cons, List.flatMap_append]
  rfl

theorem reads_acts {ord : Orders} (ho : Complete ord) (k : Nat) {log : List LogEntry} {t : List Act} (h : Reads log (unitsExpected t)) :
    ∀ new : List Act, (∀ a ∈ new, GoodAct a) → Reads (new.flatMap (fun a => (logEntries ord k a).reverse) ++ log) (unitsExpected (new ++ t)) := by
  intro new
  induction new with
  | nil => intro _; exact h
  | cons a new ih =>
    intro ha
    rw [List.flatMap_cons, List.append_assoc, List.cons_append, expected_cons]
    exact reads_act ho (ha a (by simp)) k (ih fun x hx => ha x (List.mem_cons_of_mem _ hx))

theorem reads_follow {ord : Orders} (ho : Complete ord) {l : Logged} (h : Reads l.log (unitsExpected l.client.trace)) {c : Client} (hc : ∃ new, c.trace = new ++ l.client.trace)
    (hg : ∀ a ∈ c.trace, GoodAct a) : Reads (l.follow ord c).log (unitsExpected (l.follow ord c).client.trace) := by
  obtain ⟨new, hn⟩ := hc
  have key := reads_acts ho l.client.state h new (fun a ha => hg a (by rw [hn]; simp [ha]))
  unfold Logged.follow
  dsimp only
  rw [hn, List.length_append, Nat.add_sub_cancel, List.take_left, List.append_assoc]
  split
  · exact reads_same says_error key
  · exact key

/-! ## What is read -/

theorem trimSpace_noLF {t : Bytes} (ht : (10 : UInt8) ∉ t) : (10 : UInt8) ∉ trimSpace (t ++ [10]) := by
  have hrev : ∀ t : Bytes, spaceLenRev (10 :: t) = 1 := by
    intro t
    match t with
    | [] => rfl
    | [_] => rfl
    | _ :: _ :: _ => rfl
  unfold trimSpace
  dsimp only
  have hs := dropSpace_suffix (len := spaceLen) (t ++ [10]).length (t ++ [10])
  generalize dropSpace spaceLen (t ++ [10]).length (t ++ [10]) = u at hs
  obtain ⟨p, hp⟩ := hs
  rcases List.eq_nil_or_concat u with rfl | ⟨v, z, rfl⟩
  · simp [dropSpace]
  · rw [List.concat_eq_append, ← List.append_assoc] at hp
    have he := List.append_inj' hp rfl
    have hz : z = 10 := by simpa using he.2
    subst hz
    have hv : (10 : UInt8) ∉ v := fun hm => ht (by rw [← he.1]; simp [hm])
    rw [List.concat_eq_append, List.length_append, List.length_singleton, List.reverse_append, List.reverse_singleton, List.singleton_append,
      dropSpace, if_neg (by rw [hrev]; decide), hrev]
    intro hm
    rw [List.mem_reverse] at hm
    have := dropSpace_mem _ _ _ hm
    rw [List.drop_succ_cons, List.drop_zero, List.mem_reverse] at this
    exact hv this

theorem lineLoop_line : ∀ (net : List Ev) {acc l : Bytes} {r : Rdr}, (10 : UInt8) ∉ acc → lineLoop acc net = (.ok l, r) → ∃ t, l = t ++ [10] ∧ (10 : UInt8) ∉ t := by
  intro net
  induction net with
  | nil => intro acc l r _ h; cases h
  | cons e net ih =>
    intro acc l r ha h
    cases e with
    | byte b =>
      rw [lineLoop] at h
      split at h
      · cases h; exact ⟨acc, rfl, ha⟩
      · rename_i hb
        exact ih (LF.app_noLF ha (by simpa using Ne.symm hb)) h
    | timeout => cases h
    | reset => cases h

theorem readLine_line {r r' : Rdr} {l : Bytes} (h : r.readLine = (.ok l, r')) : ∃ t, l = t ++ [10] ∧ (10 : UInt8) ∉ t := by
  unfold Rdr.readLine at h
  split at h
  · rename_i a b hc
    cases h
    exact ⟨a, rfl, (cut_some hc).2⟩
  · rename_i hc
    split at h
    · cases h
    · exact lineLoop_line _ (cut_none.1 hc) h

theorem canonKey_noLF {k : Bytes} (h1 : (58 : UInt8) ∉ k) (h2 : (10 : UInt8) ∉ k) : (58 : UInt8) ∉ canonKey k ∧ (10 : UInt8) ∉ canonKey k := by
  unfold canonKey
  split
  · rename_i ht
    rw [← canonLoop_token true, List.all_eq_true] at ht
    exact ⟨fun hm => absurd (ht _ hm) (by decide), fun hm => absurd (ht _ hm) (by decide)⟩
  · exact ⟨h1, h2⟩

theorem headerLoop_line : ∀ (n : Nat) {r r' : Rdr} {h h' : Header}, (∀ e ∈ h, (58 : UInt8) ∉ e.1 ∧ (10 : UInt8) ∉ e.1 ∧ (10 : UInt8) ∉ e.2) → headerLoop n r h = (.ok h', r') →
    ∀ e ∈ h', (58 : UInt8) ∉ e.1 ∧ (10 : UInt8) ∉ e.1 ∧ (10 : UInt8) ∉ e.2 := by
  intro n
  induction n with
  | zero => intro r r' h h' _ hl; cases hl
  | succ n ih =>
    intro r r' h h' hh hl
    rw [headerLoop] at hl
    split at hl
    · cases hl
    · rename_i line r1 hr
      obtain ⟨t, rfl, ht⟩ := readLine_line hr
      have htr := trimSpace_noLF ht
      split at hl
      · cases hl; exact hh
      · split at hl
        · rename_i k v hs
          refine ih ?_ hl
          have hk : (10 : UInt8) ∉ k := fun hm => htr (splitN2_sub k (by rw [hs]; simp) _ hm)
          have hv : (10 : UInt8) ∉ v := fun hm => htr (splitN2_sub v (by rw [hs]; simp) _ hm)
          have hc : (58 : UInt8) ∉ k := by
            unfold splitN2 at hs
            split at hs
            · cases hs
            · rename_i a b hcut
              cases hs
              exact (cut_some hcut).2
          obtain ⟨g1, g2⟩ := canonKey_noLF (k := trimSpace k) (fun hm => hc (trimSpace_mem hm)) (fun hm => hk (trimSpace_mem hm))
          intro e he
          unfold Header.set at he
          rcases List.mem_append.1 he with he | he
          · exact hh e (List.mem_filter.1 he).1
          · rw [List.mem_singleton] at he
            subst he
            exact ⟨g1, g2, fun hm => hv (trimSpace_mem hm)⟩
        · cases hl

theorem unpackRsp_plain {r r' : Rdr} {rsp : Response} (h : unpackRsp r = (.ok rsp, r')) : LF.PlainAnswer rsp := by
  unfold unpackRsp at h
  split at h
  · cases h
  · rename_i line r1 hr
    obtain ⟨t, rfl, ht⟩ := readLine_line hr
    split at h
    · cases h
    · rename_i status code hst
      have hs : (10 : UInt8) ∉ status := by
        unfold statusLine at hst
        split at hst
        · cases hst
        · rename_i p rest hc
          obtain ⟨e, hp⟩ := cut_some hc
          have hrest : (10 : UInt8) ∉ trimSpace rest := by
            rcases List.eq_nil_or_concat rest with rfl | ⟨v, z, rfl⟩
            · simp [trimSpace, dropSpace]
            · rw [List.concat_eq_append] at e ⊢
              rw [show p ++ 32 :: (v ++ [z]) = (p ++ 32 :: v) ++ [z] by simp] at e
              have he := List.append_inj' e rfl
              have hz : z = 10 := by simpa using he.2.symm
              subst hz
              exact trimSpace_noLF (fun hm => ht (by rw [he.1]; simp [hm]))
          split at hst
          · cases hst
          · dsimp only at hst
            split at hst
            · split at hst
              · cases hst
              · split at hst
                · split at hst
                  · cases hst
                  · cases hst; exact hrest
                · cases hst
            · split at hst
              · cases hst
              · split at hst
                · split at hst
                  · cases hst
                  · cases hst; exact hrest
                · cases hst
      split at h
      · cases h
      · rename_i hd r2 hh
        have hall := headerLoop_line _ (by intro e he; cases he) hh
        dsimp only at h
        split at h
        · rename_i hcl
          split at h
          · cases h
          · cases h
            exact ⟨hs, hall, by simpa using hcl⟩
        · rename_i hcl
          cases h
          exact ⟨hs, hall, by simpa using hcl⟩

theorem recv_plain {r r' : Rdr} {rsp : Response} (h : recv r = (.ok (.response rsp), r')) : LF.PlainAnswer rsp := by
  unfold recv at h
  cases hp : r.peek 1 with
  | mk x r1 =>
    rw [hp] at h
    cases x with
    | error e => injection h with h; cases h
    | ok b =>
      dsimp only at h
      by_cases hb : b = [36]
      · rw [if_pos hb] at h; obtain ⟨_, _, e⟩ := recvFrame_frame h; cases e
      · rw [if_neg hb] at h
        cases hq : unpackRsp r1 with
        | mk y r2 =>
          rw [hq] at h
          cases y with
          | error e => injection h with h; cases h
          | ok rsp' =>
            injection h with ha _
            injection ha with ha
            injection ha with ha
            subst ha
            exact unpackRsp_plain hq

/-! ## The client -/

/-- Nothing in the client, nor in what it did and saw, has a line feed where there should be none. -/
structure Lined (c : Client) : Prop where
  sess : LF.CleanSess c.sess
  trace : ∀ a ∈ c.trace, GoodAct a

theorem lined_adopt {c : Client} {s : Sess} (h : Lined c) (hs : LF.CleanSess s) : Lined (c.adopt s) := by
  refine ⟨hs, ?_⟩
  intro a ha
  unfold Client.adopt at ha
  rcases List.mem_append.1 ha with ha | ha
  · obtain ⟨o, ho, rfl⟩ := List.mem_map.1 ha
    have ho : o ∈ s.out := List.mem_of_mem_take ho
    cases o with
    | sent r q res => exact hs.out _ _ _ ho
    | got rsp => exact hs.got _ ho
    | notified => trivial
    | started => trivial
    | data => trivial
  · exact h.trace a ha

theorem lined_order {w : World} {c c' : Client} {verb : Bytes} {uri : Bytes} (h : c.order (c.sess.deref (command w c.sess verb uri [])) = .ok c') (hl : Lined c)
    (hu : uri = c.sess.baseURI) (hv : (10 : UInt8) ∉ verb ∧ verb ≠ [] ∧ verb.head? ≠ some 78) : Lined c' := by
  subst hu
  unfold Client.order at h
  cases hd : c.sess.deref (command w c.sess verb c.sess.baseURI []) with
  | error p => rw [hd] at h; cases h
  | ok r =>
    obtain ⟨s, e⟩ := r
    have hs := LF.simple_clean (deref_ok hd) hl.sess hv
    have ha := lined_adopt hl hs
    rw [hd] at h
    cases e with
    | none => cases h; exact ha
    | some e =>
      cases h
      refine ⟨ha.sess, fun a hm => ?_⟩
      rcases List.mem_cons.1 hm with rfl | hm
      · trivial
      · exact ha.trace a hm

theorem lined_read {w : World} {c c' : Client} (h : clientRead w c = .ok c') (hl : Lined c) : Lined c' := by
  unfold clientRead at h
  split at h
  · split at h
    · cases h; exact ⟨hl.sess, hl.trace⟩
    · cases h; exact ⟨hl.sess, hl.trace⟩
    · split at h
      · cases h
      · rename_i item r hr _ s e hi
        cases h
        have hop : LF.PlainOp (.item item) := by
          cases item with
          | frame => trivial
          | response rsp => exact recv_plain hr
        exact lined_adopt (c := { c with rdr := r, running := goesOn e }) ⟨hl.sess, hl.trace⟩ (LF.step_clean (op := .item item) hi hl.sess hop)
  · cases h; exact hl

theorem lined_mark {c c' : Client} {new : List Act} (hl : Lined c) (hs : c'.sess = c.sess) (ht : c'.trace = new ++ c.trace) (hn : ∀ a ∈ new, GoodAct a) : Lined c' := by
  refine ⟨by rw [hs]; exact hl.sess, fun a ha => ?_⟩
  rw [ht] at ha
  rcases List.mem_append.1 ha with ha | ha
  · exact hn a ha
  · exact hl.trace a ha

theorem lined_step {w : World} {c c' : Client} {e : CEv} (h : cstep w c e = .ok c') (hl : Lined c) : Lined c' := by
  have one : ∀ {a : Act}, GoodAct a → ∀ x ∈ [a], GoodAct x := fun h x hx => by rw [List.mem_singleton] at hx; subst hx; exact h
  unfold cstep at h
  split at h
  · cases h; exact hl
  · cases e with
    | read => exact lined_read h hl
    | expire =>
      cases h
      split
      · exact ⟨hl.sess, hl.trace⟩
      · exact hl
    | timer =>
      dsimp only at h
      unfold clientTimer at h
      split at h
      · dsimp only at h
        have hm : Lined { c with fired := false, trace := .timer :: c.trace } := lined_mark (new := [.timer]) hl rfl rfl (one trivial)
        split at h
        · exact lined_order h hm rfl (by decide)
        · split at h
          · exact lined_order h hm rfl (by decide)
          · split at h
            · cases h; exact lined_mark (new := [.ended .finished]) hm rfl rfl (one trivial)
            · cases h; exact hm
      · cases h; exact hl
    | stage =>
      dsimp only at h
      unfold clientStage at h
      split at h
      · cases h; exact hl
      · rename_i n ks hks
        dsimp only at h
        have hm : Lined { c with states := ks, state := n, trace := .stage n :: c.trace } := lined_mark (new := [.stage n]) hl rfl rfl (one trivial)
        split at h
        · exact lined_order h hm rfl (by decide)
        · split at h
          · cases h; exact ⟨hm.sess, hm.trace⟩
          · split at h
            · cases h; exact ⟨hm.sess, hm.trace⟩
            · split at h
              · cases h; exact ⟨hm.sess, hm.trace⟩
              · cases h; exact hm
    | packet =>
      dsimp only at h
      unfold clientPacket at h
      split at h
      · cases h; exact hl
      · rename_i ch payload rest hd
        dsimp only at h
        have hm : Lined { c with data := rest, trace := .packet ch payload :: c.trace } := lined_mark (new := [.packet ch payload]) hl rfl rfl (one trivial)
        split at h
        · split at h
          · cases h
          · cases h; exact lined_mark (new := [.ended .badPacket]) hm rfl rfl (one trivial)
          · split at h
            · cases h
            · cases h; exact lined_mark (new := [.ended .badPacket]) hm rfl rfl (one trivial)
            · cases h
              refine lined_mark hm rfl rfl ?_
              intro a ha
              rw [List.mem_reverse] at ha
              obtain ⟨u, _, rfl⟩ := List.mem_map.1 ha
              trivial
        · split at h
          · cases h
          · cases h; exact lined_mark (new := [.ended .badPacket]) hm rfl rfl (one trivial)
          · cases h; exact hm

/-! ## Runs -/

/-- The log says what is to be expected. -/
structure Honest (l : Logged) : Prop where
  lined : Lined l.client
  reads : Reads l.log (unitsExpected l.client.trace)

theorem honest_lsteps {ord : Orders} (ho : Complete ord) {w : World} (es : List CEv) : ∀ {l l' : Logged}, Honest l → lsteps ord w l es = .ok l' → Honest l' := by
  induction es with
  | nil => intro l l' hl h; cases h; exact hl
  | cons e es ih =>
    intro l l' hl h
    rw [lsteps] at h
    unfold lstep at h
    cases hc : cstep w l.client e with
    | error p => rw [hc] at h; cases h
    | ok c =>
      rw [hc] at h
      have hln := lined_step hc hl.lined
      exact ih ⟨hln, reads_follow ho hl.reads (cstep_on hc).trace hln.trace⟩ h

theorem honest_turns {ord : Orders} (ho : Complete ord) {w : World} (n : Nat) : ∀ {l l' : Logged}, Honest l → lopen.turns ord w n l = .ok l' → Honest l' := by
  induction n with
  | zero => intro l l' hl h; cases h; exact hl
  | succ n ih =>
    intro l l' hl h
    rw [lopen.turns] at h
    cases hc : clientRead w l.client with
    | error p => rw [hc] at h; cases h
    | ok c =>
      rw [hc] at h
      have hln := lined_read hc hl.lined
      exact ih ⟨hln, reads_follow ho hl.reads (read_on hc).trace hln.trace⟩ h

theorem honest_open {ord : Orders} (ho : Complete ord) {w : World} {uri : Bytes} {v : Option (Bytes × Bytes)} {rdr : Rdr} {n : Nat} {l : Logged} (h : lopen ord w uri v rdr n = .ok l)
    (hu : (10 : UInt8) ∉ uri) (hn : ∀ u p, v = some (u, p) → (10 : UInt8) ∉ u) : Honest l := by
  unfold lopen at h
  split at h
  · cases h
  · rename_i l1 h1
    have h0 : Honest l1 := by
      refine honest_turns ho n ?_ h1
      exact ⟨⟨LF.dial_clean hu hn, by intro a ha; cases ha⟩, fun lw _ => ⟨shown_nil, .inl rfl⟩⟩
    cases hc : l1.client.order (Sess.options w l1.client.sess) with
    | error p => rw [hc] at h; cases h
    | ok c =>
      rw [hc] at h
      cases h
      have hln : Lined c := lined_order hc h0.lined rfl (by decide)
      exact ⟨hln, reads_follow ho h0.reads (GoesOn.order hc).trace hln.trace⟩

end Ouro
