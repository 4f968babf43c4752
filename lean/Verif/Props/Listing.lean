import Verif.Spec.Listing
import Verif.Props.Flow
import Verif.Props.Names

/-!
# The lists of algorithms (property C71)
-/

namespace Mutagenyx
namespace AlgorithmsInfo
open Printer

/-! ## Lemmas -/

/-- A printer for a terminal with `cols` columns. -/
def prt (cols row col ind : Nat) (out : List Char) : Printer :=
  { row := row, column := col, tabWidth := 1, pageWidth := cols, indent := ind, maxIndent := cols - 1, out := out }

theorem new_prt (cols : Nat) : new 1 cols = prt cols 1 1 0 [] := by simp [new, prt]

variable {cols row col ind : Nat} {out : List Char}

theorem token_prt {t : List Char} (h : col + utf8Len t ≤ cols) :
    (prt cols row col ind out).writeToken t = prt cols row (col + utf8Len t) ind (out ++ t) := by
  unfold writeToken
  have h1 : ¬ (prt cols row col ind out).column > (prt cols row col ind out).pageWidth := by
    show ¬ col > cols; omega
  simp only [if_neg h1]
  rw [if_neg (show ¬ utf8Len t > (prt cols row col ind out).pageWidth by show ¬ _ > cols; omega),
    if_neg (show ¬ utf8Len t > (prt cols row col ind out).pageWidth - (prt cols row col ind out).column by
      show ¬ _ > cols - col; omega)]
  rfl

theorem space_prt (h : col < cols) :
    (prt cols row col ind out).writeSpace = prt cols row (col + 1) ind (out ++ [' ']) := by
  unfold writeSpace
  rw [if_neg (show ¬ (prt cols row col ind out).column = (prt cols row col ind out).pageWidth by
    show ¬ col = cols; omega)]
  rfl

theorem spaces_prt (n : Nat) (h : col + n ≤ cols) :
    writeSpaces n (prt cols row col ind out) = prt cols row (col + n) ind (out ++ List.replicate n ' ') := by
  induction n generalizing col out with
  | zero => simp [writeSpaces]
  | succ n ih =>
    rw [writeSpaces, space_prt (by omega), ih (by omega), List.append_assoc]
    congr 1
    omega

theorem tokens_prt (n : Nat) (h : col + n ≤ cols) :
    writeTokens ['-'] n (prt cols row col ind out) = prt cols row (col + n) ind (out ++ List.replicate n '-') := by
  have h1 : utf8Len ['-'] = 1 := by decide
  induction n generalizing col out with
  | zero => simp [writeTokens]
  | succ n ih =>
    rw [writeTokens, token_prt (by rw [h1]; omega), h1, ih (by omega), List.append_assoc]
    congr 1
    omega

theorem newline_prt : (prt cols row col ind out).writeNewline = prt cols (row + 1) 1 ind (out ++ ['\n']) := rfl

theorem indent_prt : (prt cols row col ind out).writeIndent =
    prt cols row (col + ind) ind (out ++ List.replicate ind ' ') := by
  have h1 : (prt cols row col ind out).indentString = List.replicate ind ' ' := by
    simp [indentString, indentLength, prt]
  unfold writeIndent
  rw [h1]
  cases ind with
  | zero => simp
  | succ n =>
    rw [if_neg (by simp)]
    simp [basic, prt, utf8Len_replicate_space]

theorem incrBy_prt {n : Nat} (h : ind + n < cols) :
    (prt cols row col ind out).increaseIndentBy n = prt cols row col (ind + n) out := by
  unfold increaseIndentBy
  exact if_pos (show ind + n ≤ cols - 1 by omega)

theorem incr_prt (h : ind + 1 < cols) :
    (prt cols row col ind out).increaseIndent = prt cols row col (ind + 1) out := by
  unfold increaseIndent
  exact if_neg (show ¬ ind ≥ cols - 1 by omega)

theorem decrBy_prt {n : Nat} (h : n ≤ ind) :
    (prt cols row col ind out).decreaseIndentBy n = prt cols row col (ind - n) out := by
  unfold decreaseIndentBy
  exact if_neg (show ¬ n > ind by omega)

/-- The words of the text fit between the margin and the end of the line, and none is one short of that. -/
def WordsFit (cols : Nat) (s : List Char) : Prop := ∀ w ∈ words s, utf8Len w + 23 ≤ cols ∧ utf8Len w + 24 ≠ cols

theorem flow_prt (checks : Bool) {s : List Char} (hc : 24 ≤ cols) (h : WordsFit cols s) :
    ∃ row' col' text, writeFlow checks s [] (prt cols row 23 22 out) = .ok (prt cols row' col' 22 (out ++ text)) ∧
      Filled cols s text := by
  have hlen : (prt cols row 23 22 out).indentLength = 22 := rfl
  have hroom : room [] (prt cols row 23 22 out) = cols - 23 := by
    show cols - (1 + _ + utf8Len []) = _
    rw [hlen]; simp
  obtain ⟨q, h1, hl, piece, pieces, h2, h3, h4, h5, h6⟩ :=
    flow_started checks [] s (prt cols row 23 22 out) (show 23 ≤ cols by omega) (by rw [hroom]; omega)
      (fun w hw => by rw [hroom]; have := h w hw; omega) _ (Nat.le_refl _)
  refine ⟨q.row, q.column, piece ++ (pieces.map fun c => '\n' :: margin ++ c).flatten, ?_, piece, pieces, rfl, h3, ?_⟩
  · rw [writeFlow, h1]
    congr 1
    have hout : q.out = out ++ (piece ++ (pieces.map fun c => '\n' :: margin ++ c).flatten) := by
      rw [h2, List.append_assoc]
      have hs : lineStart [] (prt cols row 23 22 out) = '\n' :: margin := by
        simp [lineStart, indentString, hlen, margin]
      rw [hs]
      rfl
    have ha : q.indent = 22 := hl.indent
    have hb : q.maxIndent = cols - 1 := hl.maxIndent
    have hc : q.tabWidth = 1 := hl.tabWidth
    have hd : q.pageWidth = cols := hl.pageWidth
    cases q
    simp only at hout ha hb hc hd
    subst hout ha hb hc hd
    rfl
  · intro c hc
    refine ⟨h4 c hc, ?_⟩
    rcases List.mem_cons.1 hc with rfl | hc
    · have h5' : 23 + utf8Len c ≤ cols := h5
      omega
    · have := h6 c hc
      rw [hroom] at this
      omega

/-- The calls lead from one state to the other. -/
def Leads (checks : Bool) (ops : List Op) (p q : Printer) : Prop := run checks ops p = .ok q

theorem Leads.nil {checks : Bool} {p : Printer} : Leads checks [] p p := rfl

theorem Leads.cons {checks : Bool} {op : Op} {ops : List Op} {p q r : Printer} (h : exec checks op p = .ok q)
    (k : Leads checks ops q r) : Leads checks (op :: ops) p r := by
  unfold Leads run
  rw [h]
  exact k

theorem Leads.append {checks : Bool} {a b : List Op} {p q r : Printer} (h : Leads checks a p q)
    (k : Leads checks b q r) : Leads checks (a ++ b) p r := by
  unfold Leads at *
  rw [run_append, h]
  exact k

theorem Leads.step {checks : Bool} {op : Op} {ops : List Op} {p q r : Printer} (h : exec checks op p = .ok q)
    (e : q = r) {z : Printer} (k : Leads checks ops r z) : Leads checks (op :: ops) p z :=
  .cons h (e ▸ k)

theorem name_length (t : MutationType) : utf8Len t.toStr.toList = t.toStr.toList.length ∧
    t.toStr.toList.length ≤ 21 := by
  cases t <;> decide +kernel

/-- Name and padding, in front of everything else. -/
theorem leads_name (checks : Bool) (t : MutationType) (hc : 24 ≤ cols) :
    Leads checks [.token t.toStr.toList, .spaces (21 - utf8Len t.toStr.toList), .space] (prt cols row 1 0 out)
      (prt cols row 23 0 (out ++ padded t)) := by
  obtain ⟨h1, h2⟩ := name_length t
  refine .step rfl (token_prt (by omega)) (.step rfl (spaces_prt _ (by omega)) (.step rfl (space_prt (by omega)) ?_))
  rw [show 1 + utf8Len t.toStr.toList + (21 - utf8Len t.toStr.toList) + 1 = 23 by omega, h1]
  have e : out ++ t.toStr.toList ++ List.replicate (21 - t.toStr.toList.length) ' ' ++ [' '] = out ++ padded t := by
    rw [padded, show 22 - t.toStr.toList.length = (21 - t.toStr.toList.length) + 1 by omega,
      List.replicate_succ']
    simp
  rw [e]
  exact .nil

/-- A text from the margin on. -/
theorem leads_flow (checks : Bool) {s : List Char} (hc : 24 ≤ cols) (h : WordsFit cols s) :
    ∃ row' col' text, Leads checks [.flow s [], .decrBy 22] (prt cols row 23 22 out)
        (prt cols row' col' 0 (out ++ text)) ∧ Filled cols s text := by
  obtain ⟨row', col', text, h1, h2⟩ := flow_prt checks hc h (row := row) (out := out)
  exact ⟨row', col', text, .cons h1 (.step rfl (decrBy_prt (Nat.le_refl _)) .nil), h2⟩

theorem leads_listEntry (checks : Bool) (t : MutationType) (hc : 24 ≤ cols)
    (h : WordsFit cols t.description.summary) :
    ∃ row' col' text, Leads checks (listEntry 21 true t) (prt cols row 1 0 out) (prt cols row' col' 0 (out ++ text)) ∧
      ListEntry cols t text := by
  obtain ⟨row', col', text, h1, h2⟩ := leads_flow checks hc h (row := row) (out := out ++ padded t)
  refine ⟨row', col', padded t ++ text, ?_, text, h2, rfl⟩
  have h3 := (leads_name checks t hc (row := row) (out := out)).append
    (Leads.step (op := .incrBy 22) rfl (incrBy_prt (by omega)) h1)
  simpa [listEntry, List.append_assoc] using h3

/-- A text with or without a heading, on a new line. -/
theorem leads_section (checks : Bool) {category s : List Char} (hc : 24 ≤ cols) (h : WordsFit cols s)
    (hcat : utf8Len category = category.length) (hlen : category.length + 23 ≤ cols)
    (hs : s ≠ []) :
    ∃ row' col' text, Leads checks ([.newline, .newline] ++ writeLines 21 category s true) (prt cols row col 0 out)
        (prt cols row' col' 0 (out ++ text)) ∧ Section cols category s text := by
  by_cases hn : category = []
  · obtain ⟨row', col', text, h1, h2⟩ := leads_flow checks hc h (row := row + 2) (out := out ++ (['\n', '\n'] ++ margin))
    refine ⟨row', col', ['\n', '\n'] ++ margin ++ text, ?_, .inr ⟨hs, text, h2, by simp [hn]⟩⟩
    have h3 : Leads checks [.newline, .newline, .incrBy 21, .indent, .space, .incr, .flow s [], .decrBy 22]
        (prt cols row col 0 out) (prt cols row' col' 0 (out ++ (['\n', '\n'] ++ margin ++ text))) := by
      refine .step rfl newline_prt (.step rfl newline_prt (.step rfl (incrBy_prt (by omega)) (.step rfl indent_prt
        (.step rfl (space_prt (by omega)) (.step rfl (incr_prt (by omega)) ?_)))))
      have e : out ++ ['\n'] ++ ['\n'] ++ List.replicate (0 + 21) ' ' ++ [' '] = out ++ (['\n', '\n'] ++ margin) := by
        rw [margin, List.replicate_succ' (n := 21)]
        simp
      rw [e]
      simpa [List.append_assoc] using h1
    simpa [writeLines, hn] using h3
  · obtain ⟨row', col', text, h1, h2⟩ := leads_flow checks hc h (row := row + 1 + 1 + 1 + 1 + 1)
      (out := out ++ (['\n', '\n'] ++ margin ++ (category ++ '\n' :: margin ++
        List.replicate category.length '-' ++ ['\n', '\n'] ++ margin)))
    refine ⟨row', col', ['\n', '\n'] ++ margin ++ (category ++ '\n' :: margin ++
        List.replicate category.length '-' ++ ['\n', '\n'] ++ margin) ++ text, ?_,
      .inr ⟨hs, text, h2, by simp [hn]⟩⟩
    have h3 : Leads checks [.newline, .newline, .incrBy 21, .indent, .space, .token category, .newline, .indent,
        .space, .tokens ['-'] (utf8Len category), .newline, .newline, .indent, .space, .incr,
        .flow s [], .decrBy 22]
        (prt cols row col 0 out) (prt cols row' col' 0 (out ++ (['\n', '\n'] ++ margin ++ (category ++ '\n' :: margin ++
        List.replicate category.length '-' ++ ['\n', '\n'] ++ margin) ++ text))) := by
      refine .step rfl newline_prt (.step rfl newline_prt (.step rfl (incrBy_prt (by omega)) (.step rfl indent_prt
        (.step rfl (space_prt (by omega)) (.step rfl (token_prt (by omega)) (.step rfl newline_prt (.step rfl indent_prt
        (.step rfl (space_prt (by omega)) (.step rfl (tokens_prt _ (by omega)) (.step rfl newline_prt
        (.step rfl newline_prt (.step rfl indent_prt (.step rfl (space_prt (by omega))
        (.step rfl (incr_prt (by omega)) ?_))))))))))))))
      have m : ∀ o : List Char, o ++ List.replicate (0 + 21) ' ' ++ [' '] = o ++ margin := by
        intro o
        rw [margin, List.replicate_succ' (n := 21)]
        simp
      rw [m, m, m, hcat]
      simpa [List.append_assoc] using h1
    simpa [writeLines, hn] using h3

/-- The first text of a description, behind the name. -/
theorem leads_first (checks : Bool) {s : List Char} (hc : 24 ≤ cols) (h : WordsFit cols s) :
    ∃ row' col' text, Leads checks (writeLines 21 [] s false) (prt cols row 23 0 out)
        (prt cols row' col' 0 (out ++ text)) ∧ Filled cols s text := by
  obtain ⟨row', col', text, h1, h2⟩ := leads_flow checks hc h (row := row) (out := out)
  refine ⟨row', col', text, ?_, h2⟩
  have h3 : Leads checks [.incrBy 21, .incr, .flow s [], .decrBy 22] (prt cols row 23 0 out)
      (prt cols row' col' 0 (out ++ text)) :=
    .step rfl (incrBy_prt (by omega)) (.step rfl (incr_prt (by omega)) h1)
  simpa [writeLines] using h3

/-- A section that may be missing. -/
theorem leads_optional (checks : Bool) {category s : List Char} {c : Prop} [Decidable c] (hc : 24 ≤ cols)
    (h : WordsFit cols s) (hcat : utf8Len category = category.length)
    (hlen : category.length + 23 ≤ cols) (hs : ¬ c → s ≠ []) (shown : List Char)
    (hshown : shown = if c then [] else s) :
    ∃ row' col' text, Leads checks (if c then [] else [.newline, .newline] ++ writeLines 21 category s true)
        (prt cols row col 0 out) (prt cols row' col' 0 (out ++ text)) ∧ Section cols category shown text := by
  by_cases hcc : c
  · refine ⟨row, col, [], ?_, .inl ⟨by rw [hshown, if_pos hcc], rfl⟩⟩
    rw [if_pos hcc, List.append_nil]
    exact .nil
  · obtain ⟨row', col', text, h1, h2⟩ := leads_section checks hc h hcat hlen (hs hcc) (row := row) (col := col) (out := out)
    refine ⟨row', col', text, ?_, ?_⟩
    · rw [if_neg hcc]; exact h1
    · rw [hshown, if_neg hcc]; exact h2

/-- All texts of the description fit. -/
structure DescriptionFits (cols : Nat) (d : Description) : Prop where
  summary : WordsFit cols d.summary
  details : WordsFit cols d.extraDetails
  operators : WordsFit cols (debugList d.operators)
  examples : WordsFit cols d.examples

theorem leads_describeEntry (checks : Bool) (t : MutationType) (hc : 33 ≤ cols)
    (h : DescriptionFits cols t.description) :
    ∃ row' col' text, Leads checks (describeEntry 21 true t) (prt cols row 1 0 out)
        (prt cols row' col' 0 (out ++ text)) ∧ DescribeEntry cols t text := by
  obtain ⟨r1, c1, t1, l1, f1⟩ := leads_first checks (by omega) h.summary (row := row) (out := out ++ padded t)
  obtain ⟨r2, c2, t2, l2, f2⟩ := leads_optional checks (category := []) (c := t.description.extraDetails = [])
    (by omega) h.details (by decide) (by simp; omega) id (t.description.extraDetails) (by split <;> simp_all)
    (row := r1) (col := c1) (out := out ++ padded t ++ t1)
  obtain ⟨r3, c3, t3, l3, f3⟩ := leads_optional checks (category := (chars! "Operators:")) (c := t.description.operators = [])
    (by omega) h.operators (by decide) (by have : (chars! "Operators:").length = 10 := by decide
                                           omega)
    (by intro _; simp [debugList]) (operatorsText t.description) rfl
    (row := r2) (col := c2) (out := out ++ padded t ++ t1 ++ t2)
  obtain ⟨r4, c4, t4, l4, f4⟩ := leads_optional checks (category := (chars! "Examples:")) (c := t.description.examples = [])
    (by omega) h.examples (by decide) (by have : (chars! "Examples:").length = 9 := by decide
                                          omega) id
    (t.description.examples) (by split <;> simp_all)
    (row := r3) (col := c3) (out := out ++ padded t ++ t1 ++ t2 ++ t3)
  refine ⟨r4, c4, padded t ++ t1 ++ t2 ++ t3 ++ t4, ?_, t1, t2, t3, t4, f1, f2, f3, f4, rfl⟩
  have := ((((leads_name checks t (by omega) (row := row) (out := out)).append l1).append l2).append l3).append l4
  rw [← List.append_assoc, ← List.append_assoc, ← List.append_assoc, ← List.append_assoc]
  show Leads checks (_ ++ if true then [] else _) _ _
  rw [if_pos rfl, List.append_nil]
  exact this

/-- Empty lines. -/
theorem leads_newlines (checks : Bool) (n : Nat) : ∃ row', Leads checks (List.replicate (n + 1) .newline)
    (prt cols row col 0 out) (prt cols row' 1 0 (out ++ List.replicate (n + 1) '\n')) := by
  induction n generalizing row col out with
  | zero => exact ⟨row + 1, .step rfl newline_prt .nil⟩
  | succ n ih =>
    obtain ⟨row', h⟩ := ih (row := row + 1) (col := 1) (out := out ++ ['\n'])
    refine ⟨row', .step rfl newline_prt ?_⟩
    rw [List.append_assoc] at h
    exact h

theorem leads_entries (checks : Bool) (ops : Bool → MutationType → List Op) (P : MutationType → List Char → Prop) (n : Nat)
    (hgap : ∀ t, ops false t = ops true t ++ List.replicate (n + 1) .newline)
    (hentry : ∀ t row out, ∃ row' col' text, Leads checks (ops true t) (prt cols row 1 0 out)
      (prt cols row' col' 0 (out ++ text)) ∧ P t text) (ts : List MutationType) (hne : ts ≠ []) (row : Nat)
    (out : List Char) :
    ∃ row' text, Leads checks (entries ops ts ++ [.newline]) (prt cols row 1 0 out) (prt cols row' 1 0 (out ++ text)) ∧
      Entries P (List.replicate (n + 1) '\n') ts text := by
  induction ts generalizing row out with
  | nil => exact absurd rfl hne
  | cons t ts ih =>
    obtain ⟨r1, c1, t1, l1, f1⟩ := hentry t row out
    cases ts with
    | nil =>
      refine ⟨r1 + 1, t1 ++ ['\n'], ?_, t1, f1, rfl⟩
      rw [← List.append_assoc]
      exact l1.append (.step rfl newline_prt .nil)
    | cons t' ts =>
      obtain ⟨r2, l2⟩ := leads_newlines checks n (row := r1) (col := c1) (out := out ++ t1)
      obtain ⟨r3, rest, l3, f3⟩ := ih (by simp) r2 (out ++ t1 ++ List.replicate (n + 1) '\n')
      refine ⟨r3, t1 ++ List.replicate (n + 1) '\n' ++ rest, ?_, t1, rest, f1, f3, rfl⟩
      rw [entries, hgap, List.append_assoc]
      · have := (l1.append l2).append l3
        simpa [List.append_assoc] using this
      · simp

theorem nameWidth_described (order : List MutationType) (h : order.Perm MutationType.described) :
    nameWidth order = 21 := by
  have key : ∀ (ks : List MutationType) (w : Nat), w ≤ 21 →
      let r := ks.foldl (fun w k => if utf8Len k.toStr.toList > w then utf8Len k.toStr.toList else w) w
      r ≤ 21 ∧ w ≤ r ∧ ∀ k ∈ ks, utf8Len k.toStr.toList ≤ r := by
    intro ks
    induction ks with
    | nil => intro w hw; exact ⟨hw, Nat.le_refl _, by simp⟩
    | cons k ks ih =>
      intro w hw
      have hk := name_length k
      obtain ⟨a, b, c⟩ := ih (if utf8Len k.toStr.toList > w then utf8Len k.toStr.toList else w) (by split <;> omega)
      refine ⟨a, ?_, ?_⟩
      · refine Nat.le_trans ?_ b
        split <;> omega
      · intro k' hk'
        rcases List.mem_cons.1 hk' with rfl | hk'
        · refine Nat.le_trans ?_ b
          split <;> omega
        · exact c k' hk'
  obtain ⟨a, _, c⟩ := key order 0 (Nat.zero_le _)
  have := c .swapLines (h.mem_iff.2 (by decide))
  have := c .swapFunctionArguments (h.mem_iff.2 (by decide))
  have h21 : utf8Len MutationType.swapFunctionArguments.toStr.toList = 21 := by decide +kernel
  unfold nameWidth
  omega

theorem summary_words (t : MutationType) : ∀ w ∈ words t.description.summary, utf8Len w ≤ 15 := by
  cases t <;> decide +kernel

/-- The texts of a description. -/
def texts (d : Description) : List (List Char) :=
  [d.summary, d.extraDetails, (debugList d.operators), d.examples]

theorem described_words (t : MutationType) (s : List Char) (hs : s ∈ texts t.description) (w : List Char)
    (hw : w ∈ words s) : utf8Len w ≤ 16 ∨ utf8Len w = 18 := by
  have key : (texts t.description).all (fun s => (words s).all fun w => utf8Len w ≤ 16 || utf8Len w == 18) = true := by
    cases t <;> decide +kernel
  have := List.all_eq_true.1 (List.all_eq_true.1 key s hs) w hw
  simpa using this

theorem ops_order (order : List MutationType) (h : order.Perm MutationType.described) :
    listOps order = listOps MutationType.described ∧ describeOps order = describeOps MutationType.described := by
  have h1 := (C26_all_algorithms order h).1
  have h2 := nameWidth_described order h
  have h3 := nameWidth_described _ (List.Perm.refl MutationType.described)
  exact ⟨by rw [listOps, listOps, h1, h2, h3], by rw [describeOps, describeOps, h1, h2, h3]⟩

theorem algorithms_order (checks : Bool) (order : List MutationType) (h : order.Perm MutationType.described)
    (cols : Nat) (list describe : Bool) :
    algorithms checks order cols list describe = algorithms checks MutationType.described cols list describe := by
  obtain ⟨h1, h2⟩ := ops_order order h
  unfold algorithms infoOps
  rw [h1, h2]

theorem algorithms_ok {checks : Bool} {order : List MutationType} {list describe : Bool} {q : Printer}
    (h : Leads checks (infoOps order list describe) (prt cols 1 1 0 []) q) :
    algorithms checks order cols list describe = .ok q.out := by
  unfold Leads at h
  unfold algorithms
  rw [new_prt, h]

/-! ## Property C71 -/

/-- **C71: the list of algorithms.** On every terminal of at least 40 columns `mutagenyx algorithms --list` ends.
It has written every algorithm once, in the order of the names, each with its name padded to the margin and the
words of its summary behind the margin, all lines shorter than the terminal is wide. -/
theorem C71_list (checks : Bool) (order : List MutationType) (h : order.Perm MutationType.described) (cols : Nat)
    (hc : 40 ≤ cols) (describe : Bool) :
    ∃ ts out, algorithms checks order cols true describe = .ok out ∧
      ts.Pairwise (fun a b => a.toStr < b.toStr) ∧ (∀ t, t ∈ ts) ∧ Entries (ListEntry cols) ['\n', '\n'] ts out := by
  obtain ⟨_, _, hall, hsort⟩ := C26_all_algorithms order h
  obtain ⟨row', text, h1, h2⟩ := leads_entries checks (listEntry 21) (ListEntry cols) 1
    (fun t => by simp [listEntry, List.replicate])
    (fun t row out => leads_listEntry checks t (by omega) fun w hw => by
      have := summary_words t w hw
      omega)
    (MutationType.getAll order) (by intro h0; have := hall .integer; rw [h0] at this; cases this) 1 []
  refine ⟨MutationType.getAll order, text, ?_, hsort, hall, h2⟩
  have h3 : Leads checks (infoOps order true describe) (prt cols 1 1 0 []) (prt cols row' 1 0 ([] ++ text)) := by
    show Leads checks (entries (listEntry (nameWidth order)) (MutationType.getAll order) ++ [.newline]) _ _
    rw [nameWidth_described order h]
    exact h1
  exact algorithms_ok h3

/-- **C71: the descriptions of the algorithms.** On every terminal of at least 43 columns `mutagenyx algorithms
--describe` ends.  It has written every algorithm once, in the order of the names, each with its name padded to the
margin, its summary, and, as far as they exist, the details, the operators and the examples, all with their words in
order, behind the margin and in lines shorter than the terminal is wide. -/
theorem C71_describe (checks : Bool) (order : List MutationType) (h : order.Perm MutationType.described) (cols : Nat)
    (hc : cols = 41 ∨ 43 ≤ cols) :
    ∃ ts out, algorithms checks order cols false true = .ok out ∧
      ts.Pairwise (fun a b => a.toStr < b.toStr) ∧ (∀ t, t ∈ ts) ∧
      Entries (DescribeEntry cols) ['\n', '\n', '\n'] ts out := by
  obtain ⟨_, _, hall, hsort⟩ := C26_all_algorithms order h
  have fits : ∀ (t : MutationType) s, s ∈ texts t.description → WordsFit cols s := by
    intro t s hs w hw
    have := described_words t s hs w hw
    omega
  obtain ⟨row', text, h1, h2⟩ := leads_entries checks (describeEntry 21) (DescribeEntry cols) 2
    (fun t => by simp [describeEntry, List.replicate])
    (fun t row out => leads_describeEntry checks t (by omega)
      ⟨fits t _ (by simp [texts]), fits t _ (by simp [texts]), fits t _ (by simp [texts]), fits t _ (by simp [texts])⟩)
    (MutationType.getAll order) (by intro h0; have := hall .integer; rw [h0] at this; cases this) 1 []
  refine ⟨MutationType.getAll order, text, ?_, hsort, hall, h2⟩
  have h3 : Leads checks (infoOps order false true) (prt cols 1 1 0 []) (prt cols row' 1 0 ([] ++ text)) := by
    show Leads checks (entries (describeEntry (nameWidth order)) (MutationType.getAll order) ++ [.newline]) _ _
    rw [nameWidth_described order h]
    exact h1
  exact algorithms_ok h3

/-- The run does not end well. -/
def failing : Outcome (List Char) → Bool
  | .ok _ => false
  | _ => true

theorem no_ok {o : Outcome (List Char)} (h : failing o = true) : ¬ ∃ out, o = .ok out := by
  rintro ⟨out, rfl⟩
  cases h

theorem narrow_list : (List.range 40).all (fun c => failing (algorithms true MutationType.described c true true)) = true := by
  decide +kernel

theorem narrow_describe :
    ((List.range 41) ++ [42]).all (fun c => failing (algorithms true MutationType.described c false true)) = true := by
  decide +kernel

theorem list_first (checks : Bool) (order : List MutationType) (cols : Nat) (describe : Bool) :
    algorithms checks order cols true describe = algorithms checks order cols true true := by
  simp only [algorithms, infoOps, if_true]

/-- **C71: the widths are exact**, in a build with overflow checks: on narrower terminals the command crashes or
writes lines without end. -/
theorem C71_widths (order : List MutationType) (h : order.Perm MutationType.described) (cols : Nat) (describe : Bool) :
    ((∃ out, algorithms true order cols true describe = .ok out) ↔ 40 ≤ cols) ∧
      ((∃ out, algorithms true order cols false true = .ok out) ↔ cols = 41 ∨ 43 ≤ cols) := by
  constructor
  · constructor
    · intro he
      by_cases hc : 40 ≤ cols
      · exact hc
      · exfalso
        rw [algorithms_order true order h, list_first] at he
        exact no_ok (List.all_eq_true.1 narrow_list cols (by simp; omega)) he
    · intro hc
      obtain ⟨_, out, h1, _⟩ := C71_list true order h cols hc describe
      exact ⟨out, h1⟩
  · constructor
    · intro he
      by_cases hc : cols = 41 ∨ 43 ≤ cols
      · exact hc
      · exfalso
        rw [algorithms_order true order h] at he
        exact no_ok (List.all_eq_true.1 narrow_describe cols (by simp; omega)) he
    · intro hc
      obtain ⟨_, out, h1, _⟩ := C71_describe true order h cols hc
      exact ⟨out, h1⟩

/-- What is written on a terminal of 80 columns, and without a terminal. -/
example : (match algorithms true MutationType.described 80 true false with
    | .ok out => out.take 121
    | _ => []) = chars! "ArithmeticBinaryOp    Randomly replace the arithmetic operator in a binary \n\
      \x20                     expression.\n\nAssignment" := by
  decide +kernel

/-- On a terminal of 39 columns the summary with the word `non-commutative` is never finished. -/
example : algorithms false MutationType.described 39 true false = .outOfFuel := by decide +kernel

end AlgorithmsInfo
end Mutagenyx
