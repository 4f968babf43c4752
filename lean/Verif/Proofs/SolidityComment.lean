import Verif.Proofs.SolidityDoc

/-!
# Comments on lines of their own have no tokens
-/

namespace Mutagenyx
namespace SolPrint

open NodePrinter SolGrammar Printer Lex

theorem tokens_lineComment {t w rest : List Char} (ht : '\n' ∉ t) (hw : isGap w) :
    Lex.tokens lexer ('/' :: '/' :: (t ++ (w ++ '\n' :: rest))) [] = Lex.tokens lexer rest [] := by
  have hsolid : ∀ (u cur : List Char), '\n' ∉ u → solid lexer ('/' :: '/' :: cur) u = true := by
    intro u
    induction u with
    | nil => intros; rfl
    | cons c u ih =>
      intro cur hu
      simp only [List.mem_cons, not_or] at hu
      simp only [solid, List.isEmpty_cons, Bool.false_eq_true, if_false, Bool.and_eq_true]
      refine ⟨?_, ih (cur ++ [c]) hu.2⟩
      show joins ('/' :: '/' :: cur) c = true
      have := hu.1
      simp [joins, wordChar, Ne.symm this]
  have hend : ∀ (cur cs : List Char), Lex.tokens lexer ('\n' :: cs) ('/' :: '/' :: cur) = Lex.tokens lexer cs [] := by
    intro cur cs
    have hj : lexer.joins ('/' :: '/' :: cur) '\n' = false := by
      show joins ('/' :: '/' :: cur) '\n' = false
      simp [joins, wordChar]
    rw [Lex.tokens, if_neg (fun h => by rw [hj] at h; cases h.2)]
    simp [emit, lexer, SolGrammar.comment, blank]
  have hgap : ∀ (w cur : List Char), isGap w →
      Lex.tokens lexer (w ++ '\n' :: rest) ('/' :: '/' :: cur) = Lex.tokens lexer rest [] := by
    intro w
    induction w with
    | nil => intro cur _; exact hend cur rest
    | cons c w ih =>
      intro cur hw
      have hw' : isGap w := fun d hd => hw d (List.mem_cons_of_mem _ hd)
      rcases hw c (List.mem_cons_self ..) with rfl | rfl
      · have := tokens_solid (hsolid [' '] cur (by decide)) (w ++ '\n' :: rest)
        rw [List.cons_append]
        rw [List.cons_append, List.nil_append] at this
        rw [this]
        exact ih (cur ++ [' ']) hw'
      · rw [List.cons_append, hend, tokens_gap hw']
        simp [Lex.tokens, blank, emit]
  have h1 : solid lexer [] ('/' :: '/' :: t) = true := by
    have := hsolid t [] ht
    have h2 : joins ['/'] '/' = true := by decide
    have h3 : blank '/' = false := by decide
    simpa [solid, lexer, h2, h3] using this
  have := tokens_solid h1 (w ++ '\n' :: rest)
  simp only [List.cons_append, List.nil_append] at this
  rw [this]
  exact hgap w t hw

/-- The text begins with the end of a line. -/
def EndsLine (rest : List Char) : Prop := ∃ w u, isGap w ∧ rest = w ++ '\n' :: u

theorem tokens_endsLine {t rest : List Char} (ht : '\n' ∉ t) (hr : EndsLine rest) :
    Lex.tokens lexer ('/' :: '/' :: (t ++ rest)) [] = Lex.tokens lexer rest [] := by
  obtain ⟨w, u, hw, rfl⟩ := hr
  rw [tokens_lineComment ht hw, tokens_gap hw]
  simp [Lex.tokens, blank, emit]

theorem flattened_no_newline (s : List Char) : '\n' ∉ flattened s := by
  intro h
  have := mem_collapse _ _ h
  simp only [List.mem_map] at this
  obtain ⟨c, _, hc⟩ := this
  split at hc
  · cases hc
  · contradiction

/-- However the text of a comment is broken, all its lines are comments. -/
theorem tokens_flows {s w : List Char} (hf : Flows ['/', '/', ' '] s w) {rest : List Char} (hr : EndsLine rest) :
    ∀ pre, '\n' ∉ pre → Lex.tokens lexer ('/' :: '/' :: (pre ++ (w ++ rest))) [] = Lex.tokens lexer rest [] := by
  have broken : ∀ {a w text pre : List Char}, '\n' ∉ a → '\n' ∉ pre → isGap w →
      (∀ pre, '\n' ∉ pre → Lex.tokens lexer ('/' :: '/' :: (pre ++ (text ++ rest))) [] = Lex.tokens lexer rest []) →
      Lex.tokens lexer ('/' :: '/' :: (pre ++ (a ++ (w ++ (['/', '/', ' '] ++ text)) ++ rest))) [] = Lex.tokens lexer rest [] := by
    intro a w text pre ha hpre hw ih
    by_cases hn : '\n' ∈ w
    · obtain ⟨w1, w2, rfl⟩ := List.append_of_mem hn
      have h1 := tokens_lineComment (t := pre ++ a) (w := w1) (rest := w2 ++ ('/' :: '/' :: ([' '] ++ (text ++ rest)))) (by simp [ha, hpre])
        (fun c hc => hw c (by simp [hc]))
      rw [tokens_gap (fun c hc => hw c (by simp [hc])), ih [' '] (by decide)] at h1
      rw [← h1]
      simp
    · have := ih (pre ++ (a ++ (w ++ ['/', '/', ' ']))) (by simp [ha, hpre, hn])
      rw [← this]
      simp
  induction hf with
  | last s =>
    intro pre hp
    have := tokens_endsLine (t := pre ++ flattened s) (by simp [hp, flattened_no_newline]) hr
    simpa using this
  | broken he hw _ ih =>
    intro pre hp
    refine broken (fun h => ?_) hp hw ih
    have := flattened_no_newline _ ((congrArg ('\n' ∈ ·) he).mpr (by simp [h]))
    exact this
  | before hw _ ih =>
    intro pre hp
    exact broken (a := []) (by simp) hp hw ih

/-- The calls write whole lines with these tokens. -/
def Rows (flows : Bool) (ops : List Op) (ts : List String) : Prop :=
  Written flows ops ∧ ∀ text rest, Spread ops text → EndsLine rest →
    Lex.tokens lexer (text ++ rest) [] = ts ++ Lex.tokens lexer rest []

theorem endsLine_newline {ops : List Op} {text : List Char} (h : Spread (.newline :: ops) text) (rest : List Char) :
    EndsLine (text ++ rest) := by
  cases h with
  | newline w hw _ h => exact ⟨w, _, hw, by simp; rfl⟩
  | lineComment w v hw _ h => exact ⟨w, _, hw, by simp; rfl⟩

theorem rows_chunk {flows : Bool} {ops : List Op} {ts : List String} {q p : Edge} (h : Chunk flows ops ts q p) : Rows flows ops ts := by
  refine ⟨h.1, fun text rest hs ⟨w, u, hw, hr⟩ => ?_⟩
  refine (h.2 text rest hs ?_).1
  rw [hr]
  refine next_gap hw fun c cs hc => ?_
  cases hc
  exact Or.inl rfl

/-- A comment. -/
theorem rows_comment {t : List Char} {ops : List Op} (ho : ops = [] ∨ ops = [.flow t ['/', '/', ' ']]) :
    Rows true (.newline :: .indent :: .token ['/', '/'] :: .space :: ops) [] := by
  refine ⟨fun o h => ?_, fun text rest hs hr => ?_⟩
  · simp only [List.mem_cons] at h
    rcases h with rfl | rfl | rfl | rfl | h
    · simp
    · simp
    · simp
    · simp
    · rcases ho with rfl | rfl
      · simp at h
      · simp only [List.mem_singleton] at h
        simp [h]
  · cases hs with
    | newline w hw hl h => exact absurd ⟨_, rfl⟩ hl
    | lineComment w v hw hv h =>
      rw [List.append_assoc, tokens_gap hw]
      simp only [List.cons_append, List.append_assoc]
      have hb : ∀ cs, Lex.tokens lexer ('\n' :: cs) [] = Lex.tokens lexer cs [] := fun cs => by simp [Lex.tokens, blank, emit]
      rw [hb, tokens_gap hv, List.nil_append]
      rcases ho with rfl | rfl
      · cases h
        exact tokens_endsLine (t := [' ']) (by decide) hr
      · cases h with
        | flow hf h =>
          cases h
          rw [List.append_nil]
          exact tokens_flows hf hr [' '] (by decide)

theorem rows_append {flows : Bool} {a b : List Op} {ts us : List String} (ha : Rows flows a ts) (hb : Rows flows (.newline :: b) us) :
    Rows flows (a ++ .newline :: b) (ts ++ us) := by
  refine ⟨ha.1.append hb.1, fun text rest hs hr => ?_⟩
  obtain ⟨x, y, rfl, h1, h2⟩ := spread_append hs
  rw [List.append_assoc, ha.2 x (y ++ rest) h1 (endsLine_newline h2 rest), hb.2 y rest h2 hr, List.append_assoc]

variable {m : Mode}

/-- The node is printed on lines of its own, as text with these tokens. -/
def Row (m : Mode) (s : PrintSettings) (j : Json) (ts : List String) : Prop :=
  Rows m.flows (.newline :: .indent :: printOps m.checks s j) ts

theorem row_prints {s : PrintSettings} {j : Json} {ts : List String} {q : Edge} (h : Prints m s j ts q) : Row m s j ts := by
  have := (chunk_newline (flows := m.flows)).append (s := .any) ((chunk_indent (q := .any)).append h)
  exact rows_chunk this

theorem row_comment {s : PrintSettings} {j : Json} {t : String} (h : IsA "Comment" j) (h1 : j.getStrForKey "text" = some t)
    (h2 : Json.field? "value" j = none) (hf : m.flows = true) : Row m s j [] := by
  unfold IsA at h
  unfold Row
  rw [printOps_of (body := comment s j) (by simp [layout, h]), hf]
  simp only [comment, field, onField, onStr, h1, h2, onSome, List.append_nil]
  by_cases ht : t.toList.isEmpty
  · simpa [ht, when, expand, tok, sp] using rows_comment (t := []) (Or.inl rfl)
  · simpa [ht, when, expand, tok, sp] using rows_comment (Or.inr rfl)

/-- Lines behind which there is the end of the line. -/
theorem rows_newline {flows : Bool} {ops : List Op} {ts : List String} (h : Rows flows ops ts) :
    Chunk flows (ops ++ [.newline]) ts .any .any := by
  have hn := chunk_newline (flows := flows)
  refine ⟨h.1.append hn.1, fun text rest hs hr => ?_⟩
  obtain ⟨x, y, rfl, h1, h2⟩ := spread_append hs
  rw [List.append_assoc, h.2 x _ h1 (endsLine_newline h2 rest), (hn.2 y rest h2 hr).1, List.nil_append]
  exact ⟨rfl, fun c _ _ => by cases hb : blank c <;> simp [Edge.allows, Any]⟩

/-- Lines one after another. -/
theorem rows_all {s : PrintSettings} : (js : List Json) → (tss : List (List String)) →
    Pairwise₂ (fun ts x => Row m s x ts) tss js →
    Rows m.flows (js.flatMap fun j => .newline :: .indent :: printOps m.checks s j) tss.flatten
  | [], [], _ => ⟨fun _ h => by simp at h, fun text rest hs _ => by cases hs; rfl⟩
  | [], _ :: _, h => h.elim
  | _ :: _, [], h => h.elim
  | [j], [ts], h => by simpa [Row] using h.1
  | [j], ts :: us :: tss, h => h.2.elim
  | j :: k :: js, ts :: tss, h => by
    have ih := rows_all (k :: js) tss h.2
    rw [List.flatMap_cons] at ih ⊢
    exact rows_append h.1 ih

theorem expand_rows {s : PrintSettings} : (js : List Json) → (i len : Nat) → i + js.length = len → js ≠ [] →
    expand m.checks (printOps m.checks) (nl ++ arrayLoop (fun n => ind ++ [.sub s n]) nl len i js) =
      js.flatMap fun j => .newline :: .indent :: printOps m.checks s j
  | [], _, _, _, h => absurd rfl h
  | [j], i, len, h, _ => by
    have hn : ¬ i < len - 1 := by simp at h; omega
    simp [arrayLoop, when, hn, nl, ind, expand]
  | j :: k :: js, i, len, h, _ => by
    have hn : i < len - 1 := by simp at h; omega
    have ih := expand_rows (s := s) (k :: js) (i + 1) len (by simp at h ⊢; omega) (by simp)
    rw [List.flatMap_cons, ← ih, arrayLoop]
    simp only [when, hn, decide_true, if_true]
    simp [nl, ind, expand]

/-- The statements of a block. -/
theorem c_rows {j : Json} {js : List Json} {tss : List (List String)} (hj : Json.field? "statements" j = some (.arr js))
    (h : Pairwise₂ (fun ts x => Row m {} x ts) tss js) : PC m (statements {} j) tss.flatten .any .any := by
  refine c_onArray hj ?_
  simp only [Bool.false_eq_true, and_false, if_false]
  cases js with
  | nil =>
    cases tss with
    | nil => exact c_nil
    | cons => exact h.elim
  | cons k ks =>
    simp only [List.isEmpty_cons, Bool.not_false, when, if_true]
    have hr := rows_all (s := {}) (k :: ks) tss h
    have he := expand_rows (m := m) (s := {}) (k :: ks) 0 (k :: ks).length (by simp) (by simp)
    rw [← he] at hr
    have c2 : PC m (dec ++ nl ++ ind) [] .any .any := (c_dec +++ c_nl +++ c_ind).cast (by simp)
    have c3 : PC m ((nl ++ arrayWith (fun n => ind ++ [.sub ({} : PrintSettings) n]) nl (k :: ks)) ++ (dec ++ nl ++ ind)) tss.flatten .any .any := by
      unfold PC at c2 ⊢
      rw [expand_append]
      refine ⟨hr.1.append c2.1, fun text rest hs hn => ?_⟩
      obtain ⟨x, y, rfl, h1, h2⟩ := spread_append hs
      have he : EndsLine (y ++ rest) := by
        have h3 := h2
        simp only [dec, nl, ind, List.cons_append, List.nil_append, expand] at h3
        cases h3 with
        | decr h3 => exact endsLine_newline h3 rest
      refine ⟨?_, fun c _ _ => by cases hb : blank c <;> simp [Edge.allows, Any]⟩
      rw [List.append_assoc, hr.2 x _ h1 he, (c2.2 y rest h2 hn).1, List.nil_append]
    have := c_inc +++ c3
    simpa using this

end SolPrint
end Mutagenyx
