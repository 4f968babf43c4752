import Verif.Proofs.VyperLayout

/-!
# The logical lines of the layout of a Vyper program
-/

namespace Mutagenyx
namespace VyPrint

open NodePrinter Printer VyGrammar Lex

/-! ### One line -/

/-- The text starts with something. -/
def Heads (t : List Char) : Prop := ∃ c cs, t = c :: cs ∧ c ≠ ' ' ∧ c ≠ '#'

theorem Heads.append {t : List Char} (h : Heads t) (u : List Char) : Heads (t ++ u) := by
  obtain ⟨c, cs, rfl, hc⟩ := h
  exact ⟨c, cs ++ u, rfl, hc⟩

theorem heads_word {t : String} (h : isLeaf t = true) : Heads t.toList := by
  obtain ⟨c, cs, ht, hc, _⟩ := leaf_chars h
  refine ⟨c, cs, ht, ?_, ?_⟩ <;>
  · rintro rfl
    exact absurd hc (by decide)

theorem heads_parens {b : Bool} {t : List Char} (h : Heads t) : Heads (parens b t) := by
  unfold parens
  split
  · exact ⟨'(', _, rfl, by decide⟩
  · exact h

theorem heads_textE : (e : Expr) → Plain e → (d : Nat) → Heads (textE d e)
  | .leaf t, h, d => by
    simp only [Plain] at h
    rw [textE]
    exact heads_word h
  | .str t, _, d => by rw [textE]; exact ⟨'"', _, rfl, by decide⟩
  | .attr e id, h, d => by simp only [Plain] at h; rw [textE]; exact (heads_textE e h.2.2 d).append _
  | .index e is, h, d => by simp only [Plain] at h; rw [textE]; exact (heads_textE e h.2.1 d).append _
  | .call f args, h, d => by simp only [Plain] at h; rw [textE]; exact (heads_textE f h.2.1 d).append _
  | .list es, _, d => by rw [textE]; exact ⟨'[', _, rfl, by decide⟩
  | .dict es, _, d => by rw [textE]; exact ⟨'{', _, rfl, by decide⟩
  | .named k e, h, d => by simp only [Plain] at h; rw [textE]; exact (heads_word (isName_leaf h.1)).append _
  | .entry k v, h, d => by simp only [Plain] at h; rw [textE]; exact (heads_textE k h.2.1 d).append _
  | .bin l o r, h, d => by simp only [Plain] at h; rw [textE]; exact (heads_parens (heads_textE l h.1 d)).append _
  | .not e, _, d => by rw [textE]; exact ⟨'n', _, rfl, by decide⟩
  | .inv e, _, d => by rw [textE]; exact ⟨'~', _, rfl, by decide⟩
  | .neg e, _, d => by rw [textE]; exact ⟨'-', _, rfl, by decide⟩

theorem heads_row {es : List Expr} (h : FineAll es) (hne : es ≠ []) (d : Nat) : Heads (textRow d es) := by
  cases es with
  | nil => exact absurd rfl hne
  | cons e es =>
    rw [textRow]
    exact (heads_textE e (h e (List.mem_cons_self ..)).1 d).append _

theorem heads_simple {x : Simple} (h : x.Ok) (d : Nat) : Heads (textSimple d x) := by
  cases x with
  | expr e => exact heads_textE e h.1 d
  | assign ts vs => exact (heads_row h.2.2.1 h.1 d).append _
  | aug t o v => exact (heads_textE t h.1.1 d).append _
  | ann t ty v => exact (heads_textE t h.1.1 d).append _
  | ret vs => exact ⟨'r', _, rfl, by decide⟩
  | raise e => exact ⟨'r', _, rfl, by decide⟩
  | assert e m => exact ⟨'a', _, rfl, by decide⟩
  | pass => exact ⟨'p', _, rfl, by decide⟩
  | «break» => exact ⟨'b', _, rfl, by decide⟩
  | «continue» => exact ⟨'c', _, rfl, by decide⟩
  | log e => exact ⟨'l', _, rfl, by decide⟩
  | import_ p a => exact ⟨'i', _, rfl, by decide⟩
  | from_ l p n a => exact ⟨'f', _, rfl, by decide⟩

/-- The line matters. -/
def Matter (ts : List String) : Prop := ts ≠ [] ∧ isDoc ts = false ∧ isNote ts = false

theorem matter_long {t u : String} {ts : List String} : Matter (t :: u :: ts) := ⟨by simp, rfl, rfl⟩

theorem matter_append {ts us : List String} (h : ts ≠ []) (hu : us ≠ []) : Matter (ts ++ us) := by
  cases ts with
  | nil => exact absurd rfl h
  | cons t ts =>
    cases ts with
    | nil =>
      cases us with
      | nil => exact absurd rfl hu
      | cons u us => exact matter_long
    | cons u ts => exact matter_long

theorem matter_leaf {t : String} (h : isLeaf t = true) : Matter [t] := by
  obtain ⟨c, cs, ht, hc, _⟩ := leaf_chars h
  refine ⟨by simp, ?_, ?_⟩
  · simp only [isDoc]
    rw [ht]
    split
    · rename_i he
      cases he
      exact absurd hc (by decide)
    · rfl
  · have : c ≠ '#' := by
      rintro rfl
      exact absurd hc (by decide)
    simp [isNote, ht, this]

theorem strE_ne {e : Expr} (h : Plain e) : strE e ≠ [] := by
  obtain ⟨t, ts, h1, _⟩ := strE_cons e h
  rw [h1]
  simp

theorem matter_E {e : Expr} (h : Plain e) : Matter (strE e) := by
  cases e with
  | leaf t => simp only [Plain] at h; rw [strE]; exact matter_leaf h
  | str t =>
    simp only [Plain] at h
    rw [strE]
    have ht : ("\"" ++ t ++ "\"").toList = '"' :: (t.toList ++ ['"']) := by simp
    refine ⟨by simp, ?_, by simp only [isNote, quoted, ht]; rfl⟩
    simp only [isDoc, quoted]
    rw [ht]
    split
    · rename_i he
      exfalso
      cases hl : t.toList with
      | nil => rw [hl] at he; cases he
      | cons c cs =>
        rw [hl] at he
        simp only [List.cons_append, List.cons.injEq, true_and] at he
        have := h c (by rw [hl]; exact List.mem_cons_self ..)
        rw [he.1] at this
        exact absurd this (by decide)
    · rfl
  | attr e id => simp only [Plain] at h; rw [strE]; exact matter_append (strE_ne h.2.2) (by simp)
  | index e is => simp only [Plain] at h; rw [strE]; exact matter_append (strE_ne h.2.1) (by simp)
  | call f args => simp only [Plain] at h; rw [strE]; exact matter_append (strE_ne h.2.1) (by simp)
  | list es => rw [strE]; exact matter_append (ts := ["["]) (by simp) (by simp)
  | dict es => rw [strE]; exact matter_append (ts := ["{"]) (by simp) (by simp)
  | named k e => rw [strE]; exact matter_long
  | entry k v => simp only [Plain] at h; rw [strE]; exact matter_append (strE_ne h.2.1) (by simp)
  | bin l o r =>
    simp only [Plain] at h
    rw [strE]
    obtain ⟨t, ts, hw, _⟩ := words_head o
    refine matter_append ?_ (by rw [hw]; simp)
    unfold wrap
    split
    · simp
    · exact strE_ne h.1
  | not e =>
    simp only [Plain] at h
    rw [strE]
    refine matter_append (ts := ["not"]) (by simp) ?_
    split
    · simp
    · exact strE_ne h.2
  | inv e =>
    simp only [Plain] at h
    rw [strE]
    refine matter_append (ts := ["~"]) (by simp) ?_
    split
    · simp
    · exact strE_ne h.1
  | neg e =>
    simp only [Plain] at h
    obtain ⟨t, rfl, hl⟩ := isNumber_leaf h
    rw [strE, strE]
    exact matter_long

theorem strArgs_ne {es : List Expr} (h : FineAll es) (hne : es ≠ []) : strArgs es ≠ [] := by
  cases es with
  | nil => exact absurd rfl hne
  | cons e es =>
    rw [strArgs]
    simp [strE_ne (h e (List.mem_cons_self ..)).1]

theorem matter_key {t : String} (h : t.toList.head? ≠ some '"' ∧ t.toList.head? ≠ some '#') (ts : List String) : Matter (t :: ts) := by
  cases ts with
  | cons _ _ => exact matter_long
  | nil =>
    refine ⟨by simp, ?_, by simpa [isNote] using h.2⟩
    simp only [isDoc]
    split
    · rename_i he
      rw [he] at h
      exact absurd rfl h.1
    · rfl

theorem matter_simple {x : Simple} (h : x.Ok) : Matter (strSimple x) := by
  cases x with
  | expr e => exact matter_E h.1
  | assign ts vs => exact matter_append (strArgs_ne h.2.2.1 h.1) (by simp)
  | aug t o v => exact matter_append (strE_ne h.1.1) (by simp)
  | ann t ty v => exact matter_append (strE_ne h.1.1) (by simp)
  | _ => exact matter_key (by decide) _

/-! ### Rows -/

/-- The text, if a line break follows, has these lines. -/
structure Rows (t : List Char) (L : List Line) : Prop where
  logical : ∀ rest, logical (t ++ '\n' :: rest) = L.filter isCode ++ logical rest
  whole : ∀ rest, wholeLines (t ++ '\n' :: rest) = L ++ wholeLines rest

theorem Rows.append {t u : List Char} {L M : List Line} (h : Rows t L) (h' : Rows u M) : Rows (t ++ '\n' :: u) (L ++ M) := by
  constructor
  · intro rest
    have := h.logical (u ++ '\n' :: rest)
    rw [h'.logical rest] at this
    simpa using this
  · intro rest
    have := h.whole (u ++ '\n' :: rest)
    rw [h'.whole rest] at this
    simpa using this

theorem logical_line {s : Scanner} {l : List Char} (h : pass {} l = some s) (hs : s.ends = true) (rest : List Char) :
    logical (l ++ '\n' :: rest) = (if matters (VyGrammar.lineOf l) then [VyGrammar.lineOf l] else []) ++ logical rest := by
  unfold VyGrammar.logical
  rw [cutLines_pass h]
  simp only [List.nil_append, cutLines, hs, and_self, if_true, List.map_cons, List.filter_cons]
  split <;> simp

theorem whole_line {s : Scanner} {l : List Char} (h : pass {} l = some s) (hs : s.ends = true) (rest : List Char) :
    wholeLines (l ++ '\n' :: rest) = (if (wholeLine l).2.isEmpty then [] else [wholeLine l]) ++ wholeLines rest := by
  unfold wholeLines
  rw [cutLines_pass h]
  simp only [List.nil_append, cutLines, hs, and_self, if_true, List.map_cons, List.filter_cons]
  cases (wholeLine l).2.isEmpty <;> simp

/-- A line that the scanner passes. -/
theorem rows_of {s : Scanner} {l : List Char} {L : List Line} (h : pass {} l = some s) (hs : s.ends = true)
    (h1 : (if matters (VyGrammar.lineOf l) then [VyGrammar.lineOf l] else []) = L.filter isCode)
    (h2 : (if (wholeLine l).2.isEmpty then [] else [wholeLine l]) = L) : Rows l L where
  logical rest := by rw [logical_line h hs, h1]
  whole rest := by rw [whole_line h hs, h2]

theorem dropWhile_blanks (d : Nat) {t : List Char} (h : t.head? ≠ some ' ') : (blanks d ++ t).dropWhile (· == ' ') = t := by
  unfold blanks
  rw [List.dropWhile_append_of_pos (by
    intro a ha
    rw [List.eq_of_mem_replicate ha]
    decide)]
  cases t with
  | nil => rfl
  | cons c cs => simp_all

theorem wholeLine_code {d : Nat} {t : List Char} (h : t.head? ≠ some ' ' ∧ t.head? ≠ some '#') :
    wholeLine (blanks d ++ t) = VyGrammar.lineOf (blanks d ++ t) := by
  unfold wholeLine
  rw [dropWhile_blanks d h.1]
  split
  · exact absurd rfl h.2
  · rfl

theorem Heads.head {t : List Char} (h : Heads t) : t.head? ≠ some ' ' ∧ t.head? ≠ some '#' := by
  obtain ⟨c, cs, rfl, hc⟩ := h
  simpa using hc

theorem tokens_nil : VyGrammar.tokens [] = [] := rfl

theorem rows_nil : Rows [] [] := by
  exact rows_of (s := {}) rfl (by decide) (by simp [matters, VyGrammar.lineOf, tokens_nil])
    (by simp [wholeLine, VyGrammar.lineOf, tokens_nil])

theorem ready_ends {b : Bool} {s : Scanner} (h : Ready b 0 s) : s.ends = true := by
  rcases h with rfl | ⟨_, rfl⟩ <;> decide

theorem takeWhile_blanks {d : Nat} {t : List Char} (h : Heads t) : ((blanks d ++ t).takeWhile (· == ' ')).length = 4 * d := by
  obtain ⟨c, cs, rfl, hc, _⟩ := h
  unfold blanks
  rw [List.takeWhile_append_of_pos (by
    intro a ha
    rw [List.eq_of_mem_replicate ha]
    decide)]
  simp [hc]

theorem tokens_blanks (d : Nat) (t : List Char) : VyGrammar.tokens (blanks d ++ t) = VyGrammar.tokens t :=
  tokens_gap (fun _ hc => Or.inl (List.eq_of_mem_replicate hc)) t

theorem rows_line {q p : Bool} {d e : Nat} {ops : List Op} {t : List Char} {ts : List String} {P : Char → Prop}
    (h : Part q p e ops t ts P) (hh : Heads t) (hm : Matter ts) : Rows (blanks d ++ t) [(4 * d, ts)] := by
  obtain ⟨s1, h1, h2⟩ := scans_blanks (m := 0) (d := d) 0 {} (by omega) (ready_code 0)
  obtain ⟨s, h3, h4⟩ := h.scans 0 s1 (by omega) (h2.mono (by simp))
  have h5 : pass {} (blanks d ++ t) = some s := by rw [pass_append h1, h3]
  have h6 : VyGrammar.lineOf (blanks d ++ t) = (4 * d, ts) := by
    unfold VyGrammar.lineOf
    have := h.lex [] next_nil
    rw [tokens_nil, List.append_nil, List.append_nil] at this
    rw [takeWhile_blanks hh, tokens_blanks, this]
  have h7 : ts.isEmpty = false := by simpa using hm.1
  refine rows_of h5 (ready_ends h4) ?_ ?_
  · rw [h6]
    simp [matters, isCode, hm.2.1, hm.2.2, h7]
  · rw [wholeLine_code hh.head, h6]
    simp [h7]

theorem rows_comment {t : List Char} (hn : '\n' ∉ t) (d : Nat) : Rows (blanks d ++ '#' :: ' ' :: t) [(4 * d, [String.ofList ('#' :: ' ' :: t)])] := by
  have hn' : ∀ c ∈ ' ' :: t, c ≠ '\n' := by
    intro c hc
    rcases List.mem_cons.1 hc with rfl | hc
    · decide
    · rintro rfl
      exact hn hc
  obtain ⟨s1, h1, h2⟩ := scans_blanks (m := 0) (d := d) 0 {} (by omega) (ready_code 0)
  have key : ∀ u : List Char, (∀ c ∈ u, c ≠ '\n') → pass ⟨0, .note⟩ u = some ⟨0, .note⟩ := by
    intro u
    induction u with
    | nil => intro _; rfl
    | cons c u ih =>
      intro hu
      have hc := hu c (List.mem_cons_self ..)
      simp only [pass, hc, false_and, if_false, Scanner.step]
      exact ih fun x hx => hu x (List.mem_cons_of_mem _ hx)
  have h3 : pass s1 ('#' :: ' ' :: t) = some ⟨0, .note⟩ := by
    have hs : s1.step '#' = ⟨0, .note⟩ := by
      rw [step_ready h2 (by decide)]
      simp [codeStep]
    rw [pass, if_neg (fun h => absurd h.1 (by decide)), hs]
    exact key _ hn'
  have h5 : pass {} (blanks d ++ '#' :: ' ' :: t) = some ⟨0, .note⟩ := by rw [pass_append h1, h3]
  have hsol : ∀ u cur : List Char, (∀ c ∈ u, c ≠ '\n') → cur.head? = some '#' → solid lexer cur u = true := by
    intro u
    induction u with
    | nil => intros; rfl
    | cons c u ih =>
      intro cur hu hcur
      cases cur with
      | nil => cases hcur
      | cons x cur =>
        cases hcur
        have hc := hu c (List.mem_cons_self ..)
        simp only [solid, lexer, List.isEmpty_cons, Bool.false_eq_true, if_false, Bool.and_eq_true]
        refine ⟨?_, ih _ (fun x hx => hu x (List.mem_cons_of_mem _ hx)) rfl⟩
        simp [joins, wordChar, hc]
  have h6 : VyGrammar.tokens ('#' :: ' ' :: t) = [] := by
    have hs : solid lexer [] ('#' :: ' ' :: t) = true := by
      simp only [solid, List.isEmpty_nil, if_true]
      exact Bool.and_eq_true_iff.2 ⟨by decide, hsol t _ (fun c hc => hn' c (List.mem_cons_of_mem _ hc)) rfl⟩
    have := tokens_solid hs []
    rw [List.append_nil] at this
    unfold VyGrammar.tokens
    rw [this]
    simp [Lex.tokens, emit, lexer, VyGrammar.comment]
  refine rows_of h5 (by decide) ?_ ?_
  · simp [matters, VyGrammar.lineOf, tokens_blanks, h6, isCode, isNote]
  · unfold wholeLine
    rw [dropWhile_blanks d (by simp)]
    have h7 : ((blanks d ++ '#' :: ' ' :: t).takeWhile (· == ' ')).length = 4 * d := by
      unfold blanks
      rw [List.takeWhile_append_of_pos (by
        intro a ha
        rw [List.eq_of_mem_replicate ha]
        decide)]
      simp
    simp only [h7]
    rfl

end VyPrint
end Mutagenyx
