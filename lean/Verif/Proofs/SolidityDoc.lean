import Verif.Proofs.SolidityChunk

/-!
# Documentation is printed as one comment
-/

namespace Mutagenyx
namespace SolPrint

open NodePrinter SolGrammar Printer Lex

/-! ### The end of a comment -/

theorem inComment_cons (c : Char) (cs : List Char) :
    inComment (c :: cs) = (!(c == '*' && cs.head? == some '/') && inComment cs) := by
  rw [inComment.eq_def]
  split
  · rename_i he
    cases he
    simp
  · rename_i hne he
    cases he
    have : (c == '*' && cs.head? == some '/') = false := by
      rw [Bool.eq_false_iff]
      intro hb
      simp only [Bool.and_eq_true, beq_iff_eq] at hb
      obtain ⟨rfl, hb⟩ := hb
      cases cs with
      | nil => cases hb
      | cons d ds => cases hb; exact hne ds rfl rfl
    simp [this]
  · rename_i he; cases he

theorem inComment_split {a b : List Char} (h : inComment (a ++ b) = true) : inComment a = true ∧ inComment b = true := by
  induction a with
  | nil => exact ⟨rfl, h⟩
  | cons c a ih =>
    rw [List.cons_append, inComment_cons, Bool.and_eq_true] at h
    obtain ⟨h1, h2⟩ := ih h.2
    refine ⟨?_, h2⟩
    rw [inComment_cons, h1, Bool.and_true]
    cases a with
    | nil => simp
    | cons d a => exact h.1

/-- The text neither has the end of a comment in it nor makes one with a `*` before it. -/
def Closed (b : List Char) : Prop := inComment b = true ∧ b.head? ≠ some '/'

theorem inComment_append {a b : List Char} (ha : inComment a = true) (hb : Closed b) : inComment (a ++ b) = true := by
  induction a with
  | nil => exact hb.1
  | cons c a ih =>
    rw [inComment_cons, Bool.and_eq_true] at ha
    rw [List.cons_append, inComment_cons, ih ha.2, Bool.and_true]
    cases a with
    | nil =>
      have := hb.2
      simp only [List.nil_append, Bool.not_eq_true', Bool.and_eq_false_iff, beq_eq_false_iff_ne]
      exact Or.inr this
    | cons d a => exact ha.1

theorem Closed.append {a b : List Char} (ha : Closed a) (hb : Closed b) : Closed (a ++ b) := by
  refine ⟨inComment_append ha.1 hb, ?_⟩
  cases a with
  | nil => exact hb.2
  | cons c a => exact ha.2

theorem closed_cons {c : Char} {b : List Char} (hc : c = ' ' ∨ c = '\n') (hb : inComment b = true) : Closed (c :: b) := by
  rcases hc with rfl | rfl <;> exact ⟨by rw [inComment_cons, hb]; simp, by simp⟩

theorem closed_star {b : List Char} (hb : Closed b) : Closed ('*' :: b) := by
  refine ⟨?_, by simp⟩
  rw [inComment_cons, hb.1, Bool.and_true]
  have := hb.2
  simp only [Bool.not_eq_true', Bool.and_eq_false_iff, beq_eq_false_iff_ne]
  exact Or.inr this

theorem closed_gap {w : List Char} (h : isGap w) : Closed w := by
  induction w with
  | nil => exact ⟨rfl, by simp⟩
  | cons c w ih => exact closed_cons (h c (List.mem_cons_self ..)) (ih fun d hd => h d (List.mem_cons_of_mem _ hd)).1

theorem closed_sp {w text : List Char} {c : Char} (hw : isGap w) (hc : c = ' ' ∨ c = '\n') (h : inComment text = true) :
    Closed (w ++ c :: text) := (closed_gap hw).append (closed_cons hc h)

theorem inComment_infix {t : List Char} : inComment t = true ↔ ¬ ['*', '/'] <:+: t := by
  constructor
  · rintro h ⟨a, b, rfl⟩
    have := (inComment_split (inComment_split (a := a ++ ['*', '/']) h).1).2
    exact absurd this (by decide)
  · intro h
    induction t with
    | nil => rfl
    | cons c t ih =>
      rw [inComment_cons, ih fun hi => h (List.infix_cons hi), Bool.and_true, Bool.not_eq_true', Bool.eq_false_iff]
      intro hb
      simp only [Bool.and_eq_true, beq_iff_eq] at hb
      obtain ⟨rfl, hb⟩ := hb
      cases t with
      | nil => cases hb
      | cons d t => cases hb; exact h ⟨[], t, rfl⟩

/-! ### Flowable text in a comment -/

theorem collapse_head : (t : List Char) → (Text.collapse t).head? = t.head?
  | [] => rfl
  | [_] => rfl
  | c :: d :: t => by
    unfold Text.collapse
    split
    · rename_i h
      rw [collapse_head (d :: t), h.1, h.2]
      rfl
    · rfl

theorem inComment_collapse : (t : List Char) → inComment t = true → inComment (Text.collapse t) = true
  | [], _ => rfl
  | [_], h => h
  | c :: d :: t, h => by
    have ih := inComment_collapse (d :: t)
    rw [inComment_cons, Bool.and_eq_true] at h
    unfold Text.collapse
    split
    · exact ih h.2
    · rw [inComment_cons, ih h.2, collapse_head, Bool.and_true]
      exact h.1

theorem inComment_flattened {t : List Char} (h : inComment t = true) : inComment (flattened t) = true := by
  refine inComment_collapse _ ?_
  induction t with
  | nil => rfl
  | cons c t ih =>
    rw [inComment_cons, Bool.and_eq_true] at h
    rw [List.map_cons, inComment_cons, ih h.2, Bool.and_true]
    have h1 := h.1
    simp only [Bool.not_eq_true', Bool.and_eq_false_iff, beq_eq_false_iff_ne] at h1 ⊢
    rcases h1 with h1 | h1
    · refine Or.inl ?_
      split
      · decide
      · exact h1
    · refine Or.inr ?_
      cases t with
      | nil => simp
      | cons d t =>
        simp only [List.map_cons, List.head?_cons, ne_eq, Option.some.injEq] at h1 ⊢
        split
        · decide
        · exact h1

theorem inComment_flows {s text : List Char} (h : Flows " *   ".toList s text) (hs : inComment s = true) :
    inComment text = true := by
  have next : ∀ {t : List Char}, inComment t = true → Closed (" *   ".toList ++ t) := by
    intro t ht
    have h1 := closed_cons (Or.inl rfl) ((closed_cons (Or.inl rfl) ht).1)
    exact closed_cons (Or.inl rfl) (closed_star (closed_cons (Or.inl rfl) h1.1)).1
  induction h with
  | last s => exact inComment_flattened hs
  | broken he hw _ ih =>
    have h1 := inComment_split (he ▸ inComment_flattened hs)
    refine inComment_append h1.1 ((closed_gap hw).append (next (ih ?_)))
    rw [inComment_cons, Bool.and_eq_true] at h1
    exact h1.2.2
  | before hw _ ih => exact ((closed_gap hw).append (next (ih (inComment_flattened hs)))).1

theorem splitLines_infix : (t : List Char) → ∀ l ∈ splitLines t, inComment t = true → inComment l = true
  | [], l, hl, _ => by
    simp only [splitLines, List.mem_singleton] at hl
    subst hl
    rfl
  | c :: t, l, hl, h => by
    have h0 := h
    rw [inComment_cons, Bool.and_eq_true] at h
    have ih := splitLines_infix t
    rw [splitLines] at hl
    split at hl
    · rcases List.mem_cons.1 hl with rfl | hl
      · rfl
      · exact ih l hl h.2
    · have key : ∀ t, ∃ l ls, splitLines t = l :: ls ∧ (l.head? = none ∨ l.head? = t.head?) := by
        intro t
        cases t with
        | nil => exact ⟨[], [], rfl, Or.inl rfl⟩
        | cons d t =>
          rw [splitLines]
          split
          · exact ⟨[], _, rfl, Or.inl rfl⟩
          · cases splitLines t with
            | nil => exact ⟨_, _, rfl, Or.inr rfl⟩
            | cons m ms => exact ⟨_, _, rfl, Or.inr rfl⟩
      obtain ⟨m, ms, hm, hh⟩ := key t
      rw [hm] at hl ih
      rcases List.mem_cons.1 hl with rfl | hl
      · rw [inComment_cons, ih m (List.mem_cons_self ..) h.2, Bool.and_true]
        rcases hh with hh | hh
        · rw [hh]; simp
        · rw [hh]; exact h.1
      · exact ih l (List.mem_cons_of_mem _ hl) h.2

/-! ### One comment -/

theorem tokens_comment {t rest : List Char} (h : inComment t = true) :
    Lex.tokens lexer ('/' :: '*' :: (t ++ '*' :: '/' :: rest)) [] = Lex.tokens lexer rest [] := by
  have hstar : inComment (t ++ ['*']) = true := inComment_append h ⟨by decide, by decide⟩
  have hs : solid lexer [] ('/' :: '*' :: (t ++ ['*', '/'])) = true := by
    have h1 : solid lexer ('/' :: '*' :: []) ((t ++ ['*']) ++ ['/']) = true := by
      have key : ∀ (u cur : List Char), inComment (cur ++ u) = true → solid lexer ('/' :: '*' :: cur) (u ++ ['/']) = true := by
        intro u
        induction u with
        | nil =>
          intro cur hc
          have hj : joins ('/' :: '*' :: cur) '/' = true := by simpa [joins, wordChar] using hc
          simp [solid, lexer, hj]
        | cons c u ih =>
          intro cur hc
          simp only [List.cons_append, solid, List.isEmpty_cons, Bool.false_eq_true, if_false, Bool.and_eq_true]
          refine ⟨?_, ?_⟩
          · show joins ('/' :: '*' :: cur) c = true
            simpa [joins, wordChar] using (inComment_split hc).1
          · have := ih (cur ++ [c]) (by simpa using hc)
            simpa using this
      exact key (t ++ ['*']) [] hstar
    have h2 : joins ['/'] '*' = true := by decide
    have h3 : blank '/' = false := by decide
    simpa [solid, lexer, h2, h3] using h1
  have h1 := tokens_solid hs rest
  have he : '/' :: '*' :: (t ++ '*' :: '/' :: rest) = ('/' :: '*' :: (t ++ ['*', '/'])) ++ rest := by simp
  rw [he, h1, List.nil_append]
  have hend : ∀ c, joins ('/' :: '*' :: (t ++ ['*', '/'])) c = false := by
    intro c
    have : inComment (t ++ ['*', '/']) = false := by
      rw [Bool.eq_false_iff]
      intro hb
      exact absurd (inComment_split hb).2 (by decide)
    simpa [joins, wordChar] using this
  have hm : emit lexer ('/' :: '*' :: (t ++ ['*', '/'])) = [] := by simp [emit, lexer, SolGrammar.comment]
  cases rest with
  | nil => simpa [Lex.tokens, emit] using hm
  | cons c cs =>
    rw [Lex.tokens, if_neg (fun h2 => by have := h2.2; rw [show lexer.joins = joins from rfl, hend] at this; cases this), hm, Lex.tokens]
    simp [emit]

/-- What is printed for a line of documentation. -/
def docLine (l : List Char) : List Op := [.newline, .indent, .space, .token ['*'], .space, .flow l " *   ".toList]

theorem spread_docLine {l text : List Char} (h : Spread (docLine l) text) (hl : inComment l = true) :
    Closed text ∧ ∃ w u, isGap w ∧ text = w ++ '\n' :: u := by
  cases h with
  | newline w1 hw1 _ h =>
  cases h with
  | indent w2 hw2 h =>
  cases h with
  | space w3 hw3 h =>
  cases h with
  | token w4 _ hw4 h =>
  cases h with
  | space w5 hw5 h =>
  cases h with
  | flow hf h =>
  cases h
  refine ⟨?_, _, _, hw1, rfl⟩
  have h1 := closed_sp hw5 (Or.inl rfl) (text := _ ++ []) (by rw [List.append_nil]; exact inComment_flows hf hl)
  have h2 := (closed_gap hw4).append (closed_star h1)
  exact closed_sp hw1 (Or.inr rfl) ((closed_gap hw2).append (closed_sp hw3 (Or.inl rfl) h2.1)).1

theorem spread_docLines : (ls : List (List Char)) → (text : List Char) → Spread (ls.flatMap docLine) text →
    (∀ l ∈ ls, inComment l = true) → Closed text
  | [], _, h, _ => by
    cases h
    exact ⟨rfl, by simp⟩
  | l :: ls, text, h, hl => by
    rw [List.flatMap_cons] at h
    obtain ⟨s, t, rfl, h1, h2⟩ := spread_append h
    exact (spread_docLine h1 (hl l (List.mem_cons_self ..))).1.append
      (spread_docLines ls t h2 fun x hx => hl x (List.mem_cons_of_mem _ hx))

/-- Documentation has no tokens. -/
theorem chunk_doc {t : List Char} (ht : inComment t = true) :
    Chunk true (word "/**" ++ ((splitLines t).flatMap docLine ++ [.newline, .indent, .space, .token "*/".toList])) [] .any .any := by
  refine ⟨?_, fun text rest hs _ => ?_⟩
  · refine (written_word _).append (Written.append (a := (splitLines t).flatMap docLine) ?_ ?_)
    · intro o ho
      obtain ⟨l, _, ho⟩ := List.mem_flatMap.1 ho
      simp only [docLine, List.mem_cons, List.not_mem_nil, or_false] at ho
      rcases ho with rfl | rfl | rfl | rfl | rfl | rfl <;> simp
    · intro o ho
      simp only [List.mem_cons, List.not_mem_nil, or_false] at ho
      rcases ho with rfl | rfl | rfl | rfl <;> simp
  · obtain ⟨a, b, rfl, h1, h2⟩ := spread_append hs
    obtain ⟨c, d, rfl, h3, h4⟩ := spread_append h2
    have hc := spread_docLines _ c h3 fun l hl => splitLines_infix t l hl ht
    cases h1 with
    | token w _ hw h1 =>
    cases h1
    cases h4 with
    | newline w1 hw1 _ h4 =>
    cases h4 with
    | indent w2 hw2 h4 =>
    cases h4 with
    | space w3 hw3 h4 =>
    cases h4 with
    | token w4 _ hw4 h4 =>
    cases h4
    have h5 : Closed (w1 ++ '\n' :: (w2 ++ (w3 ++ ' ' :: w4))) :=
      closed_sp hw1 (Or.inr rfl) ((closed_gap hw2).append (closed_sp hw3 (Or.inl rfl) (closed_gap hw4).1)).1
    have h6 := closed_star (hc.append h5)
    have h7 := tokens_comment (rest := rest) h6.1
    have he : w ++ ("/**".toList ++ []) ++ (c ++ (w1 ++ '\n' :: (w2 ++ (w3 ++ ' ' :: (w4 ++ ("*/".toList ++ [])))))) ++ rest =
        w ++ ('/' :: '*' :: ('*' :: (c ++ (w1 ++ '\n' :: (w2 ++ (w3 ++ ' ' :: w4)))) ++ '*' :: '/' :: rest)) := by simp
    rw [he, tokens_gap hw, h7]
    exact ⟨rfl, next_gap hw fun x xs hx => by cases hx; exact Or.inr ⟨by decide, trivial⟩⟩

variable {m : Mode}

theorem p_doc {s : PrintSettings} {j : Json} {t : String} (h : IsA "StructuredDocumentation" j) (h1 : j.getStrForKey "text" = some t)
    (ht : docPlain m.flows (some t)) : Prints m s j [] .any := by
  obtain ⟨hf, ht⟩ := ht
  unfold IsA at h
  unfold Prints
  rw [printOps_around (entry := (structuredDoc j).entry) (body := (structuredDoc j).body) (exit := (structuredDoc j).exit)
    (by simp [layout, h, structuredDoc]), hf]
  have := chunk_doc (inComment_infix.2 ht)
  have he : ∀ ls : List (List Char), expand m.checks (printOps m.checks) (ls.flatMap fun l => nl ++ ind ++ sp ++ tok "*" ++ sp ++
      [.op (.flow l " *   ".toList)]) = ls.flatMap docLine := by
    intro ls
    induction ls with
    | nil => rfl
    | cons l ls ih =>
      rw [List.flatMap_cons, expand_append, ih]
      rfl
  simp only [structuredDoc, onStr, h1, onSome, expand_append]
  rw [he]
  exact this

theorem c_doc {s : PrintSettings} {j : Json} {doc : Option String} (h : ShowsDoc j doc) (hp : docPlain m.flows doc) :
    PC m (documentation s j) [] .any .any := by
  cases doc with
  | none => exact c_noField h
  | some t =>
    obtain ⟨v, h1, h2, h3⟩ := h
    exact c_onField h1 ((c_sub (p_doc h2 h3 hp) +++ c_nl +++ c_ind).cast (by simp))

end SolPrint
end Mutagenyx
