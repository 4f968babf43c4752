import Verif.Proofs.Paint
import Verif.Proofs.VyperExpr

/-!
# The layout of Vyper expressions: how it is printed, how it is cut into lines, and its tokens
-/

namespace Mutagenyx
namespace VyPrint

open NodePrinter Printer VyGrammar

/-! ### Printing -/

theorem leaf_line {t : String} (h : isLeaf t = true) : '\n' ∉ t.toList := by
  obtain ⟨c, cs, ht, hc, hcs⟩ := leaf_chars h
  rw [ht]
  intro hm
  rcases List.mem_cons.1 hm with rfl | hm
  · exact absurd hc (by decide)
  · rcases hcs _ hm with h | ⟨_, h⟩
    · exact absurd h (by decide)
    · exact absurd h (by decide)

theorem name_line {t : String} (h : isName t = true) : '\n' ∉ t.toList := leaf_line (isName_leaf h)

theorem paint_word {t : String} (h : '\n' ∉ t.toList) (d : Nat) : paint d (word t) = some (t.toList, d) := by
  simp [word, paint, h]

theorem paint_wrapO {b : Bool} {d : Nat} {ops : List Op} {t : List Char} (h : paint d ops = some (t, d)) :
    paint d (wrapO b ops) = some (parens b t, d) := by
  unfold wrapO parens
  cases b with
  | false => exact h
  | true => exact paint_append (paint_append (paint_word (t := "(") (by decide) d) h) (paint_word (t := ")") (by decide) d)

theorem paint_space (d : Nat) : paint d [.space] = some ([' '], d) := rfl

mutual
theorem paint_opsE : (e : Expr) → Plain e → (d : Nat) → d + depthE e ≤ 36 → paint d (opsE e) = some (textE d e, d)
  | .leaf t, h, d, _ => by
    simp only [Plain] at h
    rw [opsE, textE]
    exact paint_word (leaf_line h) d
  | .str t, h, d, _ => by
    simp only [Plain] at h
    have hn : '\n' ∉ t.toList := fun hm => absurd (h _ hm) (by decide)
    rw [opsE, textE]
    simp [paint, hn]
  | .attr e id, h, d, hd => by
    simp only [Plain] at h
    rw [depthE] at hd
    rw [opsE, textE]
    exact paint_append (paint_opsE e h.2.2 d hd)
      (paint_append (paint_word (t := ".") (by decide) d) (paint_word (name_line h.2.1) d))
  | .index e is, h, d, hd => by
    simp only [Plain] at h
    rw [depthE] at hd
    rw [opsE, textE]
    exact paint_append (paint_opsE e h.2.1 d (by omega)) (paint_append (paint_word (t := "[") (by decide) d)
      (paint_append (paint_opsArgs _ is h.2.2.2 d (by omega)) (paint_word (t := "]") (by decide) d)))
  | .call f args, h, d, hd => by
    simp only [Plain] at h
    rw [depthE] at hd
    rw [opsE, textE]
    exact paint_append (paint_opsE f h.2.1 d (by omega)) (paint_append (paint_word (t := "(") (by decide) d)
      (paint_append (paint_opsArgs _ args h.2.2 d (by omega)) (paint_word (t := ")") (by decide) d)))
  | .list es, h, d, hd => by
    simp only [Plain] at h
    rw [depthE] at hd
    rw [opsE, textE]
    exact paint_append (paint_word (t := "[") (by decide) d)
      (paint_append (paint_opsArgs _ es h d hd) (paint_word (t := "]") (by decide) d))
  | .dict es, h, d, hd => by
    simp only [Plain] at h
    rw [depthE] at hd
    rw [opsE, textE]
    exact paint_append (paint_word (t := "{") (by decide) d)
      (paint_append (paint_opsEntries es h d (by omega)) (paint_word (t := "}") (by decide) d))
  | .named k e, h, d, hd => by
    simp only [Plain] at h
    rw [depthE] at hd
    rw [opsE, textE]
    exact paint_append (paint_word (name_line h.1) d) (paint_append (paint_word (t := "=") (by decide) d) (paint_opsE e h.2.2 d hd))
  | .entry k v, h, d, hd => by
    simp only [Plain] at h
    rw [depthE] at hd
    rw [opsE, textE]
    exact paint_append (paint_opsE k h.2.1 d (by omega)) (paint_append (paint_word (t := ":") (by decide) d)
      (paint_append (paint_space d) (paint_opsE v h.2.2.2 d (by omega))))
  | .bin l o r, h, d, hd => by
    simp only [Plain] at h
    rw [depthE] at hd
    rw [opsE, textE]
    have ho : '\n' ∉ o.text.toList := by cases o <;> decide
    have := paint_append (paint_wrapO (b := isBin l) (paint_opsE l h.1 d (by omega)))
      (paint_append (paint_append (paint_space d) (paint_append (paint_word ho d) (paint_space d)))
        (paint_wrapO (b := isBin r) (paint_opsE r h.2.1 d (by omega))))
    simpa using this
  | .not e, h, d, hd => by
    simp only [Plain] at h
    rw [depthE] at hd
    rw [opsE, textE]
    exact paint_append (paint_append (paint_word (t := "not") (by decide) d) (paint_space d)) (paint_wrapO (paint_opsE e h.2 d hd))
  | .inv e, h, d, hd => by
    simp only [Plain] at h
    rw [depthE] at hd
    rw [opsE, textE]
    exact paint_append (paint_word (t := "~") (by decide) d) (paint_wrapO (paint_opsE e h.1 d hd))
  | .neg e, h, d, hd => by
    simp only [Plain] at h
    obtain ⟨t, rfl, hl⟩ := isNumber_leaf h
    rw [opsE, textE, numberText]
    have := paint_word (t := "-" ++ t) (by
      rw [String.toList_append, List.mem_append, not_or]
      exact ⟨by decide, leaf_line hl⟩) d
    rw [this, String.toList_append]
    rfl
theorem paint_opsArgs : (k : String) → (es : List Expr) → PlainAll k es → (d : Nat) → d + depthAll es ≤ 36 →
    paint d (opsArgs es) = some (textRow d es, d)
  | _, [], _, d, _ => by rw [opsArgs, textRow]; rfl
  | k, e :: es, h, d, hd => by
    simp only [PlainAll] at h
    rw [depthAll] at hd
    rw [opsArgs, textRow]
    exact paint_append (paint_opsE e h.2.1 d (by omega)) (paint_opsRest k es h.2.2 d (by omega))
theorem paint_opsRest : (k : String) → (es : List Expr) → PlainAll k es → (d : Nat) → d + depthAll es ≤ 36 →
    paint d (opsRest es) = some (textRest d es, d)
  | _, [], _, d, _ => by rw [opsRest, textRest]; rfl
  | k, e :: es, h, d, hd => by
    simp only [PlainAll] at h
    rw [depthAll] at hd
    rw [opsRest, textRest]
    exact paint_append (paint_word (t := ",") (by decide) d) (paint_append (paint_space d)
      (paint_append (paint_opsE e h.2.1 d (by omega)) (paint_opsRest k es h.2.2 d (by omega))))
theorem paint_opsEntries : (es : List Expr) → PlainAll "}" es → (d : Nat) → d + depthAll es + 1 ≤ 36 →
    paint d (opsEntries es) = some (textEntries d es, d)
  | [], _, d, _ => by rw [opsEntries, textEntries]; rfl
  | e :: es, h, d, hd => by
    simp only [PlainAll] at h
    rw [depthAll] at hd
    rw [opsEntries, textEntries]
    have h1 : paint (d + 1) ([Op.decr] ++ ([.newline] ++ [.indent])) = some ('\n' :: blanks d, d) := by simp [paint]
    have h2 : paint d ([Op.newline] ++ ([.incr] ++ [.indent])) = some ('\n' :: blanks (d + 1), d + 1) := by
      simp [paint, show d < 36 by omega]
    have := paint_append h2 (paint_append (paint_opsE e h.2.1 (d + 1) (by omega))
      (paint_append (paint_opsMore es h.2.2 (d + 1) (by omega)) h1))
    simpa using this
theorem paint_opsMore : (es : List Expr) → PlainAll "}" es → (d : Nat) → d + depthAll es ≤ 36 →
    paint d (opsMore es) = some (textMore d es, d)
  | [], _, d, _ => by rw [opsMore, textMore]; rfl
  | e :: es, h, d, hd => by
    simp only [PlainAll] at h
    rw [depthAll] at hd
    rw [opsMore, textMore]
    have h1 : paint d ([Op.newline] ++ [.indent]) = some ('\n' :: blanks d, d) := by simp [paint]
    have := paint_append (paint_word (t := ",") (by decide) d) (paint_append h1
      (paint_append (paint_opsE e h.2.1 d (by omega)) (paint_opsMore es h.2.2 d (by omega))))
    simpa using this
end

/-! ### Logical lines -/

/-- The state behind a text, if no logical line ends in it. -/
def pass : Scanner → List Char → Option Scanner
  | s, [] => some s
  | s, c :: cs => if c = '\n' ∧ s.ends = true then none else pass (s.step c) cs

theorem pass_append {s s' : Scanner} {a b : List Char} (h : pass s a = some s') : pass s (a ++ b) = pass s' b := by
  induction a generalizing s with
  | nil => cases h; rfl
  | cons c a ih =>
    simp only [pass, List.cons_append] at h ⊢
    split
    · rename_i hc; rw [if_pos hc] at h; cases h
    · rename_i hc; rw [if_neg hc] at h; exact ih h

theorem cutLines_pass {s s' : Scanner} {t : List Char} (h : pass s t = some s') (cur rest : List Char) :
    cutLines s cur (t ++ rest) = cutLines s' (cur ++ t) rest := by
  induction t generalizing s cur with
  | nil => cases h; simp
  | cons c t ih =>
    simp only [pass] at h
    simp only [List.cons_append, cutLines]
    split
    · rename_i hc; rw [if_pos hc] at h; cases h
    · rename_i hc
      rw [if_neg hc] at h
      rw [ih h]
      simp

/-- In the program with `n` open brackets, if `b` is set possibly just behind a string. -/
def Ready (b : Bool) (n : Nat) (s : Scanner) : Prop := s = ⟨n, .code⟩ ∨ (b = true ∧ s = ⟨n, .closed⟩)

/-- The text is within a logical line if at least `m` brackets are open before it, and it closes the brackets that it
opens.  If `q` is set it may follow a string, if `p` is set it may end with one. -/
def Scans (m : Nat) (q p : Bool) (t : List Char) : Prop :=
  ∀ n s, m ≤ n → Ready q n s → ∃ s', pass s t = some s' ∧ Ready p n s'

theorem ready_code {b : Bool} (n : Nat) : Ready b n ⟨n, .code⟩ := Or.inl rfl

theorem Ready.mono {b c : Bool} {n : Nat} {s : Scanner} (h : Ready b n s) (hbc : b = true → c = true) : Ready c n s :=
  h.imp id fun ⟨h1, h2⟩ => ⟨hbc h1, h2⟩

theorem Scans.append {m : Nat} {q p q' p' : Bool} {a b : List Char} (ha : Scans m q p a) (hb : Scans m q' p' b)
    (h : p = true → q' = true) : Scans m q p' (a ++ b) := by
  intro n s hn hs
  obtain ⟨s1, h1, h2⟩ := ha n s hn hs
  obtain ⟨s2, h3, h4⟩ := hb n s1 hn (h2.mono h)
  exact ⟨s2, by rw [pass_append h1, h3], h4⟩

theorem Scans.mono {m m' : Nat} {q p q' p' : Bool} {t : List Char} (h : Scans m q p t) (hm : m ≤ m') (hq : q' = true → q = true)
    (hp : p = true → p' = true) : Scans m' q' p' t := by
  intro n s hn hs
  obtain ⟨s1, h1, h2⟩ := h n s (by omega) (hs.mono hq)
  exact ⟨s1, h1, h2.mono hp⟩

theorem scans_nil {m : Nat} {b : Bool} : Scans m b b [] := fun _ s _ hs => ⟨s, rfl, hs⟩

/-- A character that changes nothing. -/
def plainChar (c : Char) : Bool := !['"', '#', '(', '[', '{', ')', ']', '}', '\n'].contains c

theorem codeStep_plain {c : Char} (h : plainChar c = true) (n : Nat) : codeStep n c = ⟨n, .code⟩ := by
  simp only [plainChar, Bool.not_eq_true', List.contains_eq_mem, List.mem_cons, List.not_mem_nil, or_false, not_or, decide_eq_false_iff_not] at h
  simp [codeStep, h]

theorem step_ready {b : Bool} {n : Nat} {s : Scanner} (hs : Ready b n s) {c : Char} (hc : c ≠ '"') : s.step c = codeStep n c := by
  rcases hs with rfl | ⟨_, rfl⟩
  · rfl
  · simp [Scanner.step, hc]

theorem scans_char {m : Nat} {b : Bool} {c : Char} (h : plainChar c = true) : Scans m true b [c] := by
  intro n s _ hs
  have hq : c ≠ '"' := by rintro rfl; exact absurd h (by decide)
  have hn : c ≠ '\n' := by rintro rfl; exact absurd h (by decide)
  refine ⟨⟨n, .code⟩, ?_, ready_code n⟩
  simp [pass, hn, step_ready hs hq, codeStep_plain h]

theorem scans_chars {m : Nat} {t : List Char} (h : ∀ c ∈ t, plainChar c = true) {b : Bool} (hb : b = true → t ≠ []) :
    Scans m b false t := by
  induction t generalizing b with
  | nil =>
    have : b = false := by
      cases b with
      | false => rfl
      | true => exact absurd rfl (hb rfl)
    subst this
    exact scans_nil
  | cons c t ih =>
    exact ((scans_char (h c (List.mem_cons_self ..))).append (b := t) (p := false) (ih (b := false) (fun d hd => h d (List.mem_cons_of_mem _ hd)) (by simp))
      (by simp)).mono (Nat.le_refl m) (by simp) (by simp)

theorem scans_all {m : Nat} {t : List Char} (h : t.all plainChar = true) (hne : t ≠ []) : Scans m true false t :=
  scans_chars (by simpa using h) fun _ => hne

theorem wordChar_plain {c : Char} (h : wordChar c = true) : plainChar c = true := by
  cases hp : plainChar c with
  | true => rfl
  | false =>
    simp only [plainChar, Bool.not_eq_false', List.contains_eq_mem, List.mem_cons, List.not_mem_nil, or_false, decide_eq_true_eq] at hp
    rcases hp with rfl | rfl | rfl | rfl | rfl | rfl | rfl | rfl | rfl <;> exact absurd h (by decide)

theorem scans_leaf {m : Nat} {t : String} (h : isLeaf t = true) : Scans m true false t.toList := by
  obtain ⟨c, cs, ht, hc, hcs⟩ := leaf_chars h
  rw [ht]
  refine scans_chars (fun d hd => ?_) (by simp)
  rcases List.mem_cons.1 hd with rfl | hd
  · exact wordChar_plain hc
  · rcases hcs d hd with h | ⟨_, rfl⟩
    · exact wordChar_plain h
    · decide

theorem scans_name {m : Nat} {t : String} (h : isName t = true) : Scans m true false t.toList := scans_leaf (isName_leaf h)

theorem scans_string {m : Nat} {t : List Char} (h : ∀ c ∈ t, unescaped c = true) : Scans m false true ('"' :: (t ++ ['"'])) := by
  intro n s _ hs
  rcases hs with rfl | ⟨hh, _⟩
  · have key : ∀ t : List Char, (∀ c ∈ t, unescaped c = true) → pass ⟨n, .text⟩ (t ++ ['"']) = some ⟨n, .code⟩ := by
      intro t
      induction t with
      | nil => intro _; simp [pass, Scanner.step]
      | cons c t ih =>
        intro h
        have hc := h c (List.mem_cons_self ..)
        simp only [unescaped, Bool.and_eq_true, bne_iff_ne, ne_eq] at hc
        simp only [List.cons_append, pass, hc.2, false_and, if_false, Scanner.step, hc.1.1, hc.1.2]
        exact ih fun d hd => h d (List.mem_cons_of_mem _ hd)
    cases t with
    | nil => exact ⟨⟨n, .closed⟩, by simp [pass, Scanner.step, codeStep], Or.inr ⟨rfl, rfl⟩⟩
    | cons c t =>
      have hc := h c (List.mem_cons_self ..)
      simp only [unescaped, Bool.and_eq_true, bne_iff_ne, ne_eq] at hc
      refine ⟨⟨n, .code⟩, ?_, ready_code n⟩
      simp only [List.cons_append, pass, hc.2, false_and, if_false, Scanner.step, hc.1.1, hc.1.2, codeStep, if_true,
        show ('"' : Char) ≠ '\n' by decide]
      exact key t fun d hd => h d (List.mem_cons_of_mem _ hd)
  · cases hh

theorem scans_enclosed {m : Nat} {p : Bool} {x y : Char} (hx : x = '(' ∨ x = '[' ∨ x = '{') (hy : y = ')' ∨ y = ']' ∨ y = '}')
    {t : List Char} (h : Scans 1 false p t) : Scans m true false (x :: (t ++ [y])) := by
  intro n s _ hs
  have hxq : x ≠ '"' := by rcases hx with rfl | rfl | rfl <;> decide
  have hyq : y ≠ '"' := by rcases hy with rfl | rfl | rfl <;> decide
  have hxn : x ≠ '\n' := by rcases hx with rfl | rfl | rfl <;> decide
  have hyn : y ≠ '\n' := by rcases hy with rfl | rfl | rfl <;> decide
  have h1 : codeStep n x = ⟨n + 1, .code⟩ := by rcases hx with rfl | rfl | rfl <;> simp [codeStep]
  have h2 : codeStep (n + 1) y = ⟨n, .code⟩ := by rcases hy with rfl | rfl | rfl <;> simp [codeStep]
  obtain ⟨s1, h3, h4⟩ := h (n + 1) ⟨n + 1, .code⟩ (by omega) (ready_code _)
  refine ⟨⟨n, .code⟩, ?_, ready_code n⟩
  simp only [pass, hxn, false_and, if_false, step_ready hs hxq, h1]
  rw [pass_append h3]
  simp [pass, hyn, step_ready h4 hyq, h2]

theorem scans_newline {b : Bool} : Scans 1 true b ['\n'] := by
  intro n s hn hs
  refine ⟨⟨n, .code⟩, ?_, ready_code n⟩
  have : s.ends = false := by
    rcases hs with rfl | ⟨_, rfl⟩ <;> simp [Scanner.ends] <;> omega
  simp [pass, this, step_ready hs, codeStep]

theorem scans_parens {m : Nat} {b : Bool} {t : List Char} (h : Scans 0 false true t) : Scans m false true (parens b t) := by
  unfold parens
  cases b with
  | false => exact h.mono (Nat.zero_le m) (by simp) (by simp)
  | true =>
    exact (scans_enclosed (m := m) (p := true) (Or.inl rfl) (Or.inl rfl) (h.mono (Nat.zero_le 1) (by simp) (by simp))).mono (Nat.le_refl m)
      (by simp) (by simp)

theorem scans_blanks {m d : Nat} : Scans m false false (blanks d) := by
  refine scans_chars (fun c hc => ?_) (by simp)
  rw [List.eq_of_mem_replicate hc]
  decide

mutual
theorem scans_textE : (e : Expr) → Plain e → (d : Nat) → Scans 0 false true (textE d e)
  | .leaf t, h, d => by
    simp only [Plain] at h
    rw [textE]
    exact (scans_leaf h).mono (Nat.le_refl _) (by simp) (by simp)
  | .str t, h, d => by
    simp only [Plain] at h
    rw [textE]
    exact scans_string h
  | .attr e id, h, d => by
    simp only [Plain] at h
    rw [textE]
    exact (scans_textE e h.2.2 d).append (((scans_char (b := false) (by decide)).append (scans_name h.2.1) (by simp)).mono (Nat.le_refl _)
      (by simp) (by simp) : Scans 0 true true ('.' :: id.toList)) (by simp)
  | .index e is, h, d => by
    simp only [Plain] at h
    rw [textE]
    exact (scans_textE e h.2.1 d).append ((scans_enclosed (p := true) (Or.inr (Or.inl rfl)) (Or.inr (Or.inl rfl))
      ((scans_textRow _ is h.2.2.2 d).mono (Nat.zero_le 1) (by simp) (by simp))).mono (Nat.le_refl _)
      (by simp) (by simp) : Scans 0 true true _) (by simp)
  | .call f args, h, d => by
    simp only [Plain] at h
    rw [textE]
    exact (scans_textE f h.2.1 d).append ((scans_enclosed (p := true) (Or.inl rfl) (Or.inl rfl)
      ((scans_textRow _ args h.2.2 d).mono (Nat.zero_le 1) (by simp) (by simp))).mono (Nat.le_refl _)
      (by simp) (by simp) : Scans 0 true true _) (by simp)
  | .list es, h, d => by
    simp only [Plain] at h
    rw [textE]
    exact (scans_enclosed (p := true) (Or.inr (Or.inl rfl)) (Or.inr (Or.inl rfl))
      ((scans_textRow _ es h d).mono (Nat.zero_le 1) (by simp) (by simp))).mono (Nat.le_refl _) (by simp) (by simp)
  | .dict es, h, d => by
    simp only [Plain] at h
    rw [textE]
    exact (scans_enclosed (p := true) (Or.inr (Or.inr rfl)) (Or.inr (Or.inr rfl)) (scans_textEntries es h d)).mono (Nat.le_refl _) (by simp) (by simp)
  | .named k e, h, d => by
    simp only [Plain] at h
    rw [textE]
    exact ((scans_name h.1).append (((scans_char (b := false) (by decide)).append (scans_textE e h.2.2 d) (by simp)) : Scans 0 true true ('=' :: textE d e))
      (by simp)).mono (Nat.le_refl _) (by simp) (by simp)
  | .entry k v, h, d => by
    simp only [Plain] at h
    rw [textE]
    exact (scans_textE k h.2.1 d).append ((((scans_all (m := 0) (t := [':', ' ']) (by decide) (by decide)).append
      (scans_textE v h.2.2.2 d) (by simp))) : Scans 0 true true (':' :: ' ' :: textE d v)) (by simp)
  | .bin l o r, h, d => by
    simp only [Plain] at h
    rw [textE]
    have ho : Scans 0 true false (' ' :: (o.text.toList ++ [' '])) := by
      cases o <;> exact scans_all (by decide) (by decide)
    have := (scans_parens (m := 0) (b := isBin l) (scans_textE l h.1 d)).append (ho.append
      (scans_parens (m := 0) (b := isBin r) (scans_textE r h.2.1 d)) (by simp)) (by simp)
    simpa using this
  | .not e, h, d => by
    simp only [Plain] at h
    rw [textE]
    exact ((scans_all (m := 0) (t := ['n', 'o', 't', ' ']) (by decide) (by decide)).append
      (scans_parens (b := isBin e) (scans_textE e h.2 d)) (by simp)).mono (Nat.le_refl _) (by simp) (by simp)
  | .inv e, h, d => by
    simp only [Plain] at h
    rw [textE]
    exact ((scans_all (m := 0) (t := ['~']) (by decide) (by decide)).append
      (scans_parens (b := isBin e) (scans_textE e h.1 d)) (by simp)).mono (Nat.le_refl _) (by simp) (by simp)
  | .neg e, h, d => by
    simp only [Plain] at h
    obtain ⟨t, rfl, hl⟩ := isNumber_leaf h
    rw [textE, numberText]
    exact ((scans_all (m := 0) (t := ['-']) (by decide) (by decide)).append
      (scans_leaf hl) (by simp)).mono (Nat.le_refl _) (by simp) (by simp)
theorem scans_textRow : (k : String) → (es : List Expr) → PlainAll k es → (d : Nat) → Scans 0 false true (textRow d es)
  | _, [], _, d => by
    rw [textRow]
    exact scans_nil.mono (Nat.le_refl _) (by simp) (by simp : false = true → true = true)
  | k, e :: es, h, d => by
    simp only [PlainAll] at h
    rw [textRow]
    exact (scans_textE e h.2.1 d).append (scans_textRest k es h.2.2 d) (by simp)
theorem scans_textRest : (k : String) → (es : List Expr) → PlainAll k es → (d : Nat) → Scans 0 true true (textRest d es)
  | _, [], _, d => by
    rw [textRest]
    exact scans_nil
  | k, e :: es, h, d => by
    simp only [PlainAll] at h
    rw [textRest]
    exact (((scans_all (m := 0) (t := [',', ' ']) (by decide) (by decide)).append
      ((scans_textE e h.2.1 d).append (scans_textRest k es h.2.2 d) (by simp)) (by simp)))
theorem scans_textEntries : (es : List Expr) → PlainAll "}" es → (d : Nat) → Scans 1 false true (textEntries d es)
  | [], _, d => by
    rw [textEntries]
    exact scans_nil.mono (Nat.le_refl _) (by simp) (by simp : false = true → true = true)
  | e :: es, h, d => by
    simp only [PlainAll] at h
    rw [textEntries]
    have h1 : Scans 1 true false ('\n' :: blanks (d + 1)) := scans_newline.append (p := false) scans_blanks (by simp)
    have h2 : Scans 1 true false ('\n' :: blanks d) := scans_newline.append (p := false) scans_blanks (by simp)
    have := h1.append (((scans_textE e h.2.1 (d + 1)).mono (Nat.zero_le 1) (by simp) (by simp) : Scans 1 false true _).append
      ((scans_textMore es h.2.2 (d + 1)).append h2 (by simp)) (by simp)) (by simp)
    simp only [List.cons_append] at this
    exact this.mono (Nat.le_refl _) (by simp) (by simp)
theorem scans_textMore : (es : List Expr) → PlainAll "}" es → (d : Nat) → Scans 1 true true (textMore d es)
  | [], _, d => by
    rw [textMore]
    exact scans_nil
  | e :: es, h, d => by
    simp only [PlainAll] at h
    rw [textMore]
    have h1 : Scans 1 true false (',' :: '\n' :: blanks d) :=
      (scans_char (b := false) (by decide)).append (scans_newline.append (p := false) scans_blanks (by simp)) (by simp)
    have := h1.append (((scans_textE e h.2.1 d).mono (Nat.zero_le 1) (by simp) (by simp) : Scans 1 false true _).append
      (scans_textMore es h.2.2 d) (by simp)) (by simp)
    simpa using this
end

/-! ### Tokens -/

theorem spread_paint {ops : List Op} {d e : Nat} {t : List Char} (h : paint d ops = some (t, e)) : Spread ops t := by
  induction hn : ops.length using Nat.strongRecOn generalizing ops d t with
  | _ n rec =>
  match ops with
  | [] => cases h; exact .nil
  | o :: ops =>
    have ih : ∀ {d : Nat} {t : List Char}, paint d ops = some (t, e) → Spread ops t := fun h =>
      rec ops.length (by rw [← hn]; simp) h rfl
    cases o <;> simp only [paint, reduceCtorEq] at h
    case token s =>
      split at h
      · cases h
      · simp only [Option.map_eq_some_iff, Prod.mk.injEq, Prod.exists] at h
        obtain ⟨v, g, h1, rfl, rfl⟩ := h
        exact .token [] s isGap_nil (ih h1)
    case string s =>
      split at h
      · cases h
      · simp only [Option.map_eq_some_iff, Prod.mk.injEq, Prod.exists] at h
        obtain ⟨v, g, h1, rfl, rfl⟩ := h
        simpa using Spread.string [] s isGap_nil (ih h1)
    case space =>
      simp only [Option.map_eq_some_iff, Prod.mk.injEq, Prod.exists] at h
      obtain ⟨v, g, h1, rfl, rfl⟩ := h
      exact .space [] isGap_nil (ih h1)
    case newline =>
      simp only [Option.map_eq_some_iff, Prod.mk.injEq, Prod.exists] at h
      obtain ⟨v, g, h1, rfl, rfl⟩ := h
      by_cases hl : LineStart ops
      · obtain ⟨rest, rfl⟩ := hl
        have hs : ∀ {d : Nat} {t : List Char}, paint d rest = some (t, g) → Spread rest t := fun h =>
          rec rest.length (by rw [← hn]; simp only [List.length_cons]; omega) h rfl
        simp only [paint, Option.map_eq_some_iff, Prod.mk.injEq, Prod.exists] at h1
        obtain ⟨v, g, h1, rfl, rfl⟩ := h1
        split at h1
        · cases h1
        · simp only [Option.map_eq_some_iff, Prod.mk.injEq, Prod.exists] at h1
          obtain ⟨v, g, ⟨u, k, h1, rfl, rfl⟩, rfl, rfl⟩ := h1
          exact .lineComment [] _ isGap_nil (fun c hc => Or.inl (List.eq_of_mem_replicate hc)) (hs h1)
      · exact .newline [] isGap_nil hl (ih h1)
    case indent =>
      simp only [Option.map_eq_some_iff, Prod.mk.injEq, Prod.exists] at h
      obtain ⟨v, g, h1, rfl, rfl⟩ := h
      exact .indent _ (fun c hc => Or.inl (List.eq_of_mem_replicate hc)) (ih h1)
    case incr =>
      split at h
      · exact .incr (ih h)
      · cases h
    case decr =>
      cases d with
      | zero => cases h
      | succ d => exact .decr (ih h)
    case flow s n =>
      simp only [Option.map_eq_some_iff, Prod.mk.injEq, Prod.exists] at h
      obtain ⟨v, g, h1, rfl, rfl⟩ := h
      have := Flows.last (next := n) s
      rw [flattened] at this
      rw [onOneLine, squeeze_collapse]
      exact .flow this (ih h1)

end VyPrint
end Mutagenyx
