import Verif.Props.VyperHunk
import Verif.Props.VyperWhole

/-!
# C88: printing a Vyper program again changes nothing
-/

namespace Mutagenyx
namespace VyPrint
open VyGrammar

/-! ### Lines that fit -/

theorem fitsFrom_break (n : Nat) (a b : List Char) : fitsFrom n (a ++ '\n' :: b) = (fitsFrom n a && fits b) := by
  rw [fitsFrom_append]; simp [fitsFrom, fits]

theorem fits_break (a b : List Char) : fits (a ++ '\n' :: b) = (fits a && fits b) := fitsFrom_break 0 a b

theorem fits_further (d : Nat) : ∀ (ss : List Stmt) (a : List Char),
    fits (a ++ textFurther d ss) = true ↔ fits a = true ∧ ∀ s ∈ ss, fits (blanks d ++ textStmt d s) = true
  | [], a => by simp [textFurther]
  | s :: ss, a => by
    rw [textFurther, fits_break, Bool.and_eq_true, ← List.append_assoc, fits_further d ss]
    simp

theorem fits_body (d : Nat) (ss : List Stmt) :
    fits (textBody d ss) = true ↔ ∀ s ∈ ss, fits (blanks d ++ textStmt d s) = true := by
  cases ss with
  | nil => simp [textBody, fits, fitsFrom]
  | cons s ss => rw [textBody, ← List.append_assoc, fits_further]; simp

theorem fits_lines (d : Nat) : ∀ ss : List Stmt,
    fits (textLines d ss) = true ↔ ∀ s ∈ ss, fits (blanks d ++ textStmt d s) = true
  | [] => by simp [textLines, fits, fitsFrom]
  | s :: ss => by
    rw [textLines, ← List.append_assoc, fits_break, Bool.and_eq_true, fits_lines d ss]
    simp

mutual
/-- What is left of a statement fits where the statement fitted. -/
theorem fits_bare (d : Nat) : ∀ s : Stmt, fits (blanks d ++ textStmt d s) = true →
    ∀ t ∈ bare s, fits (blanks d ++ textStmt d t) = true
  | .simple s, h, t, ht => by
    simp only [bare, List.mem_singleton] at ht
    subst ht; exact h
  | .for_ x ty it body, h, t, ht => by
    simp only [bare, List.mem_singleton] at ht
    subst ht
    have e : ∀ b : List Stmt, blanks d ++ textStmt d (.for_ x ty it b) =
        (blanks d ++ ("for ".toList ++ (x.toList ++ (textOption d ": " ty ++ (" in ".toList ++ (textE d it ++ [':'])))))) ++
          '\n' :: textLines (d + 1) b := by intro b; simp [textStmt]
    rw [e, fits_break, Bool.and_eq_true] at h ⊢
    exact ⟨h.1, (fits_lines _ _).mpr (fits_bares (d + 1) body ((fits_lines _ _).mp h.2))⟩
  | .if_ c body els, h, t, ht => by
    simp only [bare, List.mem_singleton] at ht
    subst ht
    have e : ∀ b l : List Stmt, blanks d ++ textStmt d (.if_ c b l) =
        (blanks d ++ ("if ".toList ++ (textE d c ++ [':']))) ++ '\n' :: (textBody (d + 1) b ++
          if l = [] then [] else '\n' :: ((blanks d ++ "else:".toList) ++ '\n' :: textBody (d + 1) l)) := by
      intro b l; simp [textStmt]
    rw [e, fits_break, Bool.and_eq_true] at h ⊢
    refine ⟨h.1, ?_⟩
    have h2 := h.2
    by_cases hl : els = []
    · subst hl
      simp only [if_true, List.append_nil, bareAll] at h2 ⊢
      exact (fits_body _ _).mpr (fits_bares (d + 1) body ((fits_body _ _).mp h2))
    · rw [if_neg hl, fits_break, fits_break, Bool.and_eq_true, Bool.and_eq_true] at h2
      have hb := (fits_body _ _).mpr (fits_bares (d + 1) body ((fits_body _ _).mp h2.1))
      have hs := (fits_body _ _).mpr (fits_bares (d + 1) els ((fits_body _ _).mp h2.2.2))
      split
      · simpa using hb
      · rw [fits_break, fits_break, Bool.and_eq_true, Bool.and_eq_true]
        exact ⟨hb, h2.2.1, hs⟩
  | .comment _, _, t, ht => by simp [bare] at ht
  | .quote _, _, t, ht => by simp [bare] at ht
theorem fits_bares (d : Nat) : ∀ ss : List Stmt, (∀ s ∈ ss, fits (blanks d ++ textStmt d s) = true) →
    ∀ t ∈ bareAll ss, fits (blanks d ++ textStmt d t) = true
  | [], _, t, ht => by simp [bareAll] at ht
  | s :: ss, h, t, ht => by
    rw [bareAll, List.mem_append] at ht
    rcases ht with ht | ht
    · exact fits_bare d s (h s (by simp)) t ht
    · exact fits_bares d ss (fun x hx => h x (by simp [hx])) t ht
end

/-! ### A program without comments -/

theorem decl_bare_bare (x : Decl) : x.bare.flatMap Decl.bare = x.bare := by
  cases x <;> simp [Decl.bare, bareAll_bareAll]

theorem program_bare_bare (p : Program) : p.bare.bare = p.bare := by
  simp only [Program.bare, Program.mk.injEq, true_and]
  induction p.decls with
  | nil => rfl
  | cons x xs ih => rw [List.flatMap_cons, List.flatMap_append, decl_bare_bare, ih]

theorem depthStmts_append (a b : List Stmt) : depthStmts (a ++ b) = max (depthStmts a) (depthStmts b) := by
  induction a with
  | nil => simp [depthStmts]
  | cons s a ih => simp [depthStmts, ih, Nat.max_assoc]

mutual
theorem depth_bare : ∀ s : Stmt, depthStmts (bare s) ≤ s.depth
  | .simple s => by simp [bare, depthStmts]
  | .for_ x ty it body => by
    have := depth_bares body
    simp only [bare, depthStmts, Stmt.depth]; omega
  | .if_ c body els => by
    have := depth_bares body
    have := depth_bares els
    simp only [bare, depthStmts, Stmt.depth]; omega
  | .comment _ => by simp [bare, depthStmts]
  | .quote _ => by simp [bare, depthStmts]
theorem depth_bares : ∀ ss : List Stmt, depthStmts (bareAll ss) ≤ depthStmts ss
  | [] => by simp [bareAll, depthStmts]
  | s :: ss => by
    have := depth_bare s
    have := depth_bares ss
    rw [bareAll, depthStmts_append, depthStmts]; omega
end

theorem decl_ok_bare {x y : Decl} (h : x.Ok) (hy : y ∈ x.bare) : y.Ok := by
  cases x with
  | simple s => simp only [Decl.bare, List.mem_singleton] at hy; subst hy; exact h
  | block k n fs => simp only [Decl.bare, List.mem_singleton] at hy; subst hy; exact h
  | interface n fs => simp only [Decl.bare, List.mem_singleton] at hy; subst hy; exact h
  | fn ds g doc body =>
    simp only [Decl.bare, List.mem_singleton] at hy
    subst hy
    simp only [Decl.Ok] at h ⊢
    obtain ⟨h1, h2, _, h4, h5, h6, h7⟩ := h
    exact ⟨h1, h2, by simp, ok_bares body h4, by rw [bareAll_bareAll]; exact h5, h6,
      (fits_body _ _).mpr (fits_bares 1 body ((fits_body _ _).mp h7))⟩
  | comment t => simp [Decl.bare] at hy
  | quote d => simp [Decl.bare] at hy

theorem decl_depth_bare {x y : Decl} (hy : y ∈ x.bare) : y.depth ≤ x.depth := by
  cases x with
  | fn ds g doc body =>
    simp only [Decl.bare, List.mem_singleton] at hy
    subst hy
    have := depth_bares body
    simp only [Decl.depth]; omega
  | simple s => simp only [Decl.bare, List.mem_singleton] at hy; subst hy; exact Nat.le_refl _
  | block k n fs => simp only [Decl.bare, List.mem_singleton] at hy; subst hy; exact Nat.le_refl _
  | interface n fs => simp only [Decl.bare, List.mem_singleton] at hy; subst hy; exact Nat.le_refl _
  | comment t => simp [Decl.bare] at hy
  | quote d => simp [Decl.bare] at hy

theorem program_ok_bare {p : Program} (h : p.Ok) : p.bare.Ok := by
  refine ⟨by simp [Program.bare], ?_⟩
  intro y hy
  obtain ⟨x, hx, hy⟩ := List.mem_flatMap.mp hy
  exact decl_ok_bare (h.2 x hx) hy

theorem program_shallow_bare {p : Program} (h : p.Shallow) : p.bare.Shallow := by
  intro y hy
  obtain ⟨x, hx, hy⟩ := List.mem_flatMap.mp hy
  exact Nat.le_trans (decl_depth_bare hy) (h x hx)

/-! ### Printing again -/

/-- **C88.** A printed program that is read and printed again has the same text.  Missing: the programs that C74 and C92 do not
cover. -/
theorem C88_stable_partial {env : PrintEnv} {p q : Program} {j k : Json} {text : List Char} (hj : ShowsProgram p j) (hp : p.Ok)
    (hd : p.Shallow) (ht : printText env j = .ok text) (hq : readWhole text = some q) (hk : ShowsProgram q k) :
    printText env k = .ok text := by
  rw [printText_program hj hp hd] at ht
  cases ht
  rw [program_readWhole hp hd, Option.some.injEq] at hq
  subst hq
  rw [printText_program hk (program_ok_noted hp) (program_shallow_noted hd), textProgram_noted]

/-- **C88 (without comments).** If a printed program is read without comments and documentation and printed again, the second text
stays the same however often it is read and printed.  Missing: as for `C88_stable_partial`. -/
theorem C88_bare_partial {env : PrintEnv} {p q : Program} {j k : Json} {text : List Char} (hj : ShowsProgram p j) (hp : p.Ok)
    (hd : p.Shallow) (ht : printText env j = .ok text) (hq : readProgram text = some q) (hk : ShowsProgram q k) :
    ∃ again, printText env k = .ok again ∧ readProgram again = some q ∧ readWhole again = some q ∧
      ∀ l, ShowsProgram q l → printText env l = .ok again := by
  rw [printText_program hj hp hd] at ht
  cases ht
  rw [program_read hp hd, Option.some.injEq] at hq
  subst hq
  have h1 := program_ok_bare hp
  have h2 := program_shallow_bare hd
  refine ⟨textProgram p.bare, printText_program hk h1 h2, ?_, ?_, fun l hl => printText_program hl h1 h2⟩
  · rw [program_read h1 h2, program_bare_bare]
  · rw [program_readWhole h1 h2, noted_bare_program]

/-- **C88 (trees of the same program).** All trees of a program are printed alike: nothing else in a tree, such as places in the
source, types or the order of fields, has an effect on the text.  Missing: as for `C88_stable_partial`. -/
theorem C88_same_partial {env : PrintEnv} {p : Program} {j k : Json} (hj : ShowsProgram p j) (hk : ShowsProgram p k)
    (hp : p.Ok) (hd : p.Shallow) : printText env j = printText env k :=
  (C92_same_partial hj hk hp hp hd hd).mpr rfl

/-- The hypotheses of `C88_stable_partial` are met by the sample program of C74, which has comments and documentation. -/
example (env : PrintEnv) : printText env (nodeProgram sampleProgram.noted) = printText env (nodeProgram sampleProgram) := by
  have h := shows_program sample_ok (by decide +kernel)
  have ht := printText_program (env := env) h sample_ok sample_shallow
  rw [ht]
  exact C88_stable_partial h sample_ok sample_shallow ht (program_readWhole sample_ok sample_shallow)
    (shows_program (program_ok_noted sample_ok) (by decide +kernel))

/-- Those of `C88_bare_partial` are as well. -/
example (env : PrintEnv) : ∃ again, printText env (nodeProgram sampleProgram.bare) = .ok again ∧
    readProgram again = some sampleProgram.bare := by
  have h := shows_program sample_ok (by decide +kernel)
  obtain ⟨again, h1, h2, _, _⟩ := C88_bare_partial (env := env) h sample_ok sample_shallow
    (printText_program h sample_ok sample_shallow) (program_read sample_ok sample_shallow)
    (shows_program (program_ok_bare sample_ok) (by decide +kernel))
  exact ⟨again, h1, h2⟩

end VyPrint
end Mutagenyx
