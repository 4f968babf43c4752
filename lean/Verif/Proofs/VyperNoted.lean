import Verif.Proofs.VyperReadBack

/-!
# A Vyper program with what is commented out as comments
-/

namespace Mutagenyx
namespace VyPrint

open NodePrinter Printer VyGrammar Lex

theorem noted_nil {ss : List Stmt} : notedAll ss = [] ↔ ss = [] := by
  cases ss with
  | nil => simp [notedAll]
  | cons s ss => simp [notedAll]

mutual
/-- It has the same text. -/
theorem text_noted (d : Nat) : (s : Stmt) → textStmt d (notedStmt s) = textStmt d s
  | .simple s => by rw [notedStmt]
  | .for_ x ty it body => by rw [notedStmt, textStmt, textStmt, textLines_noted (d + 1) body]
  | .if_ c body els => by
    rw [notedStmt, textStmt, textStmt, textBody_noted (d + 1) body, textBody_noted (d + 1) els]
    simp only [noted_nil]
  | .comment t => by rw [notedStmt]
  | .quote s => by rw [notedStmt, textStmt, textStmt, String.toList_ofList]
theorem textBody_noted (d : Nat) : (ss : List Stmt) → textBody d (notedAll ss) = textBody d ss
  | [] => by rw [notedAll]
  | s :: ss => by rw [notedAll, textBody, textBody, text_noted d s, textFurther_noted d ss]
theorem textFurther_noted (d : Nat) : (ss : List Stmt) → textFurther d (notedAll ss) = textFurther d ss
  | [] => by rw [notedAll]
  | s :: ss => by rw [notedAll, textFurther, textFurther, text_noted d s, textFurther_noted d ss]
theorem textLines_noted (d : Nat) : (ss : List Stmt) → textLines d (notedAll ss) = textLines d ss
  | [] => by rw [notedAll]
  | s :: ss => by rw [notedAll, textLines, textLines, text_noted d s, textLines_noted d ss]
end

theorem textDecl_noted (x : Decl) : textDecl x.noted = textDecl x := by
  cases x with
  | fn ds g doc body => rw [Decl.noted, text_fn, text_fn, textBody_noted]
  | quote d => simp only [Decl.noted, textDecl, String.toList_ofList]
  | _ => rfl

theorem textDecls_noted : (xs : List Decl) → textDecls (xs.map Decl.noted) = textDecls xs
  | [] => rfl
  | x :: xs => by rw [List.map_cons, textDecls, textDecls, textDecl_noted, textDecls_noted xs]

theorem textProgram_noted (p : Program) : textProgram p.noted = textProgram p := by
  obtain ⟨doc, xs⟩ := p
  cases doc <;> simp only [textProgram, Program.noted, textDecls_noted]

mutual
theorem bareAll_noted : (ss : List Stmt) → bareAll (notedAll ss) = bareAll ss
  | [] => by rw [notedAll]
  | s :: ss => by rw [notedAll, bareAll, bareAll, bare_noted s, bareAll_noted ss]
/-- It is the same without comments. -/
theorem bare_noted : (s : Stmt) → bare (notedStmt s) = bare s
  | .simple s => by rw [notedStmt]
  | .for_ x ty it body => by rw [notedStmt, bare, bare, bareAll_noted body]
  | .if_ c body els => by rw [notedStmt, bare, bare, bareAll_noted body, bareAll_noted els]
  | .comment t => by rw [notedStmt]
  | .quote s => by rw [notedStmt, bare, bare]
end

theorem program_bare_noted (p : Program) : p.noted.bare = p.bare := by
  simp only [Program.bare, Program.noted, Program.mk.injEq, true_and]
  induction p.decls with
  | nil => rfl
  | cons x xs ih =>
    rw [List.map_cons, List.flatMap_cons, List.flatMap_cons, ih]
    cases x <;> simp [Decl.noted, Decl.bare, bareAll_noted]

mutual
theorem noted_noted : (s : Stmt) → notedStmt (notedStmt s) = notedStmt s
  | .simple s => by rw [notedStmt, notedStmt]
  | .for_ x ty it body => by rw [notedStmt, notedStmt, notedAll_notedAll body]
  | .if_ c body els => by rw [notedStmt, notedStmt, notedAll_notedAll body, notedAll_notedAll els]
  | .comment t => by rw [notedStmt, notedStmt]
  | .quote s => by rw [notedStmt, notedStmt]
theorem notedAll_notedAll : (ss : List Stmt) → notedAll (notedAll ss) = notedAll ss
  | [] => by rw [notedAll, notedAll]
  | s :: ss => by rw [notedAll, notedAll, noted_noted s, notedAll_notedAll ss]
end

theorem program_noted_noted (p : Program) : p.noted.noted = p.noted := by
  simp only [Program.noted, List.map_map, Program.mk.injEq, true_and]
  refine List.map_congr_left ?_
  intro x _
  cases x <;> simp [Decl.noted, notedAll_notedAll]

theorem single_squeeze : (t : List Char) → single (squeeze t) = true
  | [] => rfl
  | [_] => rfl
  | c :: d :: t => by
    have ih := single_squeeze (d :: t)
    rw [squeeze]
    split
    · exact ih
    · rename_i h
      obtain ⟨u, hu⟩ : ∃ u, squeeze (d :: t) = d :: u := squeeze_first d t
      rw [hu] at ih ⊢
      rw [single, ih]
      simp only [Bool.and_true, Bool.not_eq_true', Bool.and_eq_false_iff, beq_eq_false_iff_ne, ne_eq]
      by_cases hc : c = ' '
      · exact .inr fun hd => h ⟨hc, hd⟩
      · exact .inl hc
where
  squeeze_first (d : Char) : (t : List Char) → ∃ u, squeeze (d :: t) = d :: u
    | [] => ⟨[], rfl⟩
    | e :: t => by
      rw [squeeze]
      split
      · rename_i h
        obtain ⟨u, hu⟩ := squeeze_first e t
        exact ⟨u, by rw [hu, h.1, h.2]⟩
      · exact ⟨_, rfl⟩

theorem calm_onOneLine (t : List Char) : calm (String.ofList (onOneLine t)) = true :=
  calm_iff.2 ⟨line_onOneLine t, single_squeeze _⟩

mutual
theorem ok_noted : (s : Stmt) → s.Ok → (notedStmt s).Ok
  | .simple s, h => by rw [notedStmt]; exact h
  | .for_ x ty it body, h => by
    rw [Stmt.Ok] at h
    rw [notedStmt, Stmt.Ok, bareAll_noted]
    exact ⟨h.1, h.2.1, h.2.2.1, ok_notedAll body h.2.2.2.1, h.2.2.2.2⟩
  | .if_ c body els, h => by
    rw [Stmt.Ok] at h
    rw [notedStmt, Stmt.Ok, bareAll_noted, bareAll_noted, noted_nil]
    exact ⟨h.1, ok_notedAll body h.2.1, h.2.2.1, ok_notedAll els h.2.2.2.1, h.2.2.2.2⟩
  | .comment t, h => by rw [notedStmt]; exact h
  | .quote s, _ => by rw [notedStmt, Stmt.Ok]; exact calm_onOneLine _
theorem ok_notedAll : (ss : List Stmt) → OkAll ss → OkAll (notedAll ss)
  | [], h => by rw [notedAll]; exact h
  | s :: ss, h => by
    rw [OkAll] at h
    rw [notedAll, OkAll]
    exact ⟨ok_noted s h.1, ok_notedAll ss h.2⟩
end

theorem decl_ok_noted {x : Decl} (h : x.Ok) : x.noted.Ok := by
  cases x with
  | fn ds g doc body =>
    obtain ⟨h1, h2, h3, h4, h5, h6, h7⟩ := h
    exact ⟨h1, h2, h3, ok_notedAll body h4, by rw [bareAll_noted]; exact h5, h6, by rw [textBody_noted]; exact h7⟩
  | quote d =>
    refine ⟨calm_onOneLine _, ?_⟩
    have := h.2.2
    rw [← textDecl_noted] at this
    exact this
  | _ => exact h

mutual
theorem depth_noted : (s : Stmt) → (notedStmt s).depth = s.depth
  | .simple s => by rw [notedStmt]
  | .for_ x ty it body => by rw [notedStmt, Stmt.depth, Stmt.depth, depth_notedAll body]
  | .if_ c body els => by rw [notedStmt, Stmt.depth, Stmt.depth, depth_notedAll body, depth_notedAll els]
  | .comment t => by rw [notedStmt]
  | .quote s => by rw [notedStmt, Stmt.depth, Stmt.depth]
theorem depth_notedAll : (ss : List Stmt) → depthStmts (notedAll ss) = depthStmts ss
  | [] => by rw [notedAll]
  | s :: ss => by rw [notedAll, depthStmts, depthStmts, depth_noted s, depth_notedAll ss]
end

theorem program_ok_noted {p : Program} (h : p.Ok) : p.noted.Ok := by
  refine ⟨h.1, ?_⟩
  intro y hy
  obtain ⟨x, hx, rfl⟩ := List.mem_map.1 hy
  exact decl_ok_noted (h.2 x hx)

theorem program_shallow_noted {p : Program} (h : p.Shallow) : p.noted.Shallow := by
  intro y hy
  obtain ⟨x, hx, rfl⟩ := List.mem_map.1 hy
  have : x.noted.depth = x.depth := by
    cases x <;> simp [Decl.noted, Decl.depth, depth_notedAll]
  rw [this]
  exact h x hx

/-- Programs have the same text if and only if they have the same declarations, statements, comments and documentation. -/
theorem textProgram_eq {p q : Program} (hp : p.Ok) (hq : q.Ok) (hdp : p.Shallow) (hdq : q.Shallow) :
    textProgram p = textProgram q ↔ p.noted = q.noted := by
  constructor
  · intro h
    have h1 := program_readWhole hp hdp
    rw [h, program_readWhole hq hdq] at h1
    exact (Option.some.inj h1).symm
  · intro h
    rw [← textProgram_noted p, h, textProgram_noted]

end VyPrint
end Mutagenyx
