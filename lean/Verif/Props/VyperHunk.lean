import Verif.Spec.VyperHunk
import Verif.Props.VyperMutants

/-!
# C86: a Vyper mutant differs from the source only in the lines of one statement and in comments
-/

namespace Mutagenyx
namespace VyGrammar

theorem AtLine.append {p q : List Char} (hp : AtLine p) (hq : AtLine q) : AtLine (p ++ q) := by
  rcases hq with rfl | ⟨r, rfl⟩
  · simpa using hp
  · exact .inr ⟨p ++ r, by simp⟩

theorem atLine_end (p : List Char) : AtLine (p ++ ['\n']) := .inr ⟨p, rfl⟩

theorem LinesReplaced.frame {old new x y p : List Char} (h : LinesReplaced old new x y) (hp : AtLine p) (q : List Char) :
    LinesReplaced old new (p ++ (x ++ q)) (p ++ (y ++ q)) := by
  obtain ⟨pre, post, h1, rfl, rfl⟩ := h
  exact ⟨p ++ pre, post ++ q, hp.append h1, by simp, by simp⟩

theorem LinesSwapped.frame {a b x y p : List Char} (h : LinesSwapped a b x y) (hp : AtLine p) (q : List Char) :
    LinesSwapped a b (p ++ (x ++ q)) (p ++ (y ++ q)) := by
  obtain ⟨pre, mid, post, h1, h2, rfl, rfl⟩ := h
  exact ⟨p ++ pre, mid, post ++ q, hp.append h1, h2, by simp, by simp⟩

theorem CommentLine.frame {note : String} {x y p : List Char} (h : CommentLine note x y) (hp : AtLine p) (q : List Char) :
    CommentLine note (p ++ (x ++ q)) (p ++ (y ++ q)) := by
  obtain ⟨d, pre, post, more, h1, h2, rfl, rfl⟩ := h
  exact ⟨d, p ++ pre, post ++ q, more, hp.append h1, h2, by simp, by simp⟩

theorem atLine_lines (d : Nat) : ∀ ss : List Stmt, AtLine (textLines d ss)
  | [] => .inl (by simp [textLines])
  | s :: ss => by
    have := (atLine_end (blanks d ++ textStmt d s)).append (atLine_lines d ss)
    simpa [textLines] using this

theorem lines_append (d : Nat) (a b : List Stmt) : textLines d (a ++ b) = textLines d a ++ textLines d b := by
  induction a with
  | nil => simp [textLines]
  | cons s a ih => simp [textLines, ih]

theorem further_lines (d : Nat) (ss : List Stmt) (r : List Char) : textFurther d ss ++ '\n' :: r = '\n' :: (textLines d ss ++ r) := by
  induction ss with
  | nil => simp [textFurther, textLines]
  | cons s ss ih => simp [textFurther, textLines, ih]

/-- Statements with a line break behind the last. -/
theorem body_lines {d : Nat} {ss : List Stmt} (h : ss ≠ []) (r : List Char) : textBody d ss ++ '\n' :: r = textLines d ss ++ r := by
  cases ss with
  | nil => exact absurd rfl h
  | cons s ss => simp [textBody, textLines, further_lines]

theorem atLine_decorators : ∀ es : List Expr, AtLine (textDecorators es)
  | [] => .inl (by simp [textDecorators])
  | e :: es => by
    have := (atLine_end ('@' :: textE 0 e)).append (atLine_decorators es)
    simpa [textDecorators] using this

theorem decorators_append (a b : List Expr) : textDecorators (a ++ b) = textDecorators a ++ textDecorators b := by
  induction a with
  | nil => simp [textDecorators]
  | cons s a ih => simp [textDecorators, ih]

theorem fields_lines (ss : List Simple) : textFields ss = textLines 1 (ss.map .simple) := by
  induction ss with
  | nil => simp [textFields, textLines]
  | cons s ss ih => simp [textFields, textLines, textStmt, ih]

theorem functions_append (a b : List (Sig × String)) : textFunctions (a ++ b) = textFunctions a ++ textFunctions b := by
  induction a with
  | nil => simp [textFunctions]
  | cons s a ih => obtain ⟨g, m⟩ := s; simp [textFunctions, ih]

theorem atLine_functions : ∀ fs : List (Sig × String), AtLine (textFunctions fs)
  | [] => .inl (by simp [textFunctions])
  | (g, m) :: fs => by
    have := (atLine_end (blanks 1 ++ (textSig 1 g ++ ' ' :: m.toList))).append (atLine_functions fs)
    simpa [textFunctions] using this

theorem decls_append (a b : List Decl) : textDecls (a ++ b) = textDecls a ++ textDecls b := by
  induction a with
  | nil => simp [textDecls]
  | cons s a ih => simp [textDecls, ih]

theorem atLine_decls : ∀ ds : List Decl, AtLine (textDecls ds)
  | [] => .inl (by simp [textDecls])
  | x :: xs => by
    have := (atLine_end (textDecl x ++ ['\n'])).append (atLine_decls xs)
    simpa [textDecls] using this

/-! ### Frames: where a statement or declaration is in the text of a larger one -/

/-- The lines of the head of a loop, and those behind the statements. -/
theorem for_frame (d : Nat) (x : String) (ty : Option Expr) (it : Expr) (body : List Stmt) :
    blanks d ++ (textStmt d (.for_ x ty it body) ++ ['\n']) =
      (blanks d ++ (Piece.text d (.for_ x ty it) ++ ['\n'])) ++ (textLines (d + 1) body ++ ['\n']) := by
  simp [textStmt, Piece.text]

/-- What is behind the statements of the first branch. -/
def elsePart (d : Nat) (els : List Stmt) : List Char :=
  if els = [] then [] else blanks d ++ ("else:\n".toList ++ textLines (d + 1) els)

theorem if_frame (d : Nat) (c : Expr) {body : List Stmt} (hb : body ≠ []) (els : List Stmt) :
    blanks d ++ (textStmt d (.if_ c body els) ++ ['\n']) =
      (blanks d ++ (Piece.text d (.if_ c) ++ ['\n'])) ++ (textLines (d + 1) body ++ elsePart d els) := by
  unfold elsePart
  by_cases he : els = []
  · subst he
    have := body_lines (d := d + 1) hb []
    simp only [textStmt, Piece.text, if_pos, List.append_nil, List.append_assoc, List.cons_append, List.nil_append] at this ⊢
    rw [this]
  · have h1 := body_lines (d := d + 1) he []
    have h2 := fun r => body_lines (d := d + 1) hb r
    simp only [textStmt, Piece.text, if_neg he, List.append_assoc, List.cons_append, List.nil_append, List.append_nil] at h1 h2 ⊢
    rw [h2, h1]

theorem else_frame (d : Nat) (c : Expr) (body : List Stmt) {els : List Stmt} (he : els ≠ []) :
    blanks d ++ (textStmt d (.if_ c body els) ++ ['\n']) =
      (blanks d ++ (Piece.text d (.if_ c) ++ '\n' :: (textBody (d + 1) body ++ '\n' :: (blanks d ++ "else:".toList))) ++ ['\n']) ++
        textLines (d + 1) els := by
  have h1 := body_lines (d := d + 1) he []
  simp only [textStmt, Piece.text, if_neg he, List.append_assoc, List.cons_append, List.nil_append, List.append_nil] at h1 ⊢
  rw [h1]
  rfl

theorem lines_place (d : Nat) (pre : List Stmt) (s : Stmt) (post : List Stmt) :
    textLines d (pre ++ s :: post) = textLines d pre ++ ((blanks d ++ (textStmt d s ++ ['\n'])) ++ textLines d post) := by
  simp [lines_append, textLines]

/-- What is between the signature and the statements of a function. -/
def docPart : Option String → List Char
  | none => []
  | some t => '\n' :: (blanks 1 ++ (textDoc 1 t ++ ['\n']))

theorem fn_frame (ds : List Expr) (g : Sig) (doc : Option String) {body : List Stmt} (hb : body ≠ []) :
    textDecl (.fn ds g doc body) ++ ['\n', '\n'] =
      (textDecorators ds ++ (textSig 0 g ++ docPart doc) ++ ['\n']) ++ (textLines 1 body ++ ['\n']) := by
  have := body_lines (d := 1) hb ['\n']
  cases doc <;> simp only [textDecl, docPart, textFront, List.append_assoc, List.cons_append, List.nil_append] at this ⊢ <;> rw [this]

theorem sig_frame (ds : List Expr) (doc : Option String) (body : List Stmt) :
    ∃ rest, ∀ g, textDecl (.fn ds g doc body) ++ ['\n', '\n'] = textDecorators ds ++ (textSig 0 g ++ '\n' :: rest) := by
  cases doc with
  | none => exact ⟨textBody 1 body ++ ['\n', '\n'], fun g => by simp [textDecl, textFront]⟩
  | some t => exact ⟨blanks 1 ++ (textDoc 1 t ++ '\n' :: '\n' :: (textBody 1 body ++ ['\n', '\n'])), fun g => by simp [textDecl, textFront]⟩

theorem decl_frame (doc : Option String) (pre post : List Decl) (x : Decl) :
    ∃ p q, AtLine p ∧ ∀ x, textProgram ⟨doc, pre ++ x :: post⟩ = p ++ ((textDecl x ++ ['\n', '\n']) ++ q) := by
  cases doc with
  | none => exact ⟨textDecls pre, textDecls post, atLine_decls pre, fun x => by simp [textProgram, decls_append, textDecls]⟩
  | some t =>
    refine ⟨(textDoc 0 t ++ ['\n'] ++ ['\n']) ++ textDecls pre, textDecls post, (atLine_end _).append (atLine_decls pre), fun x => ?_⟩
    simp [textProgram, decls_append, textDecls]

/-! ### A change in the text -/

/-- The text is changed in the lines of a part, of a statement or of a declaration. -/
def Changed (c : Change) (Q : Prop) (x y : List Char) : Prop :=
  (∃ e u u', InPiece c u u' ∧ LinesReplaced (blanks e ++ u.text e) (blanks e ++ u'.text e) x y) ∨
  (∃ e s s', c.stmt s s' ∧ LinesReplaced (blanks e ++ textStmt e s) (blanks e ++ textStmt e s') x y) ∨
  (∃ z z', c.decl z z' ∧ LinesReplaced (textDecl z) (textDecl z') x y) ∨
  Q ∧ QuoteChange c x y

theorem QuoteChange.frame {c : Change} {x y p : List Char} (h : QuoteChange c x y) (hp : AtLine p) (q : List Char) :
    QuoteChange c (p ++ (x ++ q)) (p ++ (y ++ q)) := by
  obtain ⟨d, s, s', h1, h2⟩ := h
  exact ⟨d, s, s', h1, h2.frame hp q⟩

theorem Changed.frame {c : Change} {Q : Prop} {x y p : List Char} (h : Changed c Q x y) (hp : AtLine p) (q : List Char) :
    Changed c Q (p ++ (x ++ q)) (p ++ (y ++ q)) := by
  rcases h with ⟨e, u, u', h1, h2⟩ | ⟨e, s, s', h1, h2⟩ | ⟨z, z', h1, h2⟩ | ⟨h1, h2⟩
  · exact .inl ⟨e, u, u', h1, h2.frame hp q⟩
  · exact .inr (.inl ⟨e, s, s', h1, h2.frame hp q⟩)
  · exact .inr (.inr (.inl ⟨z, z', h1, h2.frame hp q⟩))
  · exact .inr (.inr (.inr ⟨h1, h2.frame hp q⟩))

theorem anyQuote_append (a b : List Stmt) : anyQuote (a ++ b) = (anyQuote a || anyQuote b) := by
  induction a with
  | nil => simp [anyQuote]
  | cons s a ih => simp [anyQuote, ih, Bool.or_assoc]

theorem Changed.piece {c : Change} {Q : Prop} {u u' : Piece} (h : InPiece c u u') (d : Nat) (rest : List Char) :
    Changed c Q (blanks d ++ (u.text d ++ '\n' :: rest)) (blanks d ++ (u'.text d ++ '\n' :: rest)) :=
  .inl ⟨d, u, u', h, [], rest, .inl rfl, by simp, by simp⟩

theorem changed_stmt {c : Change} {Q : Prop} {s s' : Stmt} (h : InStmt c s s') : (s.hasQuote = true → Q) → ∀ d,
    Changed c Q (blanks d ++ (textStmt d s ++ ['\n'])) (blanks d ++ (textStmt d s' ++ ['\n'])) := by
  induction h with
  | here h => exact fun _ d => .inr (.inl ⟨d, _, _, h, [], [], .inl rfl, by simp, by simp⟩)
  | simple h => exact fun _ d => Changed.piece (.simple h) d []
  | quote h => exact fun hq d => .inr (.inr (.inr ⟨hq (by simp [Stmt.hasQuote]), d, _, _, .inl ⟨_, _, h, rfl, rfl⟩, [], [], .inl rfl,
      by simp [textStmt], by simp [textStmt]⟩))
  | @forType x e e' it b h =>
    intro hq d
    have := Changed.piece (Q := Q) (InPiece.forType (x := x) (it := it) h) d (textLines (d + 1) b ++ ['\n'])
    simpa [textStmt, Piece.text] using this
  | @forOver x ty e e' b h =>
    intro hq d
    have := Changed.piece (Q := Q) (InPiece.forOver (x := x) (ty := ty) h) d (textLines (d + 1) b ++ ['\n'])
    simpa [textStmt, Piece.text] using this
  | @forBody x ty it s s' pre post _ ih =>
    intro hq d
    have := (ih (fun h => hq (by simp [Stmt.hasQuote, anyQuote_append, anyQuote, h])) (d + 1)).frame ((atLine_end (blanks d ++ Piece.text d (.for_ x ty it))).append (atLine_lines (d + 1) pre))
      (textLines (d + 1) post ++ ['\n'])
    rw [for_frame, for_frame, lines_place, lines_place]
    simpa using this
  | @ifTest e e' b els h =>
    intro hq d
    have := Changed.piece (Q := Q) (InPiece.if_ h) d (textBody (d + 1) b ++
      ((if els = [] then [] else '\n' :: (blanks d ++ ("else:\n".toList ++ textBody (d + 1) els))) ++ ['\n']))
    simpa [textStmt, Piece.text] using this
  | @ifBody t s s' pre post els _ ih =>
    intro hq d
    have := (ih (fun h => hq (by simp [Stmt.hasQuote, anyQuote_append, anyQuote, h])) (d + 1)).frame ((atLine_end (blanks d ++ Piece.text d (.if_ t))).append (atLine_lines (d + 1) pre))
      (textLines (d + 1) post ++ elsePart d els)
    rw [if_frame _ _ (by simp), if_frame _ _ (by simp), lines_place, lines_place]
    simpa using this
  | @ifElse t b s s' pre post _ ih =>
    intro hq d
    have := (ih (fun h => hq (by simp [Stmt.hasQuote, anyQuote_append, anyQuote, h])) (d + 1)).frame ((atLine_end (blanks d ++ (Piece.text d (.if_ t) ++ '\n' :: (textBody (d + 1) b ++
      '\n' :: (blanks d ++ "else:".toList))))).append (atLine_lines (d + 1) pre)) (textLines (d + 1) post)
    rw [else_frame _ _ _ (by simp), else_frame _ _ _ (by simp), lines_place, lines_place]
    simpa using this

theorem changed_lines {c : Change} {Q : Prop} {s s' : Stmt} (h : InStmt c s s') (hq : s.hasQuote = true → Q) (d : Nat)
    (pre post : List Stmt) : Changed c Q (textLines d (pre ++ s :: post)) (textLines d (pre ++ s' :: post)) := by
  have := (changed_stmt h hq d).frame (atLine_lines d pre) (textLines d post)
  rwa [lines_place, lines_place]

theorem changed_decl {c : Change} {Q : Prop} {x x' : Decl} (h : InDecl c x x') (hq : (⟨none, [x]⟩ : Program).hasQuote = true → Q) :
    Changed c Q (textDecl x ++ ['\n', '\n']) (textDecl x' ++ ['\n', '\n']) := by
  cases h with
  | here h => exact .inr (.inr (.inl ⟨_, _, h, [], ['\n'], .inl rfl, by simp, by simp⟩))
  | simple h => exact Changed.piece (.simple h) 0 ['\n']
  | quote h => exact .inr (.inr (.inr ⟨hq rfl, 0, _, _, .inr ⟨_, _, h, rfl, rfl⟩, [], ['\n'], .inl rfl,
      by simp [textDecl, blanks], by simp [textDecl, blanks]⟩))
  | @field k n s s' pre post h =>
    have hl := (changed_lines (Q := Q) (InStmt.simple h) (by simp [Stmt.hasQuote]) 1 (pre.map .simple) (post.map .simple)).frame
      (atLine_end (k.toList ++ ' ' :: (n.toList ++ [':'])))
    by_cases hk : k = "struct"
    · have := hl ['\n', '\n']
      simp only [textDecl, if_pos hk, fields_lines, textHead, List.map_append, List.map_cons, List.append_assoc, List.cons_append,
        List.nil_append] at this ⊢
      exact this
    · have := hl ['\n']
      have hb := fun x : Simple => body_lines (d := 1) (ss := pre.map Stmt.simple ++ Stmt.simple x :: post.map Stmt.simple) (by simp) ['\n']
      simp only [textDecl, if_neg hk, textHead, List.map_append, List.map_cons, List.append_assoc, List.cons_append,
        List.nil_append] at this hb ⊢
      rw [hb, hb]
      exact this
  | @function n g g' m pre post h =>
    have := (Changed.piece (Q := Q) (InPiece.function (m := m) h) 1 []).frame
      ((atLine_end ("interface".toList ++ ' ' :: (n.toList ++ [':']))).append (atLine_functions pre)) (textFunctions post ++ ['\n', '\n'])
    simpa [textDecl, textHead, functions_append, textFunctions, Piece.text] using this
  | @decorator es es' g doc b h =>
    obtain @⟨e, e', pre, post, h⟩ := h
    have key : ∀ e, textDecl (.fn (pre ++ e :: post) g doc b) ++ ['\n', '\n'] = textDecorators pre ++
        ((blanks 0 ++ (Piece.text 0 (.decorator e) ++ ['\n'])) ++ (textDecorators post ++ (textSig 0 g ++ (docPart doc ++
          ('\n' :: (textBody 1 b ++ ['\n', '\n'])))))) := by
      intro e
      cases doc <;> simp [textDecl, textFront, decorators_append, textDecorators, docPart, Piece.text, blanks]
    rw [key, key]
    exact (Changed.piece (InPiece.decorator h) 0 []).frame (atLine_decorators pre) _
  | @sig ds g g' doc b h =>
    obtain ⟨rest, hr⟩ := sig_frame ds doc b
    have := (Changed.piece (Q := Q) (InPiece.signature h) 0 rest).frame (atLine_decorators ds) []
    simp only [List.append_nil] at this
    rw [hr, hr]
    exact this
  | @body ds g doc s s' pre post h =>
    rw [fn_frame _ _ _ (by simp), fn_frame _ _ _ (by simp)]
    exact (changed_lines h (fun h => hq (by simp [Program.hasQuote, anyQuote_append, anyQuote, h])) 1 pre post).frame (atLine_end _) _

/-- A change of a program changes the lines of one part, statement or declaration. -/
theorem changed_program {c : Change} {p p' : Program} (h : InProgram c p p') :
    Changed c (p.hasQuote = true) (textProgram p) (textProgram p') := by
  obtain @⟨doc, d, d', pre, post, h⟩ := h
  obtain ⟨a, q, ha, hf⟩ := decl_frame doc pre post d
  rw [hf, hf]
  refine (changed_decl h fun hq => ?_).frame ha q
  simp only [Program.hasQuote, List.any_cons, List.any_nil, Bool.or_false] at hq
  simp [Program.hasQuote, hq]

/-! ### The algorithms -/

variable {c : Change}

theorem none_expr (h1 : ∀ e e', ¬ c.expr e e') {e e' : Expr} (h : InExpr c e e') : False := by
  induction h with
  | here h => exact h1 _ _ h
  | _ => assumption

theorem none_row (h1 : ∀ e e', ¬ c.expr e e') {es es' : List Expr} (h : InRow c es es') : False := by
  obtain ⟨h⟩ := h
  exact none_expr h1 h

theorem none_option (h1 : ∀ e e', ¬ c.expr e e') {e e' : Option Expr} (h : InOption c e e') : False := by
  obtain ⟨h⟩ := h
  exact none_expr h1 h

theorem none_simple (h1 : ∀ e e', ¬ c.expr e e') (h2 : ∀ s s', ¬ c.simple s s') {s s' : Simple} (h : InSimple c s s') : False := by
  cases h <;> first | exact h2 _ _ ‹_› | exact none_expr h1 ‹_› | exact none_row h1 ‹_› | exact none_option h1 ‹_›

theorem none_sig (h1 : ∀ e e', ¬ c.expr e e') {g g' : Sig} (h : InSig c g g') : False := by
  cases h with
  | params h => cases h <;> first | exact none_expr h1 ‹_› | exact none_option h1 ‹_›
  | results h => exact none_row h1 h

theorem none_piece (h1 : ∀ e e', ¬ c.expr e e') (h2 : ∀ s s', ¬ c.simple s s') {u u' : Piece} (h : InPiece c u u') : False := by
  cases h <;> first | exact none_simple h1 h2 ‹_› | exact none_expr h1 ‹_› | exact none_option h1 ‹_› | exact none_sig h1 ‹_›

theorem LinesReplaced.inner {old new o n x y : List Char} (h : LinesReplaced old new x y)
    (hi : LinesReplaced o n (old ++ ['\n']) (new ++ ['\n'])) : LinesReplaced o n x y := by
  obtain ⟨pre, post, h1, rfl, rfl⟩ := h
  have := hi.frame h1 post
  simpa using this

theorem LinesReplaced.swapped {old new a b x y : List Char} (h : LinesReplaced old new x y)
    (hi : LinesSwapped a b (old ++ ['\n']) (new ++ ['\n'])) : LinesSwapped a b x y := by
  obtain ⟨pre, post, h1, rfl, rfl⟩ := h
  have := hi.frame h1 post
  simpa using this

theorem fn_frame' (ds : List Expr) (g : Sig) (doc : Option String) {body : List Stmt} (hb : body ≠ []) :
    textDecl (.fn ds g doc body) ++ ['\n'] = (textDecorators ds ++ (textSig 0 g ++ docPart doc) ++ ['\n']) ++ (textLines 1 body ++ []) := by
  have := body_lines (d := 1) hb []
  cases doc <;> simp only [textDecl, docPart, textFront, List.append_assoc, List.cons_append, List.nil_append] at this ⊢ <;> rw [this]

theorem swapped_lines {xs ys : List Stmt} (h : Swapped NoReturn xs ys) (d : Nat) : ∃ a b, NoReturn a ∧ NoReturn b ∧
    LinesSwapped (blanks d ++ textStmt d a) (blanks d ++ textStmt d b) (textLines d xs) (textLines d ys) ∧ xs ≠ [] ∧ ys ≠ [] := by
  obtain ⟨pre, a, mid, b, post, ha, hb, rfl, rfl⟩ := h
  exact ⟨a, b, ha, hb, ⟨textLines d pre, textLines d mid, textLines d post, atLine_lines d pre, atLine_lines d mid,
    by simp [lines_append, textLines], by simp [lines_append, textLines]⟩, by simp, by simp⟩

theorem deleted_lines {xs ys : List Stmt} (h : Deleted xs ys) (d : Nat) : ∃ x : Stmt, ∃ more,
    (more = [] ∨ ∃ y, (y = .pass ∨ ∃ vs, y = .ret vs) ∧ more = '\n' :: (blanks d ++ textSimple d y)) ∧
    LinesReplaced (blanks d ++ textStmt d x) (blanks d ++ ('#' :: ' ' :: onOneLine (textStmt 0 x)) ++ more) (textLines d xs) (textLines d ys) ∧
    xs ≠ [] ∧ ys ≠ [] := by
  obtain ⟨a, x, b, more, rfl, rfl, hm⟩ := h
  rcases hm with rfl | ⟨rfl, rfl, hm⟩
  · exact ⟨x, [], .inl rfl, ⟨textLines d a, textLines d b, atLine_lines d a, by simp [lines_append, textLines, textStmt],
      by simp [lines_append, textLines, textStmt]⟩, by simp, by simp⟩
  · have : ∃ y, (y = .pass ∨ ∃ vs, y = .ret vs) ∧ more = [.simple y] := by
      rcases hm with rfl | ⟨vs, rfl⟩
      · exact ⟨_, .inl rfl, rfl⟩
      · exact ⟨_, .inr ⟨vs, rfl⟩, rfl⟩
    obtain ⟨y, hy, rfl⟩ := this
    exact ⟨x, _, .inr ⟨y, hy, rfl⟩, ⟨[], [], .inl rfl, by simp [textLines, textStmt], by simp [textLines, textStmt]⟩,
      by simp, by simp⟩

theorem text_change {decimal : Nat → String} {t : MutationType} {p p' : Program}
    (h : Changed (changeOf decimal t) False (textProgram p) (textProgram p')) : TextChange decimal t (textProgram p) (textProgram p') := by
  have other : ∀ c : Change, (∀ s s', ¬ c.stmt s s') → (∀ x x', ¬ c.decl x x') → Changed c False (textProgram p) (textProgram p') →
      ∃ d u u', InPiece c u u' ∧
        LinesReplaced (blanks d ++ Piece.text d u) (blanks d ++ Piece.text d u') (textProgram p) (textProgram p') := by
    rintro c h1 h2 (h | ⟨_, _, _, h, _⟩ | ⟨_, _, h, _⟩ | ⟨h, _⟩)
    · exact h
    · exact absurd h (h1 _ _)
    · exact absurd h (h2 _ _)
    · exact h.elim
  cases t
  case swapLines =>
    rcases h with ⟨_, _, _, h, _⟩ | ⟨e, s, s', h, hr⟩ | ⟨z, z', ⟨ds, g, doc, b, b', rfl, rfl, hs⟩, hr⟩ | ⟨h, _⟩
    · exact (none_piece (fun _ _ => id) (fun _ _ => id) h).elim
    · rcases h with ⟨x, ty, it, b, b', rfl, rfl, hs⟩ | ⟨c, b, b', els, rfl, rfl, hs⟩
      · obtain ⟨a, b, ha, hb, hl, h1, h2⟩ := swapped_lines hs (e + 1)
        refine ⟨e + 1, a, b, ha, hb, hr.swapped ?_⟩
        rw [List.append_assoc, List.append_assoc, for_frame, for_frame, List.append_assoc]
        have := hl.frame (atLine_end (blanks e ++ Piece.text e (.for_ x ty it))) ['\n']
        simpa using this
      · obtain ⟨a, b, ha, hb, hl, h1, h2⟩ := swapped_lines hs (e + 1)
        refine ⟨e + 1, a, b, ha, hb, hr.swapped ?_⟩
        rw [List.append_assoc, List.append_assoc, if_frame _ _ h1, if_frame _ _ h2]
        have := hl.frame (atLine_end (blanks e ++ Piece.text e (.if_ c))) (elsePart e els)
        simpa using this
    · obtain ⟨a, b, ha, hb, hl, h1, h2⟩ := swapped_lines hs 1
      refine ⟨1, a, b, ha, hb, hr.swapped ?_⟩
      rw [fn_frame' _ _ _ h1, fn_frame' _ _ _ h2]
      exact hl.frame (atLine_end _) []
    · exact h.elim
  case deleteStatement =>
    rcases h with ⟨_, _, _, h, _⟩ | ⟨e, s, s', h, hr⟩ | ⟨z, z', h, hr⟩ | ⟨h, _⟩
    · exact (none_piece (fun _ _ => id) (fun _ _ => id) h).elim
    · rcases h with ⟨x, ty, it, b, b', rfl, rfl, hs⟩ | ⟨c, b, b', els, rfl, rfl, hs⟩
      · obtain ⟨y, more, hm, hl, h1, h2⟩ := deleted_lines hs (e + 1)
        refine ⟨e + 1, _, _, more, .inl ⟨y, rfl, rfl⟩, hm, hr.inner ?_⟩
        have e1 := for_frame e x ty it b
        have e2 := for_frame e x ty it b'
        rw [← List.append_assoc] at e1 e2
        rw [e1, e2]
        have := hl.frame (atLine_end (blanks e ++ Piece.text e (.for_ x ty it))) ['\n']
        simpa using this
      · obtain ⟨y, more, hm, hl, h1, h2⟩ := deleted_lines hs (e + 1)
        refine ⟨e + 1, _, _, more, .inl ⟨y, rfl, rfl⟩, hm, hr.inner ?_⟩
        have e1 := if_frame e c h1 els
        have e2 := if_frame e c h2 els
        rw [← List.append_assoc] at e1 e2
        rw [e1, e2]
        have := hl.frame (atLine_end (blanks e ++ Piece.text e (.if_ c))) (elsePart e els)
        simpa using this
    · rcases h with ⟨ds, g, doc, b, b', rfl, rfl, hs⟩ | rfl
      · obtain ⟨y, more, hm, hl, h1, h2⟩ := deleted_lines hs 1
        refine ⟨1, _, _, more, .inl ⟨y, rfl, rfl⟩, hm, hr.inner ?_⟩
        rw [fn_frame' _ _ _ h1, fn_frame' _ _ _ h2]
        exact hl.frame (atLine_end _) []
      · exact ⟨0, _, _, [], .inr ⟨z, rfl, rfl, rfl⟩, .inl rfl, by simpa [blanks, textDecl] using hr⟩
    · exact h.elim
  case ifStatement =>
    rcases h with ⟨_, _, _, h, _⟩ | ⟨e, s, s', ⟨c, c', b, els, rfl, rfl, hc⟩, hr⟩ | ⟨z, z', h, hr⟩ | ⟨h, _⟩
    · exact (none_piece (fun _ _ => id) (fun _ _ => id) h).elim
    · refine ⟨e, c, c', hc, hr.inner ⟨[], textBody (e + 1) b ++
        ((if els = [] then [] else '\n' :: (blanks e ++ ("else:\n".toList ++ textBody (e + 1) els))) ++ ['\n']), .inl rfl, ?_, ?_⟩⟩ <;>
      simp [textStmt, Piece.text]
    · exact absurd h id
    · exact h.elim
  all_goals exact other _ (fun _ _ => id) (fun _ _ => id) h

/-- **C86 (one change).** A change that an algorithm makes to a program changes only the lines of one statement, of the head of a
loop, branch or function, or of a decorator in its text; for `SwapLines` the lines of two statements change places.  If the
program has comments that quote statements, the change can be in one of these, too. -/
theorem C86_change {decimal : Nat → String} {t : MutationType} {p p' : Program} (h : InProgram (changeOf decimal t) p p') :
    TextChange decimal t (textProgram p) (textProgram p') ∨
      p.hasQuote = true ∧ QuoteChange (changeOf decimal t) (textProgram p) (textProgram p') := by
  rcases changed_program h with h | h | h | h
  · exact .inl (text_change (.inl h))
  · exact .inl (text_change (.inr (.inl h)))
  · exact .inl (text_change (.inr (.inr (.inl h))))
  · exact .inr h

/-- **C86 (one change, no quotes).** In a program without such comments, like those that the compiler gives, only these lines
change. -/
theorem C86_unquoted {decimal : Nat → String} {t : MutationType} {p p' : Program} (hq : p.hasQuote = false)
    (h : InProgram (changeOf decimal t) p p') : TextChange decimal t (textProgram p) (textProgram p') :=
  (C86_change h).resolve_right fun h => by rw [hq] at h; exact absurd h.1 (by decide)

/-! ### The comment -/

/-- The same change, at a place that is printed as it is. -/
def okAfter (c : Change) : Change where
  expr := c.expr
  simple := c.simple
  stmt s s' := c.stmt s s' ∧ s'.Ok
  decl x x' := c.decl x x' ∧ x'.Ok

theorem okAll_mem {ss : List Stmt} : OkAll ss → ∀ s ∈ ss, s.Ok := by
  induction ss with
  | nil => simp
  | cons s ss ih =>
    intro h x hx
    simp only [OkAll] at h
    rcases List.mem_cons.1 hx with rfl | hx
    · exact h.1
    · exact ih h.2 x hx

theorem okAfter_stmt (h1 : ∀ e e', ¬ c.expr e e') (h2 : ∀ s s', ¬ c.simple s s') {s s' : Stmt} (h : InStmt c s s') :
    s'.Ok → InStmt (okAfter c) s s' := by
  induction h with
  | here h => exact fun hk => .here ⟨h, hk⟩
  | simple h => exact (none_simple h1 h2 h).elim
  | quote _ ih =>
    intro hk
    simp only [Stmt.Ok] at hk
    exact .quote (ih hk.1)
  | forType h => exact (none_option h1 h).elim
  | forOver h => exact (none_expr h1 h).elim
  | forBody _ ih =>
    intro hk
    simp only [Stmt.Ok] at hk
    exact .forBody (ih (okAll_mem hk.2.2.2.1 _ (by simp)))
  | ifTest h => exact (none_expr h1 h).elim
  | ifBody _ ih =>
    intro hk
    simp only [Stmt.Ok] at hk
    exact .ifBody (ih (okAll_mem hk.2.1 _ (by simp)))
  | ifElse _ ih =>
    intro hk
    simp only [Stmt.Ok] at hk
    exact .ifElse (ih (okAll_mem hk.2.2.2.1 _ (by simp)))

theorem okAfter_decl (h1 : ∀ e e', ¬ c.expr e e') (h2 : ∀ s s', ¬ c.simple s s') {x x' : Decl} (h : InDecl c x x') (hk : x'.Ok) :
    InDecl (okAfter c) x x' := by
  induction h with
  | here h => exact .here ⟨h, hk⟩
  | simple h => exact (none_simple h1 h2 h).elim
  | quote _ ih => exact .quote (ih hk.1)
  | field h => exact (none_simple h1 h2 h).elim
  | function h => exact (none_sig h1 h).elim
  | decorator h => exact (none_row h1 h).elim
  | sig h => exact (none_sig h1 h).elim
  | body h =>
    simp only [Decl.Ok] at hk
    exact .body (okAfter_stmt h1 h2 h (okAll_mem hk.2.2.2.1 _ (by simp)))

theorem inStmt_okAfter (h1 : ∀ e e', ¬ c.expr e e') (h2 : ∀ s s', ¬ c.simple s s') {s s' : Stmt} (h : InStmt (okAfter c) s s') :
    InStmt c s s' := by
  induction h with
  | here h => exact .here h.1
  | simple h => exact (none_simple (c := okAfter c) h1 h2 h).elim
  | quote _ ih => exact .quote ih
  | forType h => exact (none_option (c := okAfter c) h1 h).elim
  | forOver h => exact (none_expr (c := okAfter c) h1 h).elim
  | forBody _ ih => exact .forBody ih
  | ifTest h => exact (none_expr (c := okAfter c) h1 h).elim
  | ifBody _ ih => exact .ifBody ih
  | ifElse _ ih => exact .ifElse ih

theorem inDecl_okAfter (h1 : ∀ e e', ¬ c.expr e e') (h2 : ∀ s s', ¬ c.simple s s') {x x' : Decl} (h : InDecl (okAfter c) x x') :
    InDecl c x x' := by
  induction h with
  | here h => exact .here h.1
  | simple h => exact (none_simple (c := okAfter c) h1 h2 h).elim
  | quote _ ih => exact .quote ih
  | field h => exact (none_simple (c := okAfter c) h1 h2 h).elim
  | function h => exact (none_sig (c := okAfter c) h1 h).elim
  | decorator h => exact (none_row (c := okAfter c) h1 h).elim
  | sig h => exact (none_sig (c := okAfter c) h1 h).elim
  | body h => exact .body (inStmt_okAfter h1 h2 h)

theorem okAfter_program (h1 : ∀ e e', ¬ c.expr e e') (h2 : ∀ s s', ¬ c.simple s s') {p p' : Program} (h : InProgram c p p') (hk : p'.Ok) :
    InProgram (okAfter c) p p' := by
  obtain ⟨h⟩ := h
  exact .mk (okAfter_decl h1 h2 h (hk.2 _ (by simp)))

theorem LinesReplaced.comment {old new x y : List Char} {note : String} (h : LinesReplaced old new x y)
    (hi : CommentLine note (old ++ ['\n']) (new ++ ['\n'])) : CommentLine note x y := by
  obtain ⟨pre, post, h1, rfl, rfl⟩ := h
  have := hi.frame h1 post
  simpa using this

theorem comment_lines (note : String) (d : Nat) (a b : List Stmt) :
    CommentLine note (textLines d (a ++ b)) (textLines d (a ++ .comment note :: b)) :=
  ⟨d, textLines d a, textLines d b, [], atLine_lines d a, .inl rfl, lines_append d a b, by
    simp [lines_append, textLines, textStmt]⟩

theorem bare_nonempty {a b : List Stmt} {note : String} (h : bareAll (a ++ .comment note :: b) ≠ []) : a ++ b ≠ [] := by
  intro e
  obtain ⟨rfl, rfl⟩ := List.append_eq_nil_iff.1 e
  exact h (by simp [bareAll, bare])

/-- **C86 (the comment).** A new comment in a program is one more line in its text, and perhaps an empty line behind it; or it is
in a comment that quotes a statement. -/
theorem C86_comment {note : String} {p p' : Program} (h : NewComment note p p') (hk : p'.Ok) :
    CommentLine note (textProgram p) (textProgram p') ∨
      p.hasQuote = true ∧ QuoteChange (commentIn note) (textProgram p) (textProgram p') := by
  cases h with
  | @between doc a b =>
    left
    cases doc with
    | none =>
      exact ⟨0, textDecls a, textDecls b, ['\n'], atLine_decls a, .inr rfl, by simp [textProgram, decls_append],
        by simp [textProgram, decls_append, textDecls, textDecl, blanks]⟩
    | some t =>
      exact ⟨0, (textDoc 0 t ++ ['\n'] ++ ['\n']) ++ textDecls a, textDecls b, ['\n'], (atLine_end _).append (atLine_decls a), .inr rfl,
        by simp [textProgram, decls_append], by simp [textProgram, decls_append, textDecls, textDecl, blanks]⟩
  | inside h =>
    rcases changed_program (okAfter_program (fun _ _ => id) (fun _ _ => id) h hk) with ⟨_, _, _, h, _⟩ | ⟨e, s, s', ⟨h, hk⟩, hr⟩ |
      ⟨z, z', ⟨⟨ds, g, doc, a, b, rfl, rfl⟩, hk⟩, hr⟩ | ⟨hq, d, t, t', h, hr⟩
    · exact (none_piece (fun _ _ => id) (fun _ _ => id) h).elim
    · refine .inl (hr.comment ?_)
      rw [List.append_assoc, List.append_assoc]
      rcases h with ⟨x, ty, it, a, b, rfl, rfl⟩ | ⟨c, a, b, els, rfl, rfl⟩ | ⟨c, body, a, b, rfl, rfl⟩
      · rw [for_frame, for_frame]
        exact (comment_lines note (e + 1) a b).frame (by simpa using atLine_end (blanks e ++ Piece.text e (.for_ x ty it))) _
      · simp only [Stmt.Ok] at hk
        rw [if_frame _ _ (bare_nonempty hk.2.2.1), if_frame _ _ (by simp)]
        exact (comment_lines note (e + 1) a b).frame (by simpa using atLine_end (blanks e ++ Piece.text e (.if_ c))) _
      · simp only [Stmt.Ok] at hk
        rw [else_frame _ _ _ (bare_nonempty (hk.2.2.2.2.resolve_left (by simp))), else_frame _ _ _ (by simp)]
        have := (comment_lines note (e + 1) a b).frame (atLine_end (blanks e ++ (Piece.text e (.if_ c) ++ '\n' ::
          (textBody (e + 1) body ++ '\n' :: (blanks e ++ "else:".toList))))) []
        simp only [List.append_nil] at this
        exact this
    · refine .inl (hr.comment ?_)
      simp only [Decl.Ok] at hk
      rw [fn_frame' _ _ _ (bare_nonempty hk.2.2.2.2.1), fn_frame' _ _ _ (by simp)]
      exact (comment_lines note 1 a b).frame (atLine_end _) _
    · refine .inr ⟨hq, d, t, t', ?_, hr⟩
      rcases h with ⟨s, s', h, h2⟩ | ⟨x, x', h, h2⟩
      · exact .inl ⟨s, s', inStmt_okAfter (fun _ _ => id) (fun _ _ => id) h, h2⟩
      · exact .inr ⟨x, x', inDecl_okAfter (fun _ _ => id) (fun _ _ => id) h, h2⟩

end VyGrammar

namespace VyPrint
open VyGrammar Json

variable {S R : Type} [Rand R]

/-- **C86.** After a run that ends well for a Vyper program, the text of each mutant differs from the printed program only in the
lines of one statement, of the head of a loop, branch or function, or of a decorator, where the change of the algorithm is, and in
one added comment on a line of its own, perhaps with an empty line behind it.  For `SwapLines` the lines of two statements change
places; for `DeleteStatement` the lines of one statement or declaration, also of a whole branch or function, are replaced by one
comment line with the same text in it, and perhaps a line with `pass` or `return`.  If there are comments that quote statements, the
change or the added comment can be in one of these.  Missing: the mutants that are missing in property C75, like programs with lines that do not fit. -/
theorem C86_written_partial (m : Machine S R) (hsh : ∀ l, (m.shuffle l).Perm l) {content : String → S → Option String}
    (hc : Contents m.toSys content) (hw : ∀ f t s, (m.write f t s).1 = true → content f (m.write f t s).2 = some t)
    (env : PrintEnv) (hprint : ∀ j, m.print .vyper j = Language.print env .vyper j)
    (fuel : Nat) (p : Params R) (s s' : S) (base : String)
    (hb : Path.fileName p.fileName = some base) (hs : p.useStdout = false) (name : String) (ast : Json)
    (hr : (m.reading p s).1 = .ok (.vyper, fileTree name ast))
    (htmp : ∀ n : Nat, ¬ InTemp m.toSys (Path.join p.outputDirectory (base ++ "_" ++ toString n ++ ".vy")))
    (hout : ∀ (n : Nat) t s, content (Path.join p.outputDirectory (base ++ "_" ++ toString n ++ ".vy")) (m.stdout t s) =
      content (Path.join p.outputDirectory (base ++ "_" ++ toString n ++ ".vy")) s)
    (hok : m.generate fuel p s = (.ok (), s'))
    (prog : Program) (hshow : ShowsProgram prog ast) (hpo : prog.Ok) (hps : prog.Shallow)
    (hmut : Mutable R m.env p.mutations ast) :
    ∃ before, m.print .vyper (fileTree name ast) = .ok before ∧ ∃ count ≤ p.numberOfMutants, ∀ k : Nat,
      (k < count → ∃ t ∈ p.mutations, ∃ mutator : Mutator R, Vyper.mutatorFor m.env t = some mutator ∧
        ∃ (pos : Pos) (node node' : Json) (rng rng' : R) (rep : MutatorResult) (comment : Option Json) (text : String),
          nodeAt pos (fileTree name ast) = some node ∧ mutator.isMutable node = true ∧
          mutator.mutate node rng = .ok (node', rep, comment, rng') ∧
          content (Path.join p.outputDirectory (base ++ "_" ++ toString k ++ ".vy")) s' = some text ∧
          (Writable t node' → ∃ prog' prog'', InProgram (changeOf m.env.floatText t) prog prog' ∧
            (prog'' = prog' ∨ ∃ note, comment = some (Vyper.commentNode note) ∧ NewComment note prog' prog'') ∧
            (prog''.Ok → prog''.Shallow → ∃ after, (TextChange m.env.floatText t before.toList after ∨
                prog.hasQuote = true ∧ QuoteChange (changeOf m.env.floatText t) before.toList after) ∧
              (text.toList = after ∨ ∃ note, comment = some (Vyper.commentNode note) ∧ (CommentLine note after text.toList ∨
                prog'.hasQuote = true ∧ QuoteChange (commentIn note) after text.toList))))) ∧
      (count ≤ k → content (Path.join p.outputDirectory (base ++ "_" ++ toString k ++ ".vy")) s' =
        content (Path.join p.outputDirectory (base ++ "_" ++ toString k ++ ".vy")) s) := by
  obtain ⟨count, h1, h2⟩ := C75_written_partial m hsh hc hw env hprint fuel p s s' base hb hs name ast hr htmp hout hok prog hshow
    (fun _ => hpo) hmut
  refine ⟨String.ofList (textProgram prog), ?_, count, h1, fun k => ⟨fun hk => ?_, (h2 k).2⟩⟩
  · rw [hprint]
    exact printed (by rw [C74_file]; exact printText_program hshow hpo hps)
  obtain ⟨t, ht, mu, hmu, pos, nd, nd', rng, rng', rep, comment, text, e1, e2, -, e3, e4, e5⟩ := (h2 k).1 hk
  refine ⟨t, ht, mu, hmu, pos, nd, nd', rng, rng', rep, comment, text, e1, e2, e3, e4, fun hwr => ?_⟩
  obtain ⟨prog', prog'', g1, g2, g3⟩ := e5 hwr
  refine ⟨prog', prog'', g1, g2, fun a b => ⟨textProgram prog', by rw [String.toList_ofList]; exact C86_change g1, ?_⟩⟩
  rw [(g3 a b).1]
  rcases g2 with rfl | ⟨note, n1, n2⟩
  · exact .inl rfl
  · exact .inr ⟨note, n1, C86_comment n2 a⟩

namespace HunkDemo
open DemoVyper Demo

/-- Example: for the function that returns `a * b`, the run of the example for C75, which meets the hypotheses, writes a text with the
line `return a + b` instead of `return a * b`, and a comment before it. -/
example :
    let prog := program (.bin (.leaf "a") .mult (.leaf "b"))
    let prog' := program (.bin (.leaf "a") .add (.leaf "b"))
    let prog'' := programOf [.comment note, .simple (.ret [.bin (.leaf "a") .add (.leaf "b")])]
    prog.Ok ∧ prog.Shallow ∧ prog''.Ok ∧ prog''.Shallow ∧
    ((machine plain).generate 100 params disk).1 = .ok () ∧
    ((machine plain).generate 100 params disk).2.lookup "out/x.vy_0.vy" = some (String.ofList (textProgram prog'')) ∧
    Mutable ListRand (machine plain).env params.mutations (module_ (product (name 21 "a") (name 22 "b"))) ∧
    TextChange (machine plain).env.floatText .arithmeticBinaryOp (textProgram prog) (textProgram prog') ∧
    LinesReplaced "    return a * b".toList "    return a + b".toList (textProgram prog) (textProgram prog') ∧
    CommentLine note (textProgram prog') (textProgram prog'') := by
  refine ⟨by demo_ok, by unfold Program.Shallow; decide +kernel, by demo_ok, by unfold Program.Shallow; decide +kernel,
    by decide +kernel, by decide +kernel, mutable_of_check (by decide +kernel), C86_unquoted (by decide) ?_, ?_,
    (C86_comment ?_ (by demo_ok)).resolve_right (fun h => absurd h.1 (by decide))⟩
  · exact .mk (pre := [_]) (.body (pre := []) (.simple (.ret (.mk (pre := []) (.here ⟨_, _, _, _, rfl, rfl, by decide,
      by decide, by decide⟩)))))
  · exact ⟨"interface I:\n    def g() -> uint256: view\n\n\n@external\ndef f(a: uint256, b: uint256) -> uint256:\n".toList, ['\n'],
      .inr ⟨"interface I:\n    def g() -> uint256: view\n\n\n@external\ndef f(a: uint256, b: uint256) -> uint256:".toList,
        by decide +kernel⟩, by decide +kernel, by decide +kernel⟩
  · exact .inside (.mk (pre := [_]) (.here ⟨_, _, _, [], _, rfl, rfl⟩))

/-- Example: the lines of two statements of a function that change places, a statement of a branch that is deleted, and a branch
that is deleted. -/
example :
    let a : Stmt := .simple (.aug (.leaf "x") .add (.leaf "y"))
    let b : Stmt := .simple (.expr (.call (.leaf "f") []))
    let cond : List Stmt → Stmt := fun body => .if_ (.leaf "c") body []
    TextChange (fun _ => "") .swapLines (textProgram (programOf [a, b])) (textProgram (programOf [b, a])) ∧
    textProgram (programOf [a, b]) ≠ textProgram (programOf [b, a]) ∧
    TextChange (fun _ => "") .deleteStatement (textProgram (programOf [cond [.simple .break]]))
      (textProgram (programOf [cond [.quote (.simple .break), .simple .pass]])) ∧
    TextChange (fun _ => "") .deleteStatement (textProgram (programOf [a, cond [a, b]]))
      (textProgram (programOf [a, .quote (cond [a, b])])) ∧
    LinesReplaced "    if c:\n        x += y\n        f()".toList "    # if c: x += y f()".toList
      (textProgram (programOf [a, cond [a, b]])) (textProgram (programOf [a, .quote (cond [a, b])])) ∧
    (programOf [a, .quote (cond [a, b])]).Ok ∧ (programOf [a, .quote (cond [a, b])]).Shallow := by
  refine ⟨C86_unquoted (by decide) (.mk (pre := [_]) (.here ⟨_, _, _, _, _, rfl, rfl, [], _, [], _, [], fun _ h => (by cases h), fun _ h => (by cases h), rfl, rfl⟩)),
    by decide +kernel, C86_unquoted (by decide) (.mk (pre := [_]) (.body (pre := []) (.here (.inr ⟨_, _, _, _, rfl, rfl, [], _, [], _, rfl, rfl,
      .inr ⟨rfl, rfl, .inl rfl⟩⟩)))),
    C86_unquoted (by decide) (.mk (pre := [_]) (.here (.inl ⟨_, _, _, _, _, rfl, rfl, [_], _, [], [], rfl, rfl, .inl rfl⟩))),
    ⟨"interface I:\n    def g() -> uint256: view\n\n\n@external\ndef f(a: uint256, b: uint256) -> uint256:\n    x += y\n".toList, ['\n'],
      .inr ⟨"interface I:\n    def g() -> uint256: view\n\n\n@external\ndef f(a: uint256, b: uint256) -> uint256:\n    x += y".toList,
        by decide +kernel⟩, by decide +kernel, by decide +kernel⟩, by demo_ok, by unfold Program.Shallow; decide +kernel⟩

end HunkDemo
end VyPrint
end Mutagenyx
