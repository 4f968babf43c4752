import Verif.Spec.VyperMutation

/-!
# The lines of one statement in the text of a Vyper program
-/

namespace Mutagenyx
namespace VyGrammar

/-- A new line begins behind the text. -/
def AtLine (pre : List Char) : Prop := pre = [] ∨ ∃ q, pre = q ++ ['\n']

/-- The second text has the lines `new` where the first has the lines `old`; everything else is the same. -/
def LinesReplaced (old new text text' : List Char) : Prop :=
  ∃ pre post, AtLine pre ∧ text = pre ++ (old ++ '\n' :: post) ∧ text' = pre ++ (new ++ '\n' :: post)

/-- The second text has the lines `b` where the first has the lines `a` and the other way round; everything else is the same, also
the lines in between. -/
def LinesSwapped (a b text text' : List Char) : Prop :=
  ∃ pre mid post, AtLine pre ∧ AtLine mid ∧ text = pre ++ (a ++ '\n' :: (mid ++ (b ++ '\n' :: post))) ∧
    text' = pre ++ (b ++ '\n' :: (mid ++ (a ++ '\n' :: post)))

/-- The second text has one more comment, on a line of its own, and perhaps an empty line behind it. -/
def CommentLine (note : String) (text text' : List Char) : Prop :=
  ∃ d pre post more, AtLine pre ∧ (more = [] ∨ more = ['\n']) ∧ text = pre ++ post ∧
    text' = pre ++ (blanks d ++ ('#' :: ' ' :: (note.toList ++ '\n' :: (more ++ post))))

/-- The parts of a program that have lines of their own, without the statements below them: statements on one line, the heads of loops, branches and functions, decorators, and the functions of interfaces. -/
inductive Piece where
  | simple (s : Simple)
  | for_ (x : String) (ty : Option Expr) (it : Expr)
  | if_ (c : Expr)
  | decorator (e : Expr)
  | signature (g : Sig)
  | function (g : Sig) (m : String)

/-- The text of such a part at a level of indentation. -/
def Piece.text (d : Nat) : Piece → List Char
  | .simple s => textSimple d s
  | .for_ x ty it => "for ".toList ++ (x.toList ++ (textOption d ": " ty ++ (" in ".toList ++ (textE d it ++ [':']))))
  | .if_ c => "if ".toList ++ (textE d c ++ [':'])
  | .decorator e => '@' :: textE d e
  | .signature g => textSig d g
  | .function g m => textSig d g ++ ' ' :: m.toList

/-- The change happens at one place in such a part. -/
inductive InPiece (c : Change) : Piece → Piece → Prop
  | simple {s s'} : InSimple c s s' → InPiece c (.simple s) (.simple s')
  | forType {x e e' it} : InOption c e e' → InPiece c (.for_ x e it) (.for_ x e' it)
  | forOver {x ty e e'} : InExpr c e e' → InPiece c (.for_ x ty e) (.for_ x ty e')
  | if_ {e e'} : InExpr c e e' → InPiece c (.if_ e) (.if_ e')
  | decorator {e e'} : InExpr c e e' → InPiece c (.decorator e) (.decorator e')
  | signature {g g'} : InSig c g g' → InPiece c (.signature g) (.signature g')
  | function {g g' m} : InSig c g g' → InPiece c (.function g m) (.function g' m)

/-- What a mutation does to the text of a program: the lines of two statements change places, a statement or declaration is turned into
a comment with the same text on one line, perhaps with `pass` or `return` behind it, the condition of a branch is another one, or one of the lines has the change of the
algorithm in it. -/
def TextChange (decimal : Nat → String) : MutationType → List Char → List Char → Prop
  | .swapLines, text, text' => ∃ d a b, NoReturn a ∧ NoReturn b ∧
      LinesSwapped (blanks d ++ textStmt d a) (blanks d ++ textStmt d b) text text'
  | .deleteStatement, text, text' => ∃ d old same more,
      ((∃ s, old = textStmt d s ∧ same = textStmt 0 s) ∨ ∃ x, d = 0 ∧ old = textDecl x ∧ same = textDecl x) ∧
      (more = [] ∨ ∃ y, (y = .pass ∨ ∃ vs, y = .ret vs) ∧ more = '\n' :: (blanks d ++ textSimple d y)) ∧
      LinesReplaced (blanks d ++ old) (blanks d ++ ('#' :: ' ' :: onOneLine same) ++ more) text text'
  | .ifStatement, text, text' => ∃ d c c', (c' = .leaf "True" ∨ c' = .leaf "False" ∨ c' = .not c) ∧
      LinesReplaced (blanks d ++ Piece.text d (.if_ c)) (blanks d ++ Piece.text d (.if_ c')) text text'
  | t, text, text' => ∃ d u u', InPiece (changeOf decimal t) u u' ∧
      LinesReplaced (blanks d ++ Piece.text d u) (blanks d ++ Piece.text d u') text text'

mutual
/-- The statement has a comment in it that quotes a statement. -/
def Stmt.hasQuote : Stmt → Bool
  | .simple _ => false
  | .for_ _ _ _ b => anyQuote b
  | .if_ _ b els => anyQuote b || anyQuote els
  | .comment _ => false
  | .quote _ => true
/-- One of the statements has. -/
def anyQuote : List Stmt → Bool
  | [] => false
  | s :: ss => s.hasQuote || anyQuote ss
end

/-- The program has a comment in it that quotes a statement or a declaration. -/
def Program.hasQuote (p : Program) : Bool :=
  p.decls.any fun
    | .fn _ _ _ b => anyQuote b
    | .quote _ => true
    | _ => false

/-- A comment that quotes a statement or declaration has the change in what it quotes. -/
def QuoteChange (c : Change) (text text' : List Char) : Prop :=
  ∃ d same same', ((∃ s s', InStmt c s s' ∧ same = textStmt 0 s ∧ same' = textStmt 0 s') ∨
      ∃ x x', InDecl c x x' ∧ same = textDecl x ∧ same' = textDecl x') ∧
    LinesReplaced (blanks d ++ ('#' :: ' ' :: onOneLine same)) (blanks d ++ ('#' :: ' ' :: onOneLine same')) text text'

end VyGrammar
end Mutagenyx
