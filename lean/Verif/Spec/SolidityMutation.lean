import Verif.Spec.SolidityChange
import Verif.Spec.MutatorSpec
import Verif.Spec.Comments

/-!
# What the mutations of a Solidity source file are

In terms of programs, not of trees.
-/

namespace Mutagenyx
namespace SolGrammar

/-- Two elements at different places, both of the kind, changed places. -/
def Swapped {α : Type} (kind : α → Prop) (xs ys : List α) : Prop :=
  ∃ pre a mid b post, kind a ∧ kind b ∧ xs = pre ++ a :: (mid ++ b :: post) ∧ ys = pre ++ b :: (mid ++ a :: post)

/-- Not a `return`. -/
def NoReturn (s : Stmt) : Prop := ∀ e, s ≠ .return_ e

/-- The number, of which a negative one is the negation of another. -/
def numeral (k : Int) : Expr := if k < 0 then .pre .neg (.leaf (toString k.natAbs)) else .leaf (toString k.natAbs)

/-- The number with a unit. -/
def numeralWith (k : Int) (u : String) : Expr :=
  if k < 0 then .pre .neg (.unit (toString k.natAbs) u) else .unit (toString k.natAbs) u

/-- The tokens of the number. -/
def numeralToks (k : Int) : List String := if k < 0 then ["-", toString k.natAbs] else [toString k.natAbs]

/-- The negation of an expression: `!(e)`. -/
def negation (e : Expr) : Expr := .pre .not (.paren e)

/-- The arguments of a call are changed. -/
def argumentChange (r : List Expr → List Expr → Prop) : Change where
  expr e e' := ∃ args args', r args args' ∧
    ((∃ f, e = .call f args ∧ e' = .call f args') ∨ ∃ f ns, e = .named f ns args ∧ e' = .named f ns args')

/-- Another operator of the same class. -/
def operatorChange (t : MutationType) : Change where
  expr e e' := ∃ l o o' r, e = .bin l o r ∧ e' = .bin l o' r ∧ o' ≠ o ∧ o.text ∈ operatorClass t ∧ o'.text ∈ operatorClass t

/-- What an algorithm does to a program. -/
def changeOf : MutationType → Change
  | .swapOperatorArguments =>
    { expr := fun e e' => ∃ l o r, e = .bin l o r ∧ e' = .bin r o l ∧ o.text ∈ nonCommutative }
  | .functionCall =>
    { expr := fun e e' => ∃ args, e' ∈ args ∧ ((∃ f, e = .call f args) ∨ ∃ f ns, e = .named f ns args) }
  | .swapFunctionArguments => argumentChange (Swapped fun _ => True)
  | .unaryOp =>
    { expr := fun e e' =>
        (∃ u u' x, e = .pre u x ∧ e' = .pre u' x ∧ u' ≠ u ∧ u.text ∈ unaryClass true ∧ u'.text ∈ unaryClass true) ∨
        ∃ u u' x, e = .post x u ∧ e' = .post x u' ∧ u' ≠ u }
  | .integer =>
    { expr := fun e e' => ∃ t k,
        ((e = .leaf t ∨ e = .pre .neg (.leaf t)) ∧ e' = numeral k ∨
          ∃ u, (e = .unit t u ∨ e = .pre .neg (.unit t u)) ∧ e' = numeralWith k u) }
  | .assignment =>
    { expr := fun e e' => ∃ l o r v, e = .bin l o r ∧ o.level = 1 ∧ e' = .bin l o v ∧
        ((∃ k, v = numeral k) ∨ v = .leaf "true" ∨ v = .leaf "false") }
  | .ifStatement =>
    { stmt := fun s s' => ∃ c c', (c' = .leaf "true" ∨ c' = .leaf "false" ∨ c' = negation c) ∧
        ((∃ t, s = .if_ c t ∧ s' = .if_ c' t) ∨ ∃ t f, s = .ifElse c t f ∧ s' = .ifElse c' t f) }
  | .swapLines => { stmt := fun s s' => ∃ b b', s = .block b ∧ s' = .block b' ∧ Swapped NoReturn b b' }
  | .require => argumentChange fun args args' => ∃ c rest, args = c :: rest ∧ args' = negation c :: rest
  | .uncheckedBlock =>
    { stmt := fun s s' => ∃ pre x post, s = .block (pre ++ x :: post) ∧ s' = .block (pre ++ .unchecked [x] :: post) ∧
        NoReturn x ∧ ∀ ss, x ≠ .unchecked ss }
  | .elimDelegateCall =>
    { expr := fun e e' => ∃ x, e = .member x "delegatecall" ∧ e' = .member x "call" }
  | .deleteStatement => {}
  | t => operatorChange t

/-- The mutation can be expressed as a change of the program: no statement is commented out, and no call of a `try` is
replaced by something that is no call.  What replaces a call is a node. -/
def Writable (t : MutationType) (old new : Json) : Prop :=
  t ≠ .deleteStatement ∧ (t = .functionCall → old.getBoolForKey "tryCall" ≠ some true ∧ ∃ u, IsA u new)

/-! ### Tokens -/

/-- One stretch is replaced. -/
def Within (r : List String → List String → Prop) (xs ys : List String) : Prop :=
  ∃ pre u v post, xs = pre ++ (u ++ post) ∧ ys = pre ++ (v ++ post) ∧ r u v

/-- What an algorithm does to the tokens of a program. -/
def tokenChange : MutationType → List String → List String → Prop
  | .swapOperatorArguments, u, v => ∃ l o r, u = l ++ o :: r ∧ v = r ++ o :: l ∧ o ∈ nonCommutative
  | .functionCall, u, v => ∃ f p q, u = f ++ ("(" :: (p ++ (v ++ (q ++ [")"]))))
  | .swapFunctionArguments, u, v => ∃ a m b, u = a ++ (m ++ b) ∧ v = b ++ (m ++ a)
  | .unaryOp, u, v => ∃ o o', u = [o] ∧ v = [o'] ∧ o' ≠ o ∧ o ∈ unaryClass true ∧ o' ∈ unaryClass true
  | .integer, u, v => ∃ t k, (u = [t] ∨ u = ["-", t]) ∧ v = numeralToks k
  | .assignment, u, v => ∃ (o : Operator) (r t : List String), u = o.text :: r ∧ v = o.text :: t ∧ o.level = 1 ∧
      ((∃ k, t = numeralToks k) ∨ t = ["true"] ∨ t = ["false"])
  | .ifStatement, u, v => ∃ c c', u = "if" :: "(" :: (c ++ [")"]) ∧ v = "if" :: "(" :: (c' ++ [")"]) ∧
      (c' = ["true"] ∨ c' = ["false"] ∨ c' = "!" :: "(" :: (c ++ [")"]))
  | .swapLines, u, v => ∃ a m b, u = a ++ (m ++ b) ∧ v = b ++ (m ++ a)
  | .require, u, v => v = "!" :: "(" :: (u ++ [")"])
  | .uncheckedBlock, u, v => v = "unchecked" :: "{" :: (u ++ ["}"])
  | .elimDelegateCall, u, v => u = [".", "delegatecall"] ∧ v = [".", "call"]
  | .deleteStatement, _, _ => False
  | t, u, v => ∃ o o', u = [o] ∧ v = [o'] ∧ o' ≠ o ∧ o ∈ operatorClass t ∧ o' ∈ operatorClass t

/-- A comment is no token, but there may be new braces. -/
def Braces (u v : List String) : Prop := v = u ∨ v = "{" :: (u ++ ["}"])

/-- A comment is added in a list of statements or members, or before the one statement below another, and both are then put
in a block. -/
def commentIn (text : String) : Change where
  stmt s s' :=
    (∃ a b, s = .block (a ++ b) ∧ s' = .block (a ++ .comment text :: b)) ∨
    (∃ a b, s = .unchecked (a ++ b) ∧ s' = .unchecked (a ++ .comment text :: b)) ∨
    (∃ c t, s = .if_ c t ∧ s' = .if_ c (.block [.comment text, t])) ∨
    (∃ c t f, s = .ifElse c t f ∧ s' = .ifElse c (.block [.comment text, t]) f) ∨
    (∃ c t f, s = .ifElse c t f ∧ s' = .ifElse c t (.block [.comment text, f])) ∨
    (∃ c t, s = .while_ c t ∧ s' = .while_ c (.block [.comment text, t])) ∨
    (∃ c t, s = .doWhile t c ∧ s' = .doWhile (.block [.comment text, t]) c) ∨
    ∃ i c st t, s = .for_ i c st t ∧ s' = .for_ i c st (.block [.comment text, t])
  contract k k' := ∃ a b, k.members = a ++ b ∧ k' = { k with members := a ++ .comment text :: b }

/-- The file with a new comment. -/
def NewComment (text : String) : SourceFile → SourceFile → Prop := InFile (commentIn text)

end SolGrammar
end Mutagenyx
