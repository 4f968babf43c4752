import Verif.Spec.SolidityGrammar
import Verif.Spec.PrintNodes

/-!
# Solidity expressions as nodes of the AST
-/

namespace Mutagenyx
namespace SolGrammar

/-- The node has the type. -/
def IsA (type : String) (j : Json) : Prop := j.getStrForKey "nodeType" = some type

/-- The node stands for the type behind `new`. -/
def ShowsNew (p : List String) : Nat → Json → Prop
  | 0, j =>
    (∃ t, p = [t] ∧ IsA "ElementaryTypeName" j ∧ j.getStrForKey "name" = some t ∧
      j.getStrForKey "stateMutability" ≠ some "payable") ∨
    (IsA "UserDefinedTypeName" j ∧ ∃ v, Json.field? "pathNode" j = some v ∧ IsA "IdentifierPath" v ∧
      v.getStrForKey "name" = some (dotted p))
  | n + 1, j =>
    IsA "ArrayTypeName" j ∧ (∃ v, Json.field? "baseType" j = some v ∧ ShowsNew p n v) ∧ Json.field? "length" j = none

/-- The node is a literal whose value begins with a sign, as the algorithms make it.  It stands for the negation of the number
without the sign. -/
def NegativeLiteral (e : Expr) (j : Json) : Prop :=
  IsA "Literal" j ∧ j.getStrForKey "kind" = some "number" ∧ ∃ t, j.getStrForKey "value" = some ("-" ++ t) ∧
    (e = .leaf t ∧ j.getStrForKey "subdenomination" = none ∨ ∃ u, e = .unit t u ∧ j.getStrForKey "subdenomination" = some u)

mutual
/-- The node, as the compiler writes it, stands for the expression.  Whatever else is in the node does not
matter. -/
def Shows : Expr → Json → Prop
  | .leaf t, j =>
    (IsA "Identifier" j ∧ j.getStrForKey "name" = some t) ∨
    (IsA "Literal" j ∧ j.getStrForKey "value" = some t ∧ j.getStrForKey "subdenomination" = none ∧
      (j.getStrForKey "kind" = some "number" ∨ j.getStrForKey "kind" = some "bool")) ∨
    (IsA "ElementaryTypeNameExpression" j ∧ j.getBoolForKey "isPure" = some true ∧
      ∃ v, Json.field? "typeName" j = some v ∧ IsA "ElementaryTypeName" v ∧
        (v.getStrForKey "name" = some t ∧ v.getStrForKey "stateMutability" = none ∨
          t = "payable" ∧ v.getStrForKey "stateMutability" = some "payable"))
  | .unit n u, j =>
    IsA "Literal" j ∧ j.getStrForKey "value" = some n ∧ j.getStrForKey "subdenomination" = some u ∧
      j.getStrForKey "kind" = some "number"
  | .str t, j =>
    IsA "Literal" j ∧ j.getStrForKey "value" = some t ∧ j.getStrForKey "subdenomination" = none ∧
      j.getStrForKey "kind" = some "string"
  | .new_ p n, j => IsA "NewExpression" j ∧ ∃ v, Json.field? "typeName" j = some v ∧ ShowsNew p n v
  | .hole, j => j = .null
  | .tuple es, j =>
    IsA "TupleExpression" j ∧ ∃ vs, Json.field? "components" j = some (.arr vs) ∧ ShowAll es vs
  | .paren e, j =>
    IsA "TupleExpression" j ∧ ∃ v, Json.field? "components" j = some (.arr [v]) ∧ Shows e v
  | .member e id, j =>
    IsA "MemberAccess" j ∧ j.getStrForKey "memberName" = some id ∧ ∃ v, Json.field? "expression" j = some v ∧ Shows e v
  | .index e i, j =>
    IsA "IndexAccess" j ∧ (∃ v, Json.field? "baseExpression" j = some v ∧ Shows e v) ∧
      ∃ v, Json.field? "indexExpression" j = some v ∧ Shows i v
  | .emptyIndex e, j =>
    IsA "IndexAccess" j ∧ (∃ v, Json.field? "baseExpression" j = some v ∧ Shows e v) ∧
      Json.field? "indexExpression" j = none
  | .named f ns args, j =>
    IsA "FunctionCall" j ∧ (∃ v, Json.field? "expression" j = some v ∧ Shows f v) ∧
      (∃ vs, j.getArrayForKey "arguments" = some vs ∧ ShowAll args vs) ∧
      j.getArrayForKey "names" = some (ns.map .str) ∧ j.getBoolForKey "tryCall" = some false
  | .options f ns args, j =>
    IsA "FunctionCallOptions" j ∧ (∃ v, Json.field? "expression" j = some v ∧ Shows f v) ∧
      (∃ vs, j.getArrayForKey "options" = some vs ∧ ShowAll args vs) ∧ j.getArrayForKey "names" = some (ns.map .str)
  | .call f args, j =>
    IsA "FunctionCall" j ∧ (∃ v, Json.field? "expression" j = some v ∧ Shows f v) ∧
      (∃ vs, Json.field? "arguments" j = some (.arr vs) ∧ ShowAll args vs) ∧
      j.getArrayForKey "names" = some [] ∧ j.getBoolForKey "tryCall" = some false
  | .post e u, j =>
    IsA "UnaryOperation" j ∧ j.getBoolForKey "prefix" = some false ∧ j.getStrForKey "operator" = some u.text ∧
      ∃ v, Json.field? "subExpression" j = some v ∧ Shows e v
  | .pre u e, j =>
    (IsA "UnaryOperation" j ∧ j.getBoolForKey "prefix" = some true ∧ j.getStrForKey "operator" = some u.text ∧
      ∃ v, Json.field? "subExpression" j = some v ∧ Shows e v) ∨
    (u = .neg ∧ NegativeLiteral e j)
  | .bin l o r, j =>
    j.getStrForKey "operator" = some o.text ∧
    if o.level = 1 then
      IsA "Assignment" j ∧ (∃ a, Json.field? "leftHandSide" j = some a ∧ Shows l a) ∧
        ∃ b, Json.field? "rightHandSide" j = some b ∧ Shows r b
    else
      IsA "BinaryOperation" j ∧ (∃ a, Json.field? "leftExpression" j = some a ∧ Shows l a) ∧
        ∃ b, Json.field? "rightExpression" j = some b ∧ Shows r b
  | .cond c a b, j =>
    IsA "Conditional" j ∧ (∃ v, Json.field? "condition" j = some v ∧ Shows c v) ∧
      (∃ v, Json.field? "trueExpression" j = some v ∧ Shows a v) ∧
      ∃ v, Json.field? "falseExpression" j = some v ∧ Shows b v
/-- The nodes stand for the expressions. -/
def ShowAll : List Expr → List Json → Prop
  | [], [] => True
  | e :: es, j :: js => Shows e j ∧ ShowAll es js
  | _, _ => False
end

/-! ### Which expressions keep their grouping -/

/-- How strongly an expression binds. -/
def strength : Expr → Nat
  | .bin _ o _ => o.level
  | .cond _ _ _ => 1
  | .pre _ _ => prefixLevel
  | _ => 14

/-- Expressions that `.name`, `[index]`, `{options}`, `(arguments)`, `++`, `--` may follow. -/
def primary : Expr → Bool
  | .leaf t => isName t
  | .unit _ _ => false
  | .hole => false
  | .bin _ _ _ => false
  | .cond _ _ _ => false
  | .pre _ _ => false
  | _ => true

/-- The text begins with `-`. -/
def minus : Expr → Bool
  | .pre .neg _ => true
  | .pre .dec _ => true
  | _ => false

/-- A type behind `new`, which only options and arguments may follow. -/
def isNew : Expr → Bool
  | .new_ _ _ => true
  | _ => false

/-- A character that needs no escape in a string literal. -/
def unescaped (c : Char) : Bool := 32 ≤ c.toNat && c.toNat < 127 && c != '"' && c != '\\'

mutual
/-- The texts in the expression are those of names, types, numbers and constants; operands that would be read
differently are in parentheses, as in every tree that the compiler makes from a source text; and `-` does not
stand before another `-`.  The characters of string literals need no escapes. -/
def Plain : Expr → Prop
  | .leaf t => isLeaf t = true
  | .unit n u => isLeaf n = true ∧ u ∈ units
  | .str t => ∀ c ∈ t.toList, unescaped c = true
  | .new_ p _ => p ≠ [] ∧ ∀ n ∈ p, isName n = true
  | .hole => False
  | .paren e => Plain e
  | .tuple es => 2 ≤ es.length ∧ PlainPlaces es
  | .member e id => primary e = true ∧ isNew e = false ∧ isName id = true ∧ Plain e
  | .index e i => primary e = true ∧ isNew e = false ∧ Plain e ∧ Plain i
  | .emptyIndex e => primary e = true ∧ isNew e = false ∧ Plain e
  | .call f args => primary f = true ∧ Plain f ∧ PlainAll args
  | .named f ns args =>
    primary f = true ∧ ns ≠ [] ∧ ns.length = args.length ∧ (∀ n ∈ ns, isName n = true) ∧ Plain f ∧
      PlainAll args
  | .options f ns args =>
    primary f = true ∧ ns ≠ [] ∧ ns.length = args.length ∧ (∀ n ∈ ns, isName n = true) ∧ Plain f ∧
      PlainAll args
  | .post e _ => primary e = true ∧ isNew e = false ∧ Plain e
  | .pre u e => prefixLevel ≤ strength e ∧ ¬ (u = .neg ∧ minus e = true) ∧ Plain e
  | .bin l o r => o.left ≤ strength l ∧ o.right ≤ strength r ∧ Plain l ∧ Plain r
  | .cond c a b => 2 ≤ strength c ∧ Plain c ∧ Plain a ∧ Plain b
/-- All of them. -/
def PlainAll : List Expr → Prop
  | [] => True
  | e :: es => Plain e ∧ PlainAll es
/-- All of them that are not left out. -/
def PlainPlaces : List Expr → Prop
  | [] => True
  | e :: es => (e = .hole ∨ Plain e) ∧ PlainPlaces es
end

/-! ### Which expressions keep their tokens -/

/-- The text begins with `-`. -/
def leadsMinus : Expr → Bool
  | .pre .neg _ => true
  | .pre .dec _ => true
  | .bin l _ _ => leadsMinus l
  | .cond c _ _ => leadsMinus c
  | _ => false

mutual
/-- The texts in the expression are those of names, types, numbers and constants, and `-` does not stand before another
`-`.  Operands may be such that they would be read differently. -/
def Legible : Expr → Prop
  | .leaf t => isLeaf t = true
  | .unit n u => isLeaf n = true ∧ u ∈ units
  | .str t => ∀ c ∈ t.toList, unescaped c = true
  | .new_ p _ => p ≠ [] ∧ ∀ n ∈ p, isName n = true
  | .hole => False
  | .paren e => Legible e
  | .tuple es => 2 ≤ es.length ∧ LegiblePlaces es
  | .member e id => primary e = true ∧ isName id = true ∧ Legible e
  | .index e i => primary e = true ∧ Legible e ∧ Legible i
  | .emptyIndex e => primary e = true ∧ Legible e
  | .call f args => primary f = true ∧ Legible f ∧ LegibleAll args
  | .named f ns args =>
    primary f = true ∧ ns ≠ [] ∧ ns.length = args.length ∧ (∀ n ∈ ns, isName n = true) ∧ Legible f ∧ LegibleAll args
  | .options f ns args =>
    primary f = true ∧ ns ≠ [] ∧ ns.length = args.length ∧ (∀ n ∈ ns, isName n = true) ∧ Legible f ∧ LegibleAll args
  | .post e _ => primary e = true ∧ Legible e
  | .pre u e => ¬ (u = .neg ∧ leadsMinus e = true) ∧ Legible e
  | .bin l _ r => Legible l ∧ Legible r
  | .cond c a b => Legible c ∧ Legible a ∧ Legible b
/-- All of them. -/
def LegibleAll : List Expr → Prop
  | [] => True
  | e :: es => Legible e ∧ LegibleAll es
/-- All of them that are not left out. -/
def LegiblePlaces : List Expr → Prop
  | [] => True
  | e :: es => (e = .hole ∨ Legible e) ∧ LegiblePlaces es
end

/-! ### The tokens of an expression -/

mutual
/-- The tokens of an expression. -/
def strE : Expr → List String
  | .leaf t => [t]
  | .unit n u => [n, u]
  | .str t => [quoted t]
  | .new_ p n => "new" :: (pathToks p ++ bracketToks n)
  | .hole => []
  | .tuple es => "(" :: (strArgs es ++ [")"])
  | .emptyIndex e => strE e ++ ["[", "]"]
  | .named f ns args => strE f ++ ("(" :: "{" :: (strNamed ns args ++ ["}", ")"]))
  | .options f ns args => strE f ++ ("{" :: (strNamed ns args ++ ["}"]))
  | .paren e => "(" :: (strE e ++ [")"])
  | .member e id => strE e ++ [".", id]
  | .index e i => strE e ++ ("[" :: (strE i ++ ["]"]))
  | .call f args => strE f ++ ("(" :: (strArgs args ++ [")"]))
  | .post e u => strE e ++ [u.text]
  | .pre u e => u.text :: strE e
  | .bin l o r => strE l ++ (o.text :: strE r)
  | .cond c a b => strE c ++ ("?" :: (strE a ++ (":" :: strE b)))
/-- The tokens of arguments. -/
def strArgs : List Expr → List String
  | [] => []
  | e :: es => strE e ++ strRest es
/-- The tokens of further arguments. -/
def strRest : List Expr → List String
  | [] => []
  | e :: es => "," :: (strE e ++ strRest es)
/-- The tokens of named arguments. -/
def strNamed : List String → List Expr → List String
  | n :: ns, e :: es => n :: ":" :: (strE e ++ strNamedRest ns es)
  | _, _ => []
/-- The tokens of further named arguments. -/
def strNamedRest : List String → List Expr → List String
  | n :: ns, e :: es => "," :: n :: ":" :: (strE e ++ strNamedRest ns es)
  | _, _ => []
end

end SolGrammar
end Mutagenyx
