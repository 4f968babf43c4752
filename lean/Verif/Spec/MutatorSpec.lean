import Verif.Spec.JsonSpec
import Verif.Model.Common

/-!
# Vocabulary for what a mutation may change

Independent of how the mutators are written: the operator classes are listed again here.
-/

namespace Mutagenyx

/-- Both are objects and they agree on every field except possibly `k`. -/
def OnlyField (k : String) (j j' : Json) : Prop :=
  j.IsObj ∧ j'.IsObj ∧ ∀ k', k' ≠ k → j'.field k' = j.field k'

/-- Both are objects and they agree on every field except possibly `k` and `l`. -/
def OnlyFields (k l : String) (j j' : Json) : Prop :=
  j.IsObj ∧ j'.IsObj ∧ ∀ k', k' ≠ k → k' ≠ l → j'.field k' = j.field k'

/-- The node stores the text `s` for key `k`. -/
def TextField (k : String) (j : Json) (s : String) : Prop := j.field k = some (.str s)

/-- The node is an object of the given kind (`nodeType` in Solidity ASTs). -/
def IsKind (t : String) (j : Json) : Prop := TextField "nodeType" j t

/-- The node is an object of the given kind (`ast_type` in Vyper ASTs). -/
def IsVyperKind (t : String) (j : Json) : Prop := TextField "ast_type" j t

/-- `ys` is `xs` with the elements at two different positions exchanged. -/
def Exchanged (i k : Nat) (xs ys : List Json) : Prop :=
  i ≠ k ∧ i < xs.length ∧ k < xs.length ∧ ys.length = xs.length ∧
    ys[i]? = xs[k]? ∧ ys[k]? = xs[i]? ∧ ∀ m, m ≠ i → m ≠ k → ys[m]? = xs[m]?

/-- `ys` is `xs` with the element at one position replaced by `v`. -/
def ReplacedAt (i : Nat) (v : Json) (xs ys : List Json) : Prop :=
  i < xs.length ∧ ys.length = xs.length ∧ ys[i]? = some v ∧ ∀ m, m ≠ i → ys[m]? = xs[m]?

/-- The node records the type text `s` for its value (Solidity ASTs). -/
def HasTypeText (s : String) (v : Json) : Prop :=
  ∃ td, v.field "typeDescriptions" = some td ∧ TextField "typeString" td s

/-- A Solidity number literal with the given value, without a unit. -/
def IsNumberLiteral (i : Int) (c : Json) : Prop :=
  IsKind "Literal" c ∧ TextField "kind" c "number" ∧ TextField "value" c (toString i) ∧ c.field "subdenomination" = none

/-- A Solidity `true` or `false`. -/
def IsBoolLiteral (b : Bool) (c : Json) : Prop :=
  IsKind "Literal" c ∧ TextField "kind" c "bool" ∧ TextField "value" c (toString b) ∧ c.field "subdenomination" = none

/-- `n` is the Solidity expression `!(c)`. -/
def IsNegation (c n : Json) : Prop :=
  IsKind "UnaryOperation" n ∧ TextField "operator" n "!" ∧ n.field "prefix" = some (.bool true) ∧
    ∃ t, n.field "subExpression" = some t ∧ IsKind "TupleExpression" t ∧
      t.field "components" = some (.arr [c])

/-- A Vyper `True` or `False`. -/
def IsVyperBool (b : Bool) (c : Json) : Prop :=
  IsVyperKind "NameConstant" c ∧ c.field "value" = some (.bool b)

/-- `n` is the Vyper expression `not c`. -/
def IsVyperNegation (c n : Json) : Prop :=
  IsVyperKind "UnaryOp" n ∧ n.field "operand" = some c ∧
    ∃ op, n.field "op" = some op ∧ IsVyperKind "Not" op

/-- The operators of a binary-operator algorithm in Solidity source. -/
def operatorClass : MutationType → List String
  | .arithmeticBinaryOp => ["+", "-", "*", "/", "%", "**"]
  | .logicalBinaryOp => ["&&", "||"]
  | .bitwiseBinaryOp => ["&", "|", "^"]
  | .bitshiftBinaryOp => ["<<", ">>"]
  | .comparisonBinaryOp => ["==", "!=", "<", "<=", ">", ">="]
  | _ => []

/-- The operators of a binary-operator algorithm in a Vyper AST. -/
def vyperOperatorClass : MutationType → List String
  | .arithmeticBinaryOp => ["Add", "Sub", "Mult", "Div", "Mod", "Pow"]
  | .logicalBinaryOp => ["And", "Or"]
  | .bitwiseBinaryOp => ["BitAnd", "BitOr", "BitXor"]
  | .comparisonBinaryOp => ["Eq", "NotEq", "Lt", "LtE", "Gt", "GtE"]
  | _ => []

/-- The five algorithms that replace a binary operator. -/
def BinaryAlgorithm (t : MutationType) : Prop :=
  t = .arithmeticBinaryOp ∨ t = .logicalBinaryOp ∨ t = .bitwiseBinaryOp ∨ t = .bitshiftBinaryOp ∨
    t = .comparisonBinaryOp

/-- The unary operators that may be exchanged for one another, by position. -/
def unaryClass (pre : Bool) : List String := if pre then ["++", "--", "~"] else ["++", "--"]

/-- Operators `a op b` whose value can change when the operands are exchanged. -/
def nonCommutative : List String := ["-", "/", "%", "**", "<<", ">>", "<", "<=", ">", ">="]

/-- The same for Vyper operator names; the shifts are missing there because the tool cannot print or read
them. -/
def vyperNonCommutative : List String := ["Sub", "Div", "Mod", "Pow", "Lt", "LtE", "Gt", "GtE"]

end Mutagenyx
