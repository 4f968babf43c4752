import Verif.Spec.MutatorSpec

/-!
# The nodes an algorithm considers

For each algorithm, in terms of the fields of the node, which nodes it may change.  Independent of how
`is_mutable_node` is written in the model: fields are looked up by their plain name, the operator classes
are those of `Spec/MutatorSpec.lean`.
-/

namespace Mutagenyx

/-- The node keeps the list `xs` under the key `k`. -/
def ListField (k : String) (j : Json) (xs : List Json) : Prop := j.field k = some (.arr xs)

/-- A text starts with another one. -/
def BeginsWith (p s : String) : Prop := ∃ rest, s = p ++ rest

/-- The nodes of a Solidity AST that an algorithm may change. -/
def SolidityNodeFor : MutationType → Json → Prop
  | .assignment, j => IsKind "Assignment" j ∧
      ∃ s, HasTypeText s j ∧ (BeginsWith "uin" s ∨ BeginsWith "int" s ∨ BeginsWith "boo" s)
  | .deleteStatement, j => IsKind "Block" j ∧ ∃ ss, ListField "statements" j ss ∧ 2 ≤ ss.length ∧
      ∃ s ∈ ss, IsKind "ExpressionStatement" s
  | .functionCall, j => IsKind "FunctionCall" j ∧ ∃ args, ListField "arguments" j args ∧
      ((∃ a, args = [a] ∧ ¬ IsKind "Literal" a) ∨ 2 ≤ args.length)
  | .swapFunctionArguments, j => IsKind "FunctionCall" j ∧ ∃ args, ListField "arguments" j args ∧
      ∃ (i k : Nat) (a b : Json) (s : String), i < k ∧ args[i]? = some a ∧ args[k]? = some b ∧ HasTypeText s a ∧ HasTypeText s b
  | .ifStatement, j => IsKind "IfStatement" j ∧ ∃ c, j.field "condition" = some c ∧ c ≠ .null
  | .integer, j => IsKind "Literal" j ∧ TextField "kind" j "number" ∧
      ∃ v, TextField "value" j v ∧ '.' ∉ v.toList
  | .swapOperatorArguments, j => IsKind "BinaryOperation" j ∧ ∃ op ∈ nonCommutative,
      TextField "operator" j op
  | .swapLines, j => IsKind "Block" j ∧ ∃ ss, ListField "statements" j ss ∧
      (3 ≤ ss.length ∨ ss.length = 2 ∧ ∀ s ∈ ss, ¬ IsKind "Return" s)
  | .unaryOp, j => IsKind "UnaryOperation" j ∧ ∃ pre, j.field "prefix" = some (.bool pre) ∧
      ∃ op ∈ unaryClass pre, TextField "operator" j op
  | .require, j => IsKind "FunctionCall" j ∧ (∃ e, j.field "expression" = some e ∧ TextField "name" e "require") ∧
      ¬ ListField "arguments" j []
  | .uncheckedBlock, j => IsKind "Block" j ∧ ∃ ss, ListField "statements" j ss ∧
      (3 ≤ ss.length ∨
        ss.length = 2 ∧ ¬ ((∃ s ∈ ss, IsKind "Return" s) ∧ ∃ s ∈ ss, IsKind "UncheckedBlock" s) ∨
        ∃ s, ss = [s] ∧ ¬ IsKind "Return" s ∧ ¬ IsKind "UncheckedBlock" s)
  | .elimDelegateCall, j => IsKind "MemberAccess" j ∧ TextField "memberName" j "delegatecall"
  | t, j => IsKind "BinaryOperation" j ∧ ∃ op ∈ operatorClass t, TextField "operator" j op

/-- The node is a Vyper expression with an operator of the given list. -/
def VyperOperation (ops : List String) (j : Json) : Prop :=
  (IsVyperKind "BinOp" j ∨ IsVyperKind "BoolOp" j ∨ IsVyperKind "Compare" j) ∧
    ∃ o, j.field "op" = some o ∧ ∃ op ∈ ops, IsVyperKind op o

/-- The nodes of a Vyper AST that an algorithm may change; `text` is how a single statement is written in
the source.  A statement `view`, `payable` or `nonpayable` on its own is the body of an interface function
and stays. -/
def VyperNodeFor (text : Json → String) : MutationType → Json → Prop
  | .assignment, j => IsVyperKind "Assign" j
  | .deleteStatement, j =>
      (IsVyperKind "FunctionDef" j ∨ IsVyperKind "For" j ∨ IsVyperKind "If" j ∨ IsVyperKind "Module" j) ∧
      ∃ ss, ListField "body" j ss ∧ (2 ≤ ss.length ∨
        ∃ s, ss = [s] ∧ text s ≠ "view" ∧ text s ≠ "nonpayable" ∧ text s ≠ "payable")
  | .functionCall, j => IsVyperKind "Call" j ∧ ∃ args, ListField "args" j args ∧ 1 ≤ args.length
  | .swapFunctionArguments, j => IsVyperKind "Call" j ∧ ∃ args, ListField "args" j args ∧ 2 ≤ args.length
  | .ifStatement, j => IsVyperKind "If" j ∧ ∃ c, j.field "test" = some c
  | .integer, j => IsVyperKind "Int" j
  | .swapOperatorArguments, j => VyperOperation vyperNonCommutative j
  | .swapLines, j => (IsVyperKind "FunctionDef" j ∨ IsVyperKind "For" j ∨ IsVyperKind "If" j) ∧
      ∃ ss, ListField "body" j ss ∧
      (3 ≤ ss.length ∨ ss.length = 2 ∧ ∀ s ∈ ss, ¬ IsVyperKind "Return" s)
  | .unaryOp, j => IsVyperKind "UnaryOp" j
  | .require, _ => False
  | .uncheckedBlock, _ => False
  | .elimDelegateCall, _ => False
  | t, j => VyperOperation (vyperOperatorClass t) j

end Mutagenyx
