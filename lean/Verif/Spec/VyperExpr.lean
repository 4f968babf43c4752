import Verif.Spec.VyperGrammar
import Verif.Spec.PrintNodes

/-!
# Vyper expressions as nodes of the AST
-/

namespace Mutagenyx
namespace VyGrammar

/-- The type of the operator node. -/
def Operator.type : Operator → String
  | .add => "Add" | .sub => "Sub" | .mult => "Mult" | .div => "Div" | .mod => "Mod" | .pow => "Pow"
  | .bitAnd => "BitAnd" | .bitOr => "BitOr" | .bitXor => "BitXor"
  | .eq => "Eq" | .notEq => "NotEq" | .gt => "Gt" | .gtE => "GtE" | .lt => "Lt" | .ltE => "LtE"
  | .in_ => "In" | .notIn => "NotIn" | .and_ => "And" | .or_ => "Or"

/-- `and` and `or`. -/
def Operator.isBool : Operator → Bool
  | .and_ | .or_ => true
  | _ => false

/-- The node has the type. -/
def IsA (type : String) (j : Json) : Prop := j.getStrForKey "ast_type" = some type

mutual
/-- The node, as the compiler writes it, stands for the expression.  Whatever else is in the node does not
matter. -/
def Shows : Expr → Json → Prop
  | .leaf t, j =>
    (IsA "Name" j ∧ j.getStrForKey "id" = some t) ∨
    ((IsA "Hex" j ∨ IsA "Decimal" j) ∧ j.getStrForKey "value" = some t) ∨
    (IsA "Int" j ∧ ∃ n : Nat, j.getIntForKey "value" = some n ∧ t = toString n) ∨
    (IsA "NameConstant" j ∧ ∃ b, Json.field? "value" j = some (.bool b) ∧ t = if b then "True" else "False")
  | .attr e id, j =>
    IsA "Attribute" j ∧ j.getStrForKey "attr" = some id ∧ ∃ v, Json.field? "value" j = some v ∧ Shows e v
  | .str t, j => IsA "Str" j ∧ j.getStrForKey "value" = some t
  | .index e is, j =>
    IsA "Subscript" j ∧ (∃ v, Json.field? "value" j = some v ∧ Shows e v) ∧
      ∃ x, Json.field? "slice" j = some x ∧ IsA "Index" x ∧ ∃ v, Json.field? "value" x = some v ∧
        ((IsA "Tuple" v ∧ ∃ vs, Json.field? "elements" v = some (.arr vs) ∧ ShowAll is vs) ∨ ShowAll is [v])
  | .call f args, j =>
    IsA "Call" j ∧ (∃ v, Json.field? "func" j = some v ∧ Shows f v) ∧
      ∃ vs ks, Json.field? "args" j = some (.arr vs) ∧ Json.field? "keywords" j = some (.arr ks) ∧
        (vs ≠ [] ∨ ks = []) ∧ ShowAll args (vs ++ ks)
  | .list es, j => IsA "List" j ∧ ∃ vs, Json.field? "elements" j = some (.arr vs) ∧ ShowAll es vs
  | .dict es, j =>
    IsA "Dict" j ∧ ∃ ks vs, Json.field? "keys" j = some (.arr ks) ∧ Json.field? "values" j = some (.arr vs) ∧
      ShowEntries es ks vs
  | .named k e, j => IsA "keyword" j ∧ j.getStrForKey "arg" = some k ∧ ∃ v, Json.field? "value" j = some v ∧ Shows e v
  | .entry _ _, _ => False
  | .bin l o r, j =>
    (∃ x, Json.field? "op" j = some x ∧ IsA o.type x) ∧
    if o.isBool then
      IsA "BoolOp" j ∧ ∃ a b, Json.field? "values" j = some (.arr [a, b]) ∧ Shows l a ∧ Shows r b
    else
      (IsA "BinOp" j ∨ IsA "Compare" j) ∧
        (∃ a, Json.field? "left" j = some a ∧ Shows l a) ∧ ∃ b, Json.field? "right" j = some b ∧ Shows r b
  | .not e, j =>
    IsA "UnaryOp" j ∧ (∃ x, Json.field? "op" j = some x ∧ IsA "Not" x) ∧
      ∃ a, Json.field? "operand" j = some a ∧ Shows e a
  | .inv e, j =>
    IsA "UnaryOp" j ∧ (∃ x, Json.field? "op" j = some x ∧ IsA "Invert" x) ∧
      ∃ a, Json.field? "operand" j = some a ∧ Shows e a
  | .neg e, j =>
    (IsA "Int" j ∧ ∃ n : Nat, j.getIntForKey "value" = some (Int.negSucc n) ∧ e = .leaf (toString (n + 1))) ∨
    (IsA "Decimal" j ∧ ∃ t, j.getStrForKey "value" = some ("-" ++ t) ∧ e = .leaf t)
/-- The nodes stand for the expressions. -/
def ShowAll : List Expr → List Json → Prop
  | [], [] => True
  | e :: es, j :: js => Shows e j ∧ ShowAll es js
  | _, _ => False
/-- The nodes stand for the entries of a `dict`. -/
def ShowEntries : List Expr → List Json → List Json → Prop
  | [], [], [] => True
  | .entry k v :: es, a :: as, b :: bs => Shows k a ∧ Shows v b ∧ ShowEntries es as bs
  | _, _, _ => False
end

/-! ### Which expressions keep their grouping -/

/-- How strongly an expression that is not an operation of two operands binds. -/
def strength : Expr → Nat
  | .not _ => notLevel
  | .inv _ => invLevel
  | .neg _ => invLevel
  | .named _ _ => 0
  | .entry _ _ => 0
  | _ => 13

/-- Expressions that `.name`, `[index]` and `(arguments)` may follow. -/
def primary : Expr → Bool
  | .leaf t => isName t
  | .attr _ _ => true
  | .index _ _ => true
  | .call _ _ => true
  | .str _ => true
  | .list _ => true
  | _ => false

/-- A character that may be in a string without an escape. -/
def unescaped (c : Char) : Bool := c != '"' && c != '\\' && c != '\n'

/-- Neither a named argument nor an entry. -/
def proper : Expr → Bool
  | .named _ _ => false
  | .entry _ _ => false
  | _ => true

/-- What may be between brackets that `close` closes. -/
def fitting (close : String) : Expr → Bool
  | .named _ _ => close == ")"
  | .entry _ _ => close == "}"
  | _ => close != "}"

/-- A number without a sign. -/
def isNumber : Expr → Bool
  | .leaf t => isLeaf t && !isName t
  | _ => false

/-- The text of a number. -/
def numberText : Expr → String
  | .leaf t => t
  | _ => ""

mutual
/-- The texts in the expression are those of names, numbers and constants, and strings without quotation marks and
backslashes; what `.name`, `[index]`,
`(arguments)` apply to is not an operation; and a `not`, a `~` or a negative number is not an operand of an operator that
binds more strongly. -/
def Plain : Expr → Prop
  | .leaf t => isLeaf t = true
  | .attr e id => primary e = true ∧ isName id = true ∧ Plain e
  | .str t => ∀ c ∈ t.toList, unescaped c = true
  | .index e is => primary e = true ∧ Plain e ∧ is ≠ [] ∧ PlainAll "]" is
  | .call f args => primary f = true ∧ Plain f ∧ PlainAll ")" args
  | .list es => PlainAll "]" es
  | .dict es => PlainAll "}" es
  | .named k e => isName k = true ∧ proper e = true ∧ Plain e
  | .entry k v => proper k = true ∧ Plain k ∧ proper v = true ∧ Plain v
  | .bin l o r => Plain l ∧ Plain r ∧ o.level < strength l ∧ o.right ≤ strength r
  | .not e => proper e = true ∧ Plain e
  | .inv e => Plain e ∧ invLevel ≤ strength e
  | .neg e => isNumber e = true
/-- All of them, between brackets that `close` closes. -/
def PlainAll : String → List Expr → Prop
  | _, [] => True
  | close, e :: es => fitting close e = true ∧ Plain e ∧ PlainAll close es
end

/-- An operation of two operands, which is put into parentheses as an operand. -/
def isBin : Expr → Bool
  | .bin _ _ _ => true
  | _ => false

mutual
/-- There are no strings and no dictionaries. -/
def flat : Expr → Bool
  | .leaf _ => true
  | .str _ => false
  | .attr e _ => flat e
  | .index e is => flat e && flatAll is
  | .call f args => flat f && flatAll args
  | .list es => flatAll es
  | .dict _ => false
  | .named _ e => flat e
  | .entry _ _ => false
  | .bin l _ r => flat l && flat r
  | .not e => flat e
  | .inv e => flat e
  | .neg _ => true
/-- In all of them. -/
def flatAll : List Expr → Bool
  | [] => true
  | e :: es => flat e && flatAll es
end

end VyGrammar
end Mutagenyx
