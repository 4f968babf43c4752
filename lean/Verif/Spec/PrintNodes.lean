import Verif.Model.MutatorBase

/-!
# Nodes as the compilers write them, for statements and examples about printing
-/

namespace Mutagenyx

/-! ### Vyper nodes -/
namespace VyNode

/-- A Vyper node of some type. -/
def mk (type : String) (fields : List (String × Json)) : Json := .ofFields (("ast_type", .str type) :: fields)

/-- A name. -/
def name (id : String) : Json := mk "Name" [("id", .str id)]
/-- The operator node of some type. -/
def oper (op : String) : Json := mk op []
/-- `left op right`. -/
def bin (l : Json) (op : String) (r : Json) : Json := mk "BinOp" [("left", l), ("op", oper op), ("right", r)]
/-- `left op right` for a comparison. -/
def compare (l : Json) (op : String) (r : Json) : Json := mk "Compare" [("left", l), ("op", oper op), ("right", r)]
/-- `a and b and …`, `a or b or …`. -/
def bool (op : String) (vs : List Json) : Json := mk "BoolOp" [("op", oper op), ("values", .arr vs)]
/-- `not a`, `-a`. -/
def unary (op : String) (a : Json) : Json := mk "UnaryOp" [("op", oper op), ("operand", a)]
/-- `if test: body`. -/
def if_ (test : Json) (body : List Json) : Json := mk "If" [("test", test), ("body", .arr body), ("orelse", .arr [])]
/-- `pass`. -/
def pass : Json := mk "Pass" []
/-- `target = value`. -/
def assign (t v : Json) : Json := mk "Assign" [("target", t), ("value", v)]

/-- `n` nested `if`s around the statements. -/
def nest : Nat → List Json → Json
  | 0, body => if_ (name "a") body
  | n + 1, body => if_ (name "a") [nest n body]

end VyNode

/-! ### Solidity nodes -/
namespace SolNode

/-- A Solidity node of some type. -/
def mk (type : String) (fields : List (String × Json)) : Json := .ofFields (("nodeType", .str type) :: fields)

/-- An identifier. -/
def ident (id : String) : Json := mk "Identifier" [("name", .str id)]
/-- `left op right`. -/
def bin (l : Json) (op : String) (r : Json) : Json :=
  mk "BinaryOperation" [("leftExpression", l), ("operator", .str op), ("rightExpression", r)]
/-- `(a)` or `(a, b)`. -/
def tuple (vs : List Json) : Json := mk "TupleExpression" [("components", .arr vs)]
/-- `e;`. -/
def stmt (e : Json) : Json := mk "ExpressionStatement" [("expression", e)]
/-- `{ … }`. -/
def block (ss : List Json) : Json := mk "Block" [("statements", .arr ss)]
/-- `if (c) s`. -/
def if_ (c s : Json) : Json := mk "IfStatement" [("condition", c), ("trueBody", s)]

end SolNode
end Mutagenyx
