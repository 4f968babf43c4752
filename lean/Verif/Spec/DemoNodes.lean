import Verif.Model.SolidityMutators
import Verif.Model.VyperMutators

/-!
# Concrete nodes for the examples beside the theorems on mutators
-/

namespace Mutagenyx
namespace DemoNodes

/-- A printer that prints nothing, a digest that counts, groups in the order of their first member. -/
def env : MutEnv where
  pp _ := ""
  digest ps := Nat.repr ps.length
  groupOrder l := l
  groupOrder_perm l := List.Perm.refl l
  floatOfInt i := intText i ++ ".0"
  floatText n := "0." ++ Nat.repr n
  overflowChecks := true
  fuel := 20

/-- Is the node mutable, and what does it become with these draws? -/
def run (m : Option (Mutator ListRand)) (j : Json) (draws : List Nat) : Option (Bool × Option Json) :=
  m.map fun m => (m.isMutable j, (m.mutate j ⟨draws⟩).toOption.map fun p => p.1)

theorem run_ok {m : Option (Mutator ListRand)} {j j' : Json} {draws : List Nat}
    (h : run m j draws = some (true, some j')) :
    ∃ m0 res c r', m = some m0 ∧ m0.isMutable j = true ∧ m0.mutate j ⟨draws⟩ = .ok (j', res, c, r') := by
  cases m with
  | none => cases h
  | some m0 =>
    simp only [run, Option.map_some, Option.some.injEq, Prod.mk.injEq] at h
    cases ho : m0.mutate j ⟨draws⟩ with
    | ok p =>
      obtain ⟨a, res, c, r'⟩ := p
      rw [ho] at h
      simp only [Outcome.toOption, Option.map_some, Option.some.injEq] at h
      exact ⟨m0, res, c, r', rfl, h.1, by rw [ho, h.2]⟩
    | err e => rw [ho] at h; exact absurd h.2 (by simp [Outcome.toOption])
    | panic => rw [ho] at h; exact absurd h.2 (by simp [Outcome.toOption])
    | outOfFuel => rw [ho] at h; exact absurd h.2 (by simp [Outcome.toOption])

/-- Whether the outcome is a crash. -/
def panics {α : Type} : Outcome α → Bool
  | .panic => true
  | _ => false

/-- Whether the outcome is an error. -/
def errs {α : Type} : Outcome α → Bool
  | .err _ => true
  | _ => false

def mutate (m : Option (Mutator ListRand)) (j : Json) (draws : List Nat) :
    Outcome (Json × MutatorResult × Option Json × ListRand) :=
  match m with
  | some m => m.mutate j ⟨draws⟩
  | none => .outOfFuel

def mutable (m : Option (Mutator ListRand)) (j : Json) : Bool := (m.map fun m => m.isMutable j).getD false

namespace Sol

def id' (i : Int) : Json := .num (.int i)
def types (s : String) : Json := .obj [("typeString", .str s)]
def var (i : Int) (name type : String) : Json :=
  .obj [("id", id' i), ("name", .str name), ("nodeType", .str "Identifier"), ("typeDescriptions", types type)]
def number (i : Int) (v : String) : Json :=
  .obj [("id", id' i), ("kind", .str "number"), ("nodeType", .str "Literal"), ("value", .str v)]
def binary (op : String) (l r : Json) : Json :=
  .obj [("id", id' 7), ("leftExpression", l), ("nodeType", .str "BinaryOperation"), ("operator", .str op),
    ("rightExpression", r)]
def unary (op : String) (pre : Bool) : Json :=
  .obj [("id", id' 8), ("nodeType", .str "UnaryOperation"), ("operator", .str op), ("prefix", .bool pre),
    ("subExpression", var 9 "x" "uint8")]
def call (name : String) (args : List Json) : Json :=
  .obj [("arguments", .arr args), ("expression", var 10 name "function"), ("id", id' 11),
    ("nodeType", .str "FunctionCall")]
def stmt (i : Int) : Json :=
  .obj [("expression", var i "x" "uint8"), ("id", id' (i + 100)), ("nodeType", .str "ExpressionStatement")]
def ret : Json := .obj [("id", id' 12), ("nodeType", .str "Return")]
def unchecked : Json := .obj [("id", id' 16), ("nodeType", .str "UncheckedBlock"), ("statements", .arr [])]
def block (ss : List Json) : Json :=
  .obj [("id", id' 13), ("nodeType", .str "Block"), ("statements", .arr ss)]
def ifNode (c : Json) : Json :=
  .obj [("condition", c), ("id", id' 14), ("nodeType", .str "IfStatement"), ("trueBody", block [stmt 1])]
def assign (type : String) (rhs : Json) : Json :=
  .obj [("id", id' 15), ("nodeType", .str "Assignment"), ("rightHandSide", rhs), ("typeDescriptions", types type)]
def member (name : String) : Json :=
  .obj [("id", id' 17), ("memberName", .str name), ("nodeType", .str "MemberAccess")]

end Sol

namespace Vy

def id' (i : Int) : Json := .num (.int i)
def name (i : Int) (s : String) : Json :=
  .obj [("ast_type", .str "Name"), ("id", .str s), ("node_id", id' i)]
def int (i v : Int) : Json := .obj [("ast_type", .str "Int"), ("node_id", id' i), ("value", .num (.int v))]
def str (i : Int) (v : String) : Json :=
  .obj [("ast_type", .str "Str"), ("node_id", id' i), ("value", .str v)]
def op (s : String) : Json := .obj [("ast_type", .str s), ("node_id", id' 50)]
def binary (kind o : String) (l r : Json) : Json :=
  .obj [("ast_type", .str kind), ("left", l), ("node_id", id' 7), ("op", op o), ("right", r)]
def unary (o : String) (e : Json) : Json :=
  .obj [("ast_type", .str "UnaryOp"), ("node_id", id' 8), ("op", op o), ("operand", e)]
def call (args : List Json) : Json :=
  .obj [("args", .arr args), ("ast_type", .str "Call"), ("func", name 10 "f"), ("node_id", id' 11)]
def stmt (i : Int) : Json :=
  .obj [("ast_type", .str "Expr"), ("node_id", id' (i + 100)), ("value", name i "x")]
def ret : Json := .obj [("ast_type", .str "Return"), ("node_id", id' 12)]
def func (body : List Json) (returns : Json) : Json :=
  .obj [("ast_type", .str "FunctionDef"), ("body", .arr body), ("node_id", id' 13), ("returns", returns)]
def ifNode (c : Json) : Json :=
  .obj [("ast_type", .str "If"), ("body", .arr [stmt 1]), ("node_id", id' 14), ("orelse", .arr []), ("test", c)]
def assign (target value : Json) : Json :=
  .obj [("ast_type", .str "Assign"), ("node_id", id' 15), ("target", target), ("value", value)]

end Vy
end DemoNodes
end Mutagenyx
