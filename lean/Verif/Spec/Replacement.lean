import Verif.Spec.MutatorSpec

/-!
# What takes the place of the only statement of a Vyper function

A function without result needs a statement, such as `pass`; a function with a result has to return a value of the type
of the result.
-/

namespace Mutagenyx

/-- The node of the function does not declare a result. -/
def NoResult (j : Json) : Prop := j.field "returns" = none ∨ j.field "returns" = some .null

/-- The function declares a result of the type with this name. -/
def ResultNamed (name : String) (j : Json) : Prop :=
  ∃ ret, j.field "returns" = some ret ∧ IsVyperKind "Name" ret ∧ TextField "id" ret name

/-- The statement returns the value that the predicate is about. -/
def Returns (p : Json → Prop) (s : Json) : Prop := IsVyperKind "Return" s ∧ ∃ v, s.field "value" = some v ∧ p v

/-- `True` or `False`. -/
def IsBool (v : Json) : Prop := IsVyperKind "NameConstant" v ∧ ∃ b, v.field "value" = some (.bool b)

/-- An integer between the bounds. -/
def IsIntBetween (lo hi : Int) (v : Json) : Prop :=
  IsVyperKind "Int" v ∧ ∃ i, v.field "value" = some (.num (.int i)) ∧ lo ≤ i ∧ i ≤ hi

/-- A tuple of the given size. -/
def IsTupleOf (n : Nat) (v : Json) : Prop :=
  IsVyperKind "Tuple" v ∧ ∃ es, v.field "elements" = some (.arr es) ∧ es.length = n

/-- The body consists of the old statement, turned into a comment, and the new statements. -/
def BodyBecomes (s : Json) (new : List Json) (j' : Json) : Prop :=
  ∃ w, j'.field "body" = some (.arr (w :: new)) ∧ IsVyperKind "Comment" w ∧ w.field "value" = some s

end Mutagenyx
