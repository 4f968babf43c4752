import Verif.Spec.MutatorSpec
import Verif.Spec.Selection

/-!
# Vocabulary for "the mutation ends with a mutated node" (C30)
-/

namespace Mutagenyx
variable {R : Type}

/-- The random state after `n` draws of 64 bits. -/
def u64After [Rand R] (r : R) : Nat → R
  | 0 => r
  | n + 1 => (nextU64 (u64After r n)).2

/-- The random state after `n` draws below `k`. -/
def belowAfter [Rand R] (k : Nat) (r : R) : Nat → R
  | 0 => r
  | n + 1 => (Rand.below k (belowAfter k r n)).2

/-- The random source yields every index again and again. -/
def FairSource [Rand R] (r : R) : Prop :=
  (∀ len i, i < len → len ≤ 2 ^ 64 → ∀ n, ∃ m, n ≤ m ∧ (nextU64 (u64After r m)).1 % len = i) ∧
  (∀ k i, i < k → ∀ n, ∃ m, n ≤ m ∧ (Rand.below k (belowAfter k r m)).1 = i)

/-- The arrays of the node are not longer than any memory. -/
def FitsMemory (j : Json) : Prop := ∀ k xs, j.field k = some (.arr xs) → xs.length ≤ 2 ^ 64

/-- A loop run with a bound on its iterations ends with a value or is cut off by the bound; and if `F`
holds there is a bound from which on it always ends, with the same value. -/
def EndsIf {α : Type} (F : Prop) (f : Nat → Outcome α) : Prop :=
  (∀ n, (∃ a, f n = .ok a) ∨ f n = .outOfFuel) ∧ (F → ∃ N a, ∀ n, N ≤ n → f n = .ok a)

/-- The node has what the Solidity mutator of the algorithm needs beyond what its test for mutable nodes
asks for. -/
def SolidityUsable : MutationType → Json → Prop
  | .assignment, j => (∃ v, j.field "rightHandSide" = some v) ∧
      ((∃ n : Nat, 0 < n ∧ n < 2 ^ 32 ∧ HasTypeText ("uint" ++ toString n) j) ∨
       (∃ n : Nat, 0 < n ∧ n < 128 ∧ HasTypeText ("int" ++ toString n) j) ∨ HasTypeText "bool" j)
  | .functionCall, j => ∃ args a, j.field "arguments" = some (.arr args) ∧ a ∈ args ∧ ¬ IsKind "Literal" a
  | .integer, j => ∃ i : Int, -(2 ^ 63) < i ∧ i < 2 ^ 63 - 1 ∧ TextField "value" j (toString i)
  | .swapOperatorArguments, j =>
      (∃ v, j.field "leftExpression" = some v) ∧ ∃ v, j.field "rightExpression" = some v
  | .swapLines, j => ∃ (ss : List Json) (i k : Nat) (a b : Json), j.field "statements" = some (.arr ss) ∧ i ≠ k ∧ ss[i]? = some a ∧
      ss[k]? = some b ∧ ¬ IsKind "Return" a ∧ ¬ IsKind "Return" b
  | .require, j => ∃ a rest, j.field "arguments" = some (.arr (a :: rest))
  | .uncheckedBlock, j => ∃ ss a, j.field "statements" = some (.arr ss) ∧ a ∈ ss ∧ ¬ IsKind "Return" a ∧
      ¬ IsKind "UncheckedBlock" a
  | _, _ => True

/-- The same for the Vyper mutators. -/
def VyperUsable : MutationType → Json → Prop
  | .assignment, j => ∃ v, j.field "value" = some v
  | .deleteStatement, j => ∀ s, j.field "body" = some (.arr [s]) → ∀ ret id, j.field "returns" = some ret →
      IsVyperKind "Name" ret → TextField "id" ret id →
        ∃ p rest, p ∈ ["boo", "uin", "int", "str"] ∧ id = p ++ rest
  | .functionCall, j => ∃ args a, j.field "args" = some (.arr args) ∧ a ∈ args ∧
      ¬ TextField "nodeType" a "Int" ∧ ¬ TextField "nodeType" a "Str"
  | .integer, j => ∃ i : Int, -(2 ^ 63) < i ∧ i < 2 ^ 63 - 1 ∧ j.field "value" = some (.num (.int i))
  | .swapOperatorArguments, j => IsVyperKind "BinOp" j ∨ IsVyperKind "Compare" j
  | .swapLines, j => ∃ (ss : List Json) (i k : Nat) (a b : Json), j.field "body" = some (.arr ss) ∧ i ≠ k ∧ ss[i]? = some a ∧
      ss[k]? = some b ∧ ¬ IsVyperKind "Return" a ∧ ¬ IsVyperKind "Return" b
  | .unaryOp, j => ∃ v, j.field "operand" = some v
  | _, _ => True

end Mutagenyx
