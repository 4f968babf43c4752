import Verif.Model.Common

/-! # Specification vocabulary for selecting algorithms -/

namespace Mutagenyx
variable {R : Type} [Rand R]

/-- The random state after `n` choices from a list. -/
def rngAfter (types : List MutationType) (r : R) : Nat → R
  | 0 => r
  | n + 1 => (choose types (rngAfter types r n)).2

/-- What the random source offers at the `n`-th choice. -/
def offered (types : List MutationType) (r : R) (n : Nat) : Option MutationType :=
  (choose types (rngAfter types r n)).1

/-- The random source offers every element again and again. -/
def Fair (types : List MutationType) (r : R) : Prop :=
  ∀ t ∈ types, ∀ n, ∃ m, n ≤ m ∧ offered types r m = some t

/-- A random source that goes round. -/
structure CycleRand where
  next : Nat
  deriving DecidableEq, Repr, Inhabited

instance : Rand CycleRand where
  below n r := (r.next % n, ⟨r.next + 1⟩)
  below_lt _ _ h := Nat.mod_lt _ h

end Mutagenyx
