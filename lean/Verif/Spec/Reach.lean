import Verif.Model.Common

/-!
# What can come up

Random choices are given as a list of draws (`ListRand`): whatever an algorithm does with some random numbers, it does with such a
list.
-/

namespace Mutagenyx

/-- There are random choices with which the algorithm makes the second node of the first. -/
def Reachable (m : Mutator ListRand) (j j' : Json) : Prop :=
  ∃ draws res c r', m.mutate j ⟨draws⟩ = .ok (j', res, c, r')

end Mutagenyx
