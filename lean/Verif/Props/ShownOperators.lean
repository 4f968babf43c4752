import Verif.Model.AlgorithmsInfo
import Verif.Props.Considered

/-!
# The operators in the descriptions (property C72)

`mutagenyx algorithms --describe` shows a list of operators for seven algorithms.
-/

namespace Mutagenyx

variable {R : Type} [Rand R]

/-- **C72 for Solidity.** If a description shows operators, these are exactly the operators of the nodes that the
algorithm considers. -/
theorem C72_solidity {env : MutEnv} {t : MutationType} {m : Mutator R} (hm : Solidity.mutatorFor env t = some m)
    (hshown : t.description.operators ≠ []) (op : String) :
    op ∈ t.description.operators ↔ ∃ j, m.isMutable j = true ∧ TextField "operator" j op := by
  have unique : ∀ {j : Json} {a b : String}, TextField "operator" j a → TextField "operator" j b → a = b := by
    intro j a b h1 h2
    rw [TextField] at h1 h2
    rw [h1] at h2
    injection h2 with h2
    injection h2
  have binary : ∀ (ops ops' : List String), (∀ o, o ∈ ops ↔ o ∈ ops') →
      (∀ j, m.isMutable j = true ↔ IsKind "BinaryOperation" j ∧ ∃ op ∈ ops', TextField "operator" j op) →
      (op ∈ ops ↔ ∃ j, m.isMutable j = true ∧ TextField "operator" j op) := by
    intro ops ops' hops hmut
    constructor
    · intro h
      refine ⟨DemoNodes.Sol.binary op .null .null, (hmut _).2 ⟨rfl, op, (hops op).1 h, rfl⟩, rfl⟩
    · rintro ⟨j, h1, h2⟩
      obtain ⟨_, o, ho, h3⟩ := (hmut j).1 h1
      rw [unique h2 h3]
      exact (hops o).2 ho
  have hiff := fun j => C69_solidity hm j
  cases t with
  | arithmeticBinaryOp => exact binary _ (operatorClass .arithmeticBinaryOp) (fun o => Iff.rfl) hiff
  | logicalBinaryOp => exact binary _ (operatorClass .logicalBinaryOp) (fun o => Iff.rfl) hiff
  | bitwiseBinaryOp => exact binary _ (operatorClass .bitwiseBinaryOp) (fun o => Iff.rfl) hiff
  | bitshiftBinaryOp => exact binary _ (operatorClass .bitshiftBinaryOp) (fun o => Iff.rfl) hiff
  | comparisonBinaryOp =>
    refine binary _ (operatorClass .comparisonBinaryOp) (fun o => ?_) hiff
    simp only [MutationType.description, comparisonOperators, operatorClass, List.mem_cons, List.not_mem_nil, or_false]
    constructor <;> (rintro (h | h | h | h | h | h) <;> simp [h])
  | swapOperatorArguments =>
    refine binary _ nonCommutative (fun o => ?_) hiff
    simp only [MutationType.description, nonCommutativeOperators, nonCommutative, List.mem_cons, List.not_mem_nil,
      or_false]
    constructor <;> (rintro (h | h | h | h | h | h | h | h | h | h) <;> simp [h])
  | unaryOp =>
    constructor
    · intro h
      exact ⟨DemoNodes.Sol.unary op true, (hiff _).2 ⟨rfl, true, rfl, op, h, rfl⟩, rfl⟩
    · rintro ⟨j, h1, h2⟩
      obtain ⟨_, pre, _, o, ho, h3⟩ := (hiff j).1 h1
      rw [unique h2 h3]
      cases pre
      · revert ho
        simp only [unaryClass, MutationType.description, prefixOperators]
        simp only [Bool.false_eq_true, if_false, List.mem_cons, List.not_mem_nil, or_false]
        rintro (h | h) <;> simp [h]
      · exact ho
  | _ => exact absurd rfl hshown

/-- The hypotheses are satisfiable; what is shown and what is considered. -/
example : MutationType.description .comparisonBinaryOp |>.operators.contains "<=" := by decide +kernel

example : DemoNodes.mutable (Solidity.mutatorFor DemoNodes.env .comparisonBinaryOp)
      (DemoNodes.Sol.binary "<=" (DemoNodes.Sol.var 1 "a" "uint256") (DemoNodes.Sol.var 2 "b" "uint256")) = true ∧
    DemoNodes.mutable (Solidity.mutatorFor DemoNodes.env .comparisonBinaryOp)
      (DemoNodes.Sol.binary "&&" (DemoNodes.Sol.var 1 "a" "bool") (DemoNodes.Sol.var 2 "b" "bool")) = false := by
  decide +kernel

/-- **C72 for Vyper, in part.** For the algorithms on binary operators whose description shows operators, each node
that the algorithm considers has an operator whose symbol is shown.  Missing: the other direction, which fails for the
shift operators (they are shown and no node is considered), and the algorithm `UnaryOp`, for which see the
counterexample. -/
theorem C72_vyper_partial {env : MutEnv} {t : MutationType} {m : Mutator R} (hm : Vyper.mutatorFor env t = some m)
    (hshown : t.description.operators ≠ []) (ht : t ≠ .unaryOp) (j : Json) (h : m.isMutable j = true) :
    ∃ o name symbol, j.field "op" = some o ∧ IsVyperKind name o ∧ Vyper.symbolOf name = some symbol ∧
      symbol ∈ t.description.operators := by
  have binary : ∀ ops : List String, VyperOperation ops j →
      (∀ op ∈ ops, ∃ symbol ∈ t.description.operators, Vyper.symbolOf op = some symbol) →
      ∃ o name symbol, j.field "op" = some o ∧ IsVyperKind name o ∧ Vyper.symbolOf name = some symbol ∧
        symbol ∈ t.description.operators := by
    rintro ops ⟨_, o, h1, op, h2, h3⟩ hops
    obtain ⟨symbol, h4, h5⟩ := hops op h2
    exact ⟨o, op, symbol, h1, h3, h5, h4⟩
  have hv := (C69_vyper hm j).1 h
  cases t with
  | arithmeticBinaryOp => exact binary _ hv (by decide)
  | logicalBinaryOp => exact binary _ hv (by decide)
  | bitwiseBinaryOp => exact binary _ hv (by decide)
  | bitshiftBinaryOp => exact binary _ hv (by decide)
  | comparisonBinaryOp => exact binary _ hv (by decide)
  | swapOperatorArguments => exact binary _ hv (by decide)
  | unaryOp => exact absurd rfl ht
  | _ => exact absurd rfl hshown

/-- The hypotheses are satisfiable. -/
example : DemoNodes.mutable (Vyper.mutatorFor DemoNodes.env .arithmeticBinaryOp)
    (DemoNodes.Vy.binary "BinOp" "Pow" (DemoNodes.Vy.int 1 2) (DemoNodes.Vy.int 2 3)) = true := by decide +kernel

/-- **C72 fails for Vyper:** `UnaryOp` considers `not a`, an operator that is not shown; and the operators shown for
`BitshiftBinaryOp` belong to no node that it considers. -/
theorem C72_vyper_counterexample :
    (∃ (j o : Json) (m : Mutator ListRand), Vyper.mutatorFor DemoNodes.env .unaryOp = some m ∧ m.isMutable j = true ∧
      j.field "op" = some o ∧ IsVyperKind "Not" o ∧ ∀ symbol, Vyper.symbolOf "Not" = some symbol →
        symbol ∉ MutationType.unaryOp.description.operators) ∧
    MutationType.bitshiftBinaryOp.description.operators = ["<<", ">>"] ∧
    ∀ m : Mutator ListRand, Vyper.mutatorFor DemoNodes.env .bitshiftBinaryOp = some m → ∀ j, m.isMutable j = false := by
  refine ⟨⟨DemoNodes.Vy.unary "Not" (DemoNodes.Vy.name 1 "a"), _, _, rfl, by decide +kernel, rfl, rfl, ?_⟩, rfl, ?_⟩
  · intro symbol h
    cases h
    decide
  · intro m hm j
    rw [Bool.eq_false_iff]
    intro h
    obtain ⟨_, _, _, _, h, _⟩ := (C69_vyper hm j).1 h
    cases h

end Mutagenyx
