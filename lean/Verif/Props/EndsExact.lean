import Verif.Props.Ends

/-!
# Exactly which mutable nodes can be mutated (C30)

`SolidityUsable` and `VyperUsable` say what a node must have beyond what the test for mutable nodes asks
for.  Here: for the algorithms named, a node that has not is never mutated, whatever is drawn.
-/

namespace Mutagenyx
open Json

variable {R : Type} [Rand R]

theorem sol_not_type {t : String} {xs : List Json} {i : Nat} (h : Solidity.notOfType t xs i = true) :
    ∃ a, xs[i]? = some a ∧ ¬ IsKind t a := by
  unfold Solidity.notOfType at h
  split at h
  · rename_i v hv
    refine ⟨v, hv, fun hk => ?_⟩
    rw [solidity_hasType.2 hk] at h
    cases h
  · cases h

theorem vy_not_type {t : String} {xs : List Json} {i : Nat} (h : Vyper.notOfType t xs i = true) :
    ∃ a, xs[i]? = some a ∧ ¬ IsVyperKind t a := by
  unfold Vyper.notOfType at h
  split at h
  · rename_i v hv
    refine ⟨v, hv, fun hk => ?_⟩
    rw [vyper_hasType.2 hk] at h
    cases h
  · cases h

theorem sol_needed (env : MutEnv) (t : MutationType) {j : Json} (r : R) {m : Mutator R}
    (hm : Solidity.mutatorFor env t = some m) (hmut : m.isMutable j = true)
    (ht : t ≠ .assignment ∧ t ≠ .integer) {a : Json × MutatorResult × Option Json × R}
    (h : m.mutate j r = .ok a) : SolidityUsable t j := by
  cases t <;> cases hm <;> try exact trivial
  case assignment => exact absurd rfl ht.1
  case integer => exact absurd rfl ht.2
  case functionCall =>
    simp only [Solidity.functionCallMutate] at h
    split at h
    · rename_i args hargs
      split at h
      · rename_i i r' hd
        obtain ⟨_, hg⟩ := drawUntil_ok hd
        obtain ⟨a, ha, hna⟩ := sol_not_type hg
        exact ⟨args, a, arrayField_iff.1 hargs, List.mem_of_getElem? ha, hna⟩
      all_goals cases h
    · cases h
  case swapOperatorArguments =>
    simp only [Solidity.swapOperandsMutable, Bool.and_eq_true] at hmut
    have hj := isKind_isObj (solidity_hasType.1 hmut.1)
    simp only [Solidity.swapOperandsMutate] at h
    split at h
    · rename_i left j1 h1
      obtain ⟨e1, hj1, hf1⟩ := take_eq (by decide) hj h1
      split at h
      · rename_i right j2 h2
        obtain ⟨e2, _, _⟩ := take_eq (by decide) hj1 h2
        rw [hf1 "rightExpression", if_neg (fun h => absurd h.1 (by decide))] at e2
        exact ⟨⟨left, e1.symm⟩, ⟨right, e2.symm⟩⟩
      · cases h
    · cases h
  case swapLines =>
    simp only [Solidity.swapLinesMutable, Bool.and_eq_true] at hmut
    have hj := isKind_isObj (solidity_hasType.1 hmut.1)
    simp only [Solidity.swapLinesMutate] at h
    split at h
    · rename_i ss j1 h1
      obtain ⟨e1, _, _⟩ := take_eq (by decide) hj h1
      split at h
      · rename_i first r1 hd1
        split at h
        · rename_i second r2 hd2
          obtain ⟨_, hg1⟩ := drawUntil_ok hd1
          obtain ⟨_, hg2⟩ := drawUntil_ok hd2
          simp only [Bool.and_eq_true, bne_iff_ne, ne_eq] at hg2
          obtain ⟨a, ha, hna⟩ := sol_not_type hg1
          obtain ⟨b, hb, hnb⟩ := sol_not_type hg2.2
          exact ⟨ss, first, second, a, b, e1.symm, fun e => hg2.1 e.symm, ha, hb, hna, hnb⟩
        all_goals cases h
      all_goals cases h
    · cases h
  case require =>
    simp only [Solidity.requireMutate] at h
    split at h
    · rename_i arg0 rest hargs
      exact ⟨arg0, rest, arrayField_iff.1 hargs⟩
    · cases h
  case uncheckedBlock =>
    simp only [Solidity.uncheckedBlockMutable, Bool.and_eq_true] at hmut
    have hj := isKind_isObj (solidity_hasType.1 hmut.1)
    simp only [Solidity.uncheckedBlockMutate] at h
    split at h
    · rename_i ss j1 h1
      obtain ⟨e1, _, _⟩ := take_eq (by decide) hj h1
      split at h
      · rename_i i v rest r' hd
        rw [uncheckedDraw_eq] at hd
        simp only [Outcome.bind] at hd
        split at hd
        · rename_i p hp
          obtain ⟨_, hg⟩ := drawUntil_ok (i := p.1) (r' := p.2) hp
          split at hg
          · rename_i w hw
            simp only [Bool.not_eq_true', Bool.or_eq_false_iff] at hg
            refine ⟨ss, w, e1.symm, List.mem_of_getElem? hw, fun hk => ?_, fun hk => ?_⟩
            · rw [solidity_hasType.2 hk] at hg; cases hg.1
            · rw [solidity_hasType.2 hk] at hg; cases hg.2
          · cases hg
        all_goals cases hd
      all_goals cases h
    · cases h

/-- **C30**, exactly which mutable nodes can be mutated: for every algorithm but those that make up a new
number, the mutation of a mutable node comes to an end with a mutated node for some number of iterations
if and only if the node is usable. -/
theorem C30_solidity_exact (env : MutEnv) (t : MutationType) {j : Json} (r : R) {m : Mutator R}
    (hm : Solidity.mutatorFor env t = some m) (hmut : m.isMutable j = true)
    (ht : t ≠ .assignment ∧ t ≠ .integer) (hfair : FairSource r) (hfit : FitsMemory j) :
    (∃ n a, solidityMutate env t j r n = .ok a) ↔ SolidityUsable t j := by
  constructor
  · rintro ⟨n, a, h⟩
    unfold solidityMutate at h
    cases hm' : Solidity.mutatorFor (R := R) { env with fuel := n } t with
    | none => rw [hm'] at h; cases h
    | some m' =>
      rw [hm'] at h
      refine sol_needed { env with fuel := n } t r hm' ?_ ht h
      have : m'.isMutable = m.isMutable := by
        cases t <;> cases hm <;> cases hm' <;> rfl
      rw [this]; exact hmut
  · intro hu
    obtain ⟨N, a, h⟩ := (C30_solidity_partial env t r hm hmut hu hfit).2 hfair
    exact ⟨N, a, h N (Nat.le_refl N)⟩

theorem vy_needed (env : MutEnv) (t : MutationType) {j : Json} (r : R) {m : Mutator R}
    (hm : Vyper.mutatorFor env t = some m) (hmut : m.isMutable j = true)
    (ht : t = .assignment ∨ t = .functionCall ∨ t = .swapLines ∨ t = .unaryOp)
    {a : Json × MutatorResult × Option Json × R}
    (h : m.mutate j r = .ok a) : VyperUsable t j := by
  rcases ht with rfl | rfl | rfl | rfl <;> cases hm
  · simp only [Vyper.assignmentMutate] at h
    split at h
    · cases h
    · rename_i old ho
      rw [field?_eq_field] at ho
      exact ⟨old, ho⟩
  · simp only [Vyper.functionCallMutate] at h
    split at h
    · rename_i args hargs
      split at h
      · rename_i i r' hd
        obtain ⟨_, hg⟩ := drawUntil_ok hd
        unfold Vyper.acceptableArgument at hg
        split at hg
        · rename_i v hv
          simp only [Bool.not_eq_true', Bool.or_eq_false_iff, beq_eq_false_iff_ne] at hg
          exact ⟨args, v, vyper_arrayField_iff.1 hargs, List.mem_of_getElem? hv,
            fun hk => hg.1 (getStr_of_text (by decide) hk), fun hk => hg.2 (getStr_of_text (by decide) hk)⟩
        · cases hg
      all_goals cases h
    · cases h
  · simp only [Vyper.swapLinesMutable, Bool.and_eq_true, Bool.or_eq_true] at hmut
    have hj : IsObj j := by
      rcases hmut.1 with (h | h) | h <;> exact isVyperKind_isObj (vyper_hasType.1 h)
    simp only [Vyper.swapLinesMutate] at h
    split at h
    · rename_i ss j1 h1
      obtain ⟨e1, _, _⟩ := take_eq (by decide) hj h1
      split at h
      · rename_i first r1 hd1
        split at h
        · rename_i second r2 hd2
          obtain ⟨_, hg1⟩ := drawUntil_ok hd1
          obtain ⟨_, hg2⟩ := drawUntil_ok hd2
          simp only [Bool.and_eq_true, bne_iff_ne, ne_eq] at hg2
          obtain ⟨a, ha, hna⟩ := vy_not_type hg1
          obtain ⟨b, hb, hnb⟩ := vy_not_type hg2.2
          exact ⟨ss, first, second, a, b, e1.symm, fun e => hg2.1 e.symm, ha, hb, hna, hnb⟩
        all_goals cases h
      all_goals cases h
    · cases h
  · simp only [Vyper.unaryOpMutate] at h
    have hj := isVyperKind_isObj (vyper_hasType.1 (show Vyper.hasType "UnaryOp" j = true from hmut))
    split at h
    · rename_i v j1 h1
      obtain ⟨e1, _, _⟩ := take_eq (by decide) hj h1
      exact ⟨v, e1.symm⟩
    · cases h

/-- The same for the Vyper algorithms whose test for mutable nodes asks for too little. -/
theorem C30_vyper_exact (env : MutEnv) (t : MutationType) {j : Json} (r : R) {m : Mutator R}
    (hm : Vyper.mutatorFor env t = some m) (hmut : m.isMutable j = true)
    (ht : t = .assignment ∨ t = .functionCall ∨ t = .swapLines ∨ t = .unaryOp) (hfair : FairSource r)
    (hfit : FitsMemory j) :
    (∃ n a, vyperMutate env t j r n = .ok a) ↔ VyperUsable t j := by
  constructor
  · rintro ⟨n, a, h⟩
    unfold vyperMutate at h
    cases hm' : Vyper.mutatorFor (R := R) { env with fuel := n } t with
    | none => rw [hm'] at h; cases h
    | some m' =>
      rw [hm'] at h
      refine vy_needed { env with fuel := n } t r hm' ?_ ht h
      have : m'.isMutable = m.isMutable := by
        rcases ht with rfl | rfl | rfl | rfl <;> cases hm <;> cases hm' <;> rfl
      rw [this]; exact hmut
  · intro hu
    obtain ⟨N, a, h⟩ := (C30_vyper_partial env t r hm hmut hu hfit).2 hfair
    exact ⟨N, a, h N (Nat.le_refl N)⟩

/-- **C30 fails for every assignment to a signed integer of 128 bits or more**, `int256` among them,
whatever is assigned and whatever is drawn: such an assignment is counted as mutable and its mutation
crashes. -/
theorem C30_wide_integers_counterexample (env : MutEnv) {m : Mutator R}
    (hm : Solidity.mutatorFor env .assignment = some m) {j : Json} (hj : IsKind "Assignment" j) (n : Nat)
    (h128 : 128 ≤ n) (ht : HasTypeText ("int" ++ toString n) j) {v : Json}
    (hv : j.field "rightHandSide" = some v) (r : R) : m.isMutable j = true ∧ m.mutate j r = .panic := by
  cases hm
  obtain ⟨td, h1, h2⟩ := ht
  have hts : Solidity.typeString j = some ("int" ++ toString n) := by
    unfold Solidity.typeString
    rw [field?_eq_field, h1]
    exact getStr_of_text (by decide) h2
  refine ⟨?_, ?_⟩
  · show Solidity.assignmentMutable j = true
    simp only [Solidity.assignmentMutable, solidity_hasType.2 hj, hts, (int_text n).1]
    decide
  · show Solidity.assignmentMutate env j r = .panic
    have hp : Solidity.assignmentValue ("int" ++ toString n) r = .panic := by
      unfold Solidity.assignmentValue
      rw [(int_text n).1]
      simp only [if_true, (int_text n).2, Option.bind_some, parseU32_repr]
      by_cases hn : n < 2 ^ 32
      · simp only [hn, if_true]
        have : (if n > 128 then 128 else n) = 128 := by split <;> omega
        simp only [this, or_true, if_true]
      · simp only [hn, if_false]
    simp only [Solidity.assignmentMutate, field?_eq_field, h1, getStr_of_text (by decide) h2, hv, hp]

example : IsKind "Assignment" (DemoNodes.Sol.assign "int256" (DemoNodes.Sol.var 1 "a" "int256")) ∧
    HasTypeText ("int" ++ toString 256) (DemoNodes.Sol.assign "int256" (DemoNodes.Sol.var 1 "a" "int256")) :=
  ⟨rfl, ⟨_, rfl, rfl⟩⟩

end Mutagenyx
