import Verif.Spec.DemoNodes
import Verif.Proofs.Mutators

/-!
# Operator mutations (C28, C29, C31)
-/

namespace Mutagenyx
open Json

variable {R : Type} [Rand R]

/-- What a Solidity binary-operator mutator installed for `t` is. -/
theorem solidity_binary {env : MutEnv} {t : MutationType} (ht : BinaryAlgorithm t) {m : Mutator R}
    (hm : Solidity.mutatorFor env t = some m) :
    ∃ ops, (∀ o, o ∈ ops ↔ o ∈ operatorClass t) ∧ ops ≠ [] ∧
      m = ⟨t, Solidity.binaryOpMutable ops, Solidity.binaryOpMutate env ops t⟩ := by
  rcases ht with rfl | rfl | rfl | rfl | rfl
  · exact ⟨_, fun o => by simp [operatorClass, arithmeticOperators], by decide, (Option.some.inj hm).symm⟩
  · exact ⟨_, fun o => by simp [operatorClass, logicalOperators], by decide, (Option.some.inj hm).symm⟩
  · exact ⟨_, fun o => by simp [operatorClass, bitwiseOperators], by decide, (Option.some.inj hm).symm⟩
  · exact ⟨_, fun o => by simp [operatorClass, bitshiftOperators], by decide, (Option.some.inj hm).symm⟩
  · refine ⟨_, fun o => ?_, by decide, (Option.some.inj hm).symm⟩
    simp only [operatorClass, comparisonOperators, List.mem_cons, List.not_mem_nil, or_false]
    constructor <;> (intro h; rcases h with h | h | h | h | h | h <;> simp [h])

/-- C28 for Solidity: the operator is replaced by a different operator of the same class, nothing else in
the node changes, the node keeps its id and the result names that id. -/
theorem C28_solidity {env : MutEnv} {t : MutationType} (ht : BinaryAlgorithm t) {m : Mutator R}
    (hm : Solidity.mutatorFor env t = some m) {j j' : Json} {r r' : R} {res : MutatorResult}
    {c : Option Json} (hmut : m.isMutable j = true) (h : m.mutate j r = .ok (j', res, c, r')) :
    (∃ old new, TextField "operator" j old ∧ TextField "operator" j' new ∧
      old ∈ operatorClass t ∧ new ∈ operatorClass t ∧ new ≠ old) ∧
    IsKind "BinaryOperation" j ∧ OnlyField "operator" j j' ∧
    solidityId j' = solidityId j ∧ res.mutatedNodeId = solidityId j ∧ res.mutationType = some t := by
  obtain ⟨ops, hops, _, rfl⟩ := solidity_binary ht hm
  simp only [Solidity.binaryOpMutable, Bool.and_eq_true] at hmut
  have hk := solidity_hasType.1 hmut.1
  have hj := isKind_isObj hk
  have hmut2 := hmut.2
  simp only [Solidity.binaryOpMutate] at h
  cases hop : getStrForKey "operator" j with
  | none => simp [hop] at hmut2
  | some old =>
    simp only [hop] at h hmut2
    cases hc : chooseOther ops old env.fuel r with
    | ok p =>
      obtain ⟨new, r1⟩ := p
      simp only [hc, Outcome.ok.injEq, Prod.mk.injEq] at h
      obtain ⟨rfl, rfl, _, _⟩ := h
      obtain ⟨hmem, hne⟩ := chooseOther_ok hc
      have hof : OnlyField "operator" j (setStrForKey "operator" new j) := onlyField_set (by decide) _ hj
      have hid := solidityId_onlyField (by decide) hof
      refine ⟨⟨old, new, (getStr_iff (by decide) hj).1 hop, ?_, ?_, (hops new).1 hmem, hne⟩, hk, hof, hid, hid, rfl⟩
      · unfold TextField setStrForKey
        rw [field_setNodeForKey (by decide) _ _ hj, if_pos rfl]
      · exact (hops old).1 (by simpa using hmut2)
    | err e => simp [hc] at h
    | panic => simp [hc] at h
    | outOfFuel => simp [hc] at h

open DemoNodes Sol in
example : run (Solidity.mutatorFor env .arithmeticBinaryOp) (binary "+" (var 1 "a" "uint8") (var 2 "b" "uint8")) [0, 3] =
    some (true, some (binary "/" (var 1 "a" "uint8") (var 2 "b" "uint8"))) := by decide +kernel

/-- Names and symbols of Vyper operators, for the operators of each class. -/
theorem vyper_symbols {t : MutationType} (ht : BinaryAlgorithm t) {m : Mutator R} {env : MutEnv}
    (hm : Vyper.mutatorFor env t = some m) :
    ∃ ops, (∀ n s, Vyper.symbolOf n = some s → s ∈ ops → n ∈ vyperOperatorClass t) ∧
      (t ≠ .bitshiftBinaryOp → ∀ s, s ∈ ops → ∃ n, Vyper.nameOf s = some n ∧ n ∈ vyperOperatorClass t ∧
        Vyper.symbolOf n = some s) ∧
      ops ≠ [] ∧ m = ⟨t, Vyper.binaryOpMutable ops, Vyper.binaryOpMutate env ops t⟩ := by
  have hmap : ∀ n s, Vyper.symbolOf n = some s → (n, s) ∈ Vyper.operatorMap := by
    intro n s h
    unfold Vyper.symbolOf at h
    exact List.lookup_eq_some_iff.1 h |>.choose_spec.choose_spec.1 ▸ by simp
  have hall : ∀ (ops cls : List String),
      (∀ p ∈ Vyper.operatorMap, p.2 ∈ ops → p.1 ∈ cls) →
      ∀ n s, Vyper.symbolOf n = some s → s ∈ ops → n ∈ cls :=
    fun ops cls h n s hn hs => h (n, s) (hmap n s hn) hs
  have hback : ∀ (ops cls : List String),
      (∀ s ∈ ops, (Vyper.nameOf s).any (fun n => decide (n ∈ cls) && decide (Vyper.symbolOf n = some s)) = true) →
      ∀ s, s ∈ ops → ∃ n, Vyper.nameOf s = some n ∧ n ∈ cls ∧ Vyper.symbolOf n = some s := by
    intro ops cls h s hs
    have := h s hs
    cases hn : Vyper.nameOf s with
    | none => simp [hn] at this
    | some n => exact ⟨n, rfl, by simpa [hn] using this⟩
  rcases ht with rfl | rfl | rfl | rfl | rfl
  · exact ⟨_, hall arithmeticOperators _ (by decide), fun _ => hback _ _ (by decide), by decide, (Option.some.inj hm).symm⟩
  · exact ⟨_, hall logicalOperators _ (by decide), fun _ => hback _ _ (by decide), by decide, (Option.some.inj hm).symm⟩
  · exact ⟨_, hall bitwiseOperators _ (by decide), fun _ => hback _ _ (by decide), by decide, (Option.some.inj hm).symm⟩
  · exact ⟨_, hall bitshiftOperators _ (by decide), fun h => absurd rfl h, by decide, (Option.some.inj hm).symm⟩
  · exact ⟨_, hall comparisonOperators _ (by decide), fun _ => hback _ _ (by decide), by decide, (Option.some.inj hm).symm⟩

/-- C28 for Vyper: the operator node gets the name of a different operator of the same class; nothing else
in the operator node or in the expression changes. -/
theorem C28_vyper {env : MutEnv} {t : MutationType} (ht : BinaryAlgorithm t) {m : Mutator R}
    (hm : Vyper.mutatorFor env t = some m) {j j' : Json} {r r' : R} {res : MutatorResult}
    {c : Option Json} (hmut : m.isMutable j = true) (h : m.mutate j r = .ok (j', res, c, r')) :
    (∃ op op' old new, j.field "op" = some op ∧ j'.field "op" = some op' ∧ OnlyField "ast_type" op op' ∧
      TextField "ast_type" op old ∧ TextField "ast_type" op' new ∧
      old ∈ vyperOperatorClass t ∧ new ∈ vyperOperatorClass t ∧ new ≠ old) ∧
    OnlyField "op" j j' ∧
    vyperId j' = vyperId j ∧ res.mutatedNodeId = vyperId j ∧ res.mutationType = some t := by
  obtain ⟨ops, hsym, hname, _, rfl⟩ := vyper_symbols ht hm
  simp only [Vyper.binaryOpMutable, Bool.and_eq_true] at hmut
  have hj : IsObj j := by
    have := hmut.1
    simp only [Vyper.isBinary, Bool.or_eq_true] at this
    rcases this with (h | h) | h <;> exact isVyperKind_isObj (vyper_hasType.1 h)
  have hmut2 := hmut.2
  rw [field?_eq_field] at hmut2
  simp only [Vyper.binaryOpMutate] at h
  cases htk : takeValueForKey "op" j with
  | mk o j1 =>
    obtain ⟨ho, hj1, hf1⟩ := take_eq (by decide) hj htk
    simp only [htk] at h
    cases o with
    | none => simp at h
    | some op =>
      rw [← ho] at hmut2
      simp only [Option.bind_some] at hmut2 h
      cases hty : getStrForKey "ast_type" op with
      | none => simp [hty] at h
      | some oldn =>
        simp only [hty, Option.bind_some] at h hmut2
        have hop := isObj_of_getStr (by decide) (by decide) hty
        cases hsy : Vyper.symbolOf oldn with
        | none => simp [hsy] at h
        | some old =>
          simp only [hsy] at h hmut2
          cases hc : chooseOther ops old env.fuel r with
          | ok p =>
            obtain ⟨new, r1⟩ := p
            obtain ⟨hmem, hne⟩ := chooseOther_ok hc
            have hold : oldn ∈ vyperOperatorClass t := hsym _ _ hsy (by simpa using hmut2)
            have hnb : t ≠ .bitshiftBinaryOp := by
              rintro rfl
              simp [vyperOperatorClass] at hold
            obtain ⟨newn, hn1, hn2, hn3⟩ := hname hnb new hmem
            simp only [hc, hn1, Outcome.ok.injEq, Prod.mk.injEq] at h
            obtain ⟨rfl, rfl, _, _⟩ := h
            obtain ⟨hof, hfo⟩ := onlyField_take_set (k := "op") (by decide)
              (setStrForKey "ast_type" newn op) hj htk
            have hid := vyperId_onlyField (by decide) hof
            refine ⟨⟨op, _, oldn, newn, ho.symm, hfo, onlyField_set (by decide) _ hop,
              (getStr_iff (by decide) hop).1 hty, ?_, hold, hn2, ?_⟩, hof, hid, hid, rfl⟩
            · unfold TextField setStrForKey
              rw [field_setNodeForKey (by decide) _ _ hop, if_pos rfl]
            · rintro rfl
              rw [hsy] at hn3
              exact hne (Option.some.inj hn3).symm
          | err e => simp [hc] at h
          | panic => simp [hc] at h
          | outOfFuel => simp [hc] at h

open DemoNodes Vy in
example : run (Vyper.mutatorFor env .comparisonBinaryOp) (binary "Compare" "Lt" (name 1 "a") (int 2 5)) [3, 5] =
    some (true, some (binary "Compare" "LtE" (name 1 "a") (int 2 5))) := by decide +kernel

/-- C29 for Solidity: a unary operator is replaced by a different operator of the same position (before or
after its operand); nothing else changes, in particular neither the position nor the operand. -/
theorem C29_solidity {env : MutEnv} {m : Mutator R}
    (hm : Solidity.mutatorFor env .unaryOp = some m) {j j' : Json} {r r' : R} {res : MutatorResult}
    {c : Option Json} (hmut : m.isMutable j = true) (h : m.mutate j r = .ok (j', res, c, r')) :
    (∃ pre old new, j.field "prefix" = some (.bool pre) ∧ TextField "operator" j old ∧
      TextField "operator" j' new ∧ old ∈ unaryClass pre ∧ new ∈ unaryClass pre ∧ new ≠ old) ∧
    IsKind "UnaryOperation" j ∧ OnlyField "operator" j j' ∧
    solidityId j' = solidityId j ∧ res.mutatedNodeId = solidityId j := by
  cases hm
  simp only [Solidity.unaryOpMutable, Bool.and_eq_true] at hmut
  have hk := solidity_hasType.1 hmut.1
  have hj := isKind_isObj hk
  have hmut2 := hmut.2
  simp only [Solidity.unaryOpMutate] at h
  cases hp : getBoolForKey "prefix" j with
  | none => simp [hp] at hmut2
  | some pre =>
    cases hop : getStrForKey "operator" j with
    | none => simp [hop, hp] at hmut2
    | some old =>
      simp only [hop, hp, Option.getD_some] at h hmut2
      cases hc : chooseOther (Solidity.unaryOperators pre) old env.fuel r with
      | ok p =>
        obtain ⟨new, r1⟩ := p
        simp only [hc, Outcome.ok.injEq, Prod.mk.injEq] at h
        obtain ⟨rfl, rfl, _, _⟩ := h
        obtain ⟨hmem, hne⟩ := chooseOther_ok hc
        have hof : OnlyField "operator" j (setStrForKey "operator" new j) := onlyField_set (by decide) _ hj
        have hid := solidityId_onlyField (by decide) hof
        have hcls : ∀ o, o ∈ Solidity.unaryOperators pre → o ∈ unaryClass pre := by
          cases pre <;> simp [Solidity.unaryOperators, unaryClass, prefixOperators, postfixOperators]
        refine ⟨⟨pre, old, new, (getBool_iff (by decide) hj).1 hp, (getStr_iff (by decide) hj).1 hop, ?_, ?_,
          hcls new hmem, hne⟩, hk, hof, hid, hid⟩
        · unfold TextField setStrForKey
          rw [field_setNodeForKey (by decide) _ _ hj, if_pos rfl]
        · exact hcls old (by simpa using hmut2)
      | err e => simp [hc] at h
      | panic => simp [hc] at h
      | outOfFuel => simp [hc] at h

open DemoNodes Sol in
example : run (Solidity.mutatorFor env .unaryOp) (unary "++" true) [0, 2] =
    some (true, some (unary "~" true)) := by decide +kernel

/-- C29 for Vyper: the operation is replaced by its operand, unchanged. -/
theorem C29_vyper {env : MutEnv} {m : Mutator R}
    (hm : Vyper.mutatorFor env .unaryOp = some m) {j j' : Json} {r r' : R} {res : MutatorResult}
    {c : Option Json} (hmut : m.isMutable j = true) (h : m.mutate j r = .ok (j', res, c, r')) :
    IsVyperKind "UnaryOp" j ∧ j.field "operand" = some j' ∧ res.mutatedNodeId = vyperId j' := by
  cases hm
  have hk := vyper_hasType.1 hmut
  simp only [Vyper.unaryOpMutate] at h
  cases ht : takeValueForKey "operand" j with
  | mk o j1 =>
    obtain ⟨ho, _, _⟩ := take_eq (by decide) (isVyperKind_isObj hk) ht
    simp only [ht] at h
    cases o with
    | none => simp at h
    | some v =>
      simp only [Outcome.ok.injEq, Prod.mk.injEq] at h
      obtain ⟨rfl, rfl, _, _⟩ := h
      exact ⟨hk, ho.symm, rfl⟩

open DemoNodes Vy in
example : run (Vyper.mutatorFor env .unaryOp) (unary "Not" (name 1 "a")) [] =
    some (true, some (name 1 "a")) := by decide +kernel

/-- The exchange of two fields of an object by taking both and setting both. -/
theorem swap_fields {k l : String} (hk : PlainKey k) (hl : PlainKey l) (hkl : k ≠ l) {j j1 j2 : Json}
    (hj : IsObj j) {a b : Json} (h1 : takeValueForKey k j = (some a, j1))
    (h2 : takeValueForKey l j1 = (some b, j2)) :
    j.field k = some a ∧ j.field l = some b ∧
      (setNodeForKey l a (setNodeForKey k b j2)).field k = some b ∧
      (setNodeForKey l a (setNodeForKey k b j2)).field l = some a ∧
      OnlyFields k l j (setNodeForKey l a (setNodeForKey k b j2)) := by
  obtain ⟨ha, hj1, hf1⟩ := take_eq hk hj h1
  obtain ⟨hb, hj2, hf2⟩ := take_eq hl hj1 h2
  have hj3 := setNodeForKey_isObj hk b hj2
  have hf := fun k' => field_setNodeForKey hl k' a hj3
  refine ⟨ha.symm, ?_, ?_, ?_, hj, setNodeForKey_isObj hl a hj3, fun k' h h' => ?_⟩
  · rw [hb, hf1 l, if_neg (fun h => hkl h.1)]
  · rw [hf, if_neg (Ne.symm hkl), field_setNodeForKey hk _ _ hj2, if_pos rfl]
  · rw [hf, if_pos rfl]
  · rw [hf, if_neg (Ne.symm h'), field_setNodeForKey hk _ _ hj2, if_neg (Ne.symm h), hf2,
      if_neg (fun e => h' e.1.symm), hf1, if_neg (fun e => h e.1.symm)]

theorem solidityId_onlyFields {k l : String} {j j' : Json} (hk : k ≠ "id") (hl : l ≠ "id")
    (h : OnlyFields k l j j') : solidityId j' = solidityId j := by
  unfold solidityId
  rw [getInt_field (by decide) h.1, getInt_field (by decide) h.2.1, h.2.2 "id" (Ne.symm hk) (Ne.symm hl)]

/-- C31 for Solidity: only non-commutative operators are candidates, and the mutation exchanges left and
right and nothing else. -/
theorem C31_solidity {env : MutEnv} {m : Mutator R}
    (hm : Solidity.mutatorFor env .swapOperatorArguments = some m) {j j' : Json} {r r' : R}
    {res : MutatorResult} {c : Option Json} (hmut : m.isMutable j = true)
    (h : m.mutate j r = .ok (j', res, c, r')) :
    IsKind "BinaryOperation" j ∧ (∃ op ∈ nonCommutative, TextField "operator" j op) ∧
    (∃ left right, j.field "leftExpression" = some left ∧ j.field "rightExpression" = some right ∧
      j'.field "leftExpression" = some right ∧ j'.field "rightExpression" = some left) ∧
    OnlyFields "leftExpression" "rightExpression" j j' ∧ res.mutatedNodeId = solidityId j ∧ r' = r := by
  cases hm
  simp only [Solidity.swapOperandsMutable, Bool.and_eq_true] at hmut
  have hk := solidity_hasType.1 hmut.1
  have hj := isKind_isObj hk
  have hmut2 := hmut.2
  simp only [Solidity.swapOperandsMutate] at h
  have hop : ∃ op ∈ nonCommutative, TextField "operator" j op := by
    cases hop : getStrForKey "operator" j with
    | none => simp [hop] at hmut2
    | some op =>
      refine ⟨op, ?_, (getStr_iff (by decide) hj).1 hop⟩
      have hsub : ∀ o ∈ nonCommutativeOperators, o ∈ nonCommutative := by decide
      exact hsub op (by simpa [hop] using hmut2)
  cases h1 : takeValueForKey "leftExpression" j with
  | mk o1 j1 =>
    simp only [h1] at h
    cases o1 with
    | none => simp at h
    | some left =>
      cases h2 : takeValueForKey "rightExpression" j1 with
      | mk o2 j2 =>
        simp only [h2] at h
        cases o2 with
        | none => simp at h
        | some right =>
          simp only [Outcome.ok.injEq, Prod.mk.injEq] at h
          obtain ⟨rfl, rfl, _, rfl⟩ := h
          obtain ⟨a1, a2, a3, a4, a5⟩ := swap_fields (by decide) (by decide) (by decide) hj h1 h2
          exact ⟨hk, hop, ⟨left, right, a1, a2, a3, a4⟩, a5,
            solidityId_onlyFields (by decide) (by decide) a5, rfl⟩

open DemoNodes Sol in
example : run (Solidity.mutatorFor env .swapOperatorArguments) (binary "-" (var 1 "a" "uint8") (var 2 "b" "uint8")) [] =
    some (true, some (binary "-" (var 2 "b" "uint8") (var 1 "a" "uint8"))) := by decide +kernel

/-- C31 for Solidity, second half: the mutated node is again a candidate and mutating it again gives back
every field of the node. -/
theorem C31_solidity_twice {env : MutEnv} {m : Mutator R}
    (hm : Solidity.mutatorFor env .swapOperatorArguments = some m) {j j' j'' : Json} {r r' r'' : R}
    {res res' : MutatorResult} {c c' : Option Json} (hmut : m.isMutable j = true)
    (h : m.mutate j r = .ok (j', res, c, r')) (h' : m.mutate j' r' = .ok (j'', res', c', r'')) :
    m.isMutable j' = true ∧ IsObj j'' ∧ ∀ k, j''.field k = j.field k := by
  obtain ⟨hk, ⟨op, hop, htx⟩, ⟨l, rt, a1, a2, a3, a4⟩, hof, _, _⟩ := C31_solidity hm hmut h
  have hmut' : m.isMutable j' = true := by
    cases hm
    simp only [Solidity.swapOperandsMutable, Bool.and_eq_true]
    have hk' : IsKind "BinaryOperation" j' := by
      unfold IsKind TextField
      rw [hof.2.2 "nodeType" (by decide) (by decide)]
      exact hk
    refine ⟨solidity_hasType.2 hk', ?_⟩
    have ht' : TextField "operator" j' op := by
      unfold TextField
      rw [hof.2.2 "operator" (by decide) (by decide)]
      exact htx
    rw [getStr_of_text (by decide) ht']
    have hsub : ∀ o ∈ nonCommutative, nonCommutativeOperators.contains o = true := by decide
    exact hsub op hop
  obtain ⟨_, _, ⟨l', rt', b1, b2, b3, b4⟩, hof', _, _⟩ := C31_solidity hm hmut' h'
  refine ⟨hmut', hof'.2.1, fun k => ?_⟩
  by_cases hkl : k = "leftExpression"
  · subst hkl
    rw [b3, a1, ← b2, a4]
  · by_cases hkr : k = "rightExpression"
    · subst hkr
      rw [b4, a2, ← b1, a3]
    · rw [hof'.2.2 k hkl hkr, hof.2.2 k hkl hkr]

/-- C31 for Vyper (`BinOp` and `Compare` nodes that have both operands). -/
theorem C31_vyper {env : MutEnv} {m : Mutator R}
    (hm : Vyper.mutatorFor env .swapOperatorArguments = some m) {j j' : Json} {r r' : R}
    {res : MutatorResult} {c : Option Json} (hmut : m.isMutable j = true)
    (hkind : IsVyperKind "BinOp" j ∨ IsVyperKind "Compare" j)
    {left right : Json} (hl : j.field "left" = some left) (hr : j.field "right" = some right)
    (h : m.mutate j r = .ok (j', res, c, r')) :
    (∃ opn op, j.field "op" = some opn ∧ TextField "ast_type" opn op ∧ op ∈ vyperNonCommutative) ∧
    j'.field "left" = some right ∧ j'.field "right" = some left ∧ OnlyFields "left" "right" j j' ∧
    res.mutatedNodeId = vyperId j := by
  cases hm
  have hj : IsObj j := by rcases hkind with h | h <;> exact isVyperKind_isObj h
  constructor
  · simp only [Vyper.swapOperandsMutable, Vyper.swapOperandsTest] at hmut
    by_cases hb : Vyper.isBinary j = true
    · simp only [hb, if_true] at hmut
      rw [field?_eq_field] at hmut
      cases hf : field "op" j with
      | none => simp [hf] at hmut
      | some opn =>
        simp only [hf, Option.bind_some] at hmut
        cases ho : getStrForKey "ast_type" opn with
        | none => simp [ho] at hmut
        | some op =>
          simp only [ho] at hmut
          refine ⟨opn, op, rfl, getStr_text (by decide) (by decide) ho, ?_⟩
          cases hs : Vyper.symbolOf op with
          | none => simp [hs] at hmut
          | some s =>
            simp only [hs, Outcome.ok.injEq] at hmut
            have hm1 : (op, s) ∈ Vyper.operatorMap := by
              unfold Vyper.symbolOf at hs
              exact List.lookup_eq_some_iff.1 hs |>.choose_spec.choose_spec.1 ▸ by simp
            have hall : ∀ p ∈ Vyper.operatorMap, nonCommutativeOperators.contains p.2 = true →
                p.1 ∈ vyperNonCommutative := by decide
            exact hall (op, s) hm1 (of_decide_eq_true hmut)
    · simp [hb] at hmut
  · simp only [Vyper.swapOperandsMutate] at h
    have ht : ∃ t, getStrForKey "ast_type" j = some t ∧ (t = "BinOp" ∨ t = "Compare") := by
      rcases hkind with h | h
      · exact ⟨_, getStr_of_text (by decide) h, Or.inl rfl⟩
      · exact ⟨_, getStr_of_text (by decide) h, Or.inr rfl⟩
    obtain ⟨t, ht1, ht2⟩ := ht
    simp only [ht1, if_pos ht2, Vyper.swapSides] at h
    cases h1 : takeValueForKey "left" j with
    | mk o1 j1 =>
      obtain ⟨e1, hj1, hf1⟩ := take_eq (by decide) hj h1
      rw [hl] at e1
      subst e1
      simp only [h1] at h
      cases h2 : takeValueForKey "right" j1 with
      | mk o2 j2 =>
        obtain ⟨e2, _, _⟩ := take_eq (by decide) hj1 h2
        rw [hf1 "right", if_neg (fun h => absurd h.1 (by decide)), hr] at e2
        subst e2
        simp only [h2, Outcome.ok.injEq, Prod.mk.injEq] at h
        obtain ⟨rfl, rfl, _⟩ := h
        obtain ⟨_, _, a3, a4, a5⟩ := swap_fields (by decide) (by decide) (by decide) hj h1 h2
        refine ⟨a3, a4, a5, ?_⟩
        show vyperId _ = vyperId j
        unfold vyperId
        rw [getInt_field (by decide) a5.1, getInt_field (by decide) a5.2.1, a5.2.2 "node_id" (by decide) (by decide)]

open DemoNodes Vy in
example : run (Vyper.mutatorFor env .swapOperatorArguments) (binary "BinOp" "Pow" (name 1 "a") (int 2 5)) [] =
    some (true, some (binary "BinOp" "Pow" (int 2 5) (name 1 "a"))) := by decide +kernel

end Mutagenyx
