import Verif.Proofs.Reach
import Verif.Props.Operators
import Verif.Props.SolidityMutators
import Verif.Props.VyperMutators
import Std.Data.String.ToInt

/-!
# C89: every mutation of an algorithm can come up
-/

namespace Mutagenyx
open Json

/-! ### Solidity -/

/-- **C89 (operators).** Every other operator of the class can come up. -/
theorem C89_solidity_operator {env : MutEnv} (hf : 0 < env.fuel) {t : MutationType} (ht : BinaryAlgorithm t) {m : Mutator ListRand}
    (hm : Solidity.mutatorFor env t = some m) {j : Json} (hmut : m.isMutable j = true) {old new : String}
    (ho : TextField "operator" j old) (hn : new ∈ operatorClass t) (hne : new ≠ old) :
    ∃ j', Reachable m j j' ∧ TextField "operator" j' new ∧ OnlyField "operator" j j' := by
  obtain ⟨ops, hops, _, rfl⟩ := solidity_binary ht hm
  simp only [Solidity.binaryOpMutable, Bool.and_eq_true] at hmut
  have hj := isKind_isObj (solidity_hasType.1 hmut.1)
  obtain ⟨d, hd⟩ := chooseOther_at ((hops new).2 hn) hne hf
  refine ⟨setStrForKey "operator" new j, reachable_of [d] ?_, ?_, onlyField_set (by decide) _ hj⟩
  · simp only [Solidity.binaryOpMutate, getStr_of_text (by decide) ho, hd [], nodeOf]
  · unfold TextField setStrForKey
    rw [field_setNodeForKey (by decide) _ _ hj, if_pos rfl]

/-- **C89 (conditions).** The condition of an `if` can become `true`, `false` and its negation. -/
theorem C89_solidity_if {env : MutEnv} {m : Mutator ListRand} (hm : Solidity.mutatorFor env .ifStatement = some m) {j : Json}
    (hmut : m.isMutable j = true) {old : Json} (ho : j.field "condition" = some old) :
    (∃ j' new, Reachable m j j' ∧ OnlyField "condition" j j' ∧ j'.field "condition" = some new ∧ IsBoolLiteral true new) ∧
    (∃ j' new, Reachable m j j' ∧ OnlyField "condition" j j' ∧ j'.field "condition" = some new ∧ IsBoolLiteral false new) ∧
    (∃ j' new, Reachable m j j' ∧ OnlyField "condition" j j' ∧ j'.field "condition" = some new ∧ IsNegation old new) := by
  cases hm
  simp only [Solidity.ifMutable, Bool.and_eq_true] at hmut
  have hj := isKind_isObj (solidity_hasType.1 hmut.1)
  have key : ∀ n : Nat, n < 3 → Reachable ⟨.ifStatement, Solidity.ifMutable, Solidity.ifMutate env⟩ j (Solidity.ifChange n j) := by
    intro n hn
    obtain ⟨hof, new, hnew, _⟩ := ifChange_spec n hj ho
    refine reachable_of [n] ?_
    have hl : n < 2 ^ 64 := by omega
    simp only [Solidity.ifMutate, field?_eq_field, ho, nextU64_cons hl, Nat.mod_eq_of_lt hn, hnew, nodeOf]
  refine ⟨⟨_, _, key 0 (by decide), (ifChange_spec 0 hj ho).1, ?_, isBoolLiteral_mk true⟩,
    ⟨_, _, key 1 (by decide), (ifChange_spec 1 hj ho).1, ?_, isBoolLiteral_mk false⟩,
    ⟨_, _, key 2 (by decide), (ifChange_spec 2 hj ho).1, ?_, isNegation_mk old⟩⟩
  · simp only [Solidity.ifChange, if_true]
    rw [field_setNodeForKey (by decide) _ _ hj, if_pos rfl]
  · simp only [Solidity.ifChange, if_true, Nat.one_ne_zero, if_false]
    rw [field_setNodeForKey (by decide) _ _ hj, if_pos rfl]
  · cases htk : takeValueForKey "condition" j with
    | mk o j1 =>
      obtain ⟨ho', _, _⟩ := take_eq (by decide) hj htk
      rw [ho] at ho'
      subst ho'
      have hset := onlyField_take_set (k := "condition") (by decide)
        (Solidity.unaryOpNode "!" true (Solidity.tupleExpressionNode [old])) hj htk
      simp only [Solidity.ifChange, htk]
      exact hset.2

/-- **C89 (calls).** A call can become each of its arguments that are not literals. -/
theorem C89_solidity_call {env : MutEnv} (hf : 0 < env.fuel) {m : Mutator ListRand}
    (hm : Solidity.mutatorFor env .functionCall = some m) {j : Json} {args : List Json}
    (ha : j.field "arguments" = some (.arr args)) (hl : args.length ≤ 2 ^ 64) {a : Json} (hmem : a ∈ args)
    (hn : ¬ IsKind "Literal" a) : Reachable m j a := by
  cases hm
  obtain ⟨i, hi, rfl⟩ := List.mem_iff_getElem.mp hmem
  have hg : Solidity.notOfType "Literal" args i = true := by
    unfold Solidity.notOfType
    rw [List.getElem?_eq_getElem hi]
    cases hh : Solidity.hasType "Literal" args[i] with
    | true => exact absurd (solidity_hasType.1 hh) hn
    | false => simp [hh]
  refine reachable_of [i] ?_
  have hd := drawUntil_at hi (by omega) hg hf []
  simp only [Solidity.functionCallMutate, arrayField_iff.2 ha, hd, List.getElem?_eq_getElem hi, nodeOf]

/-- **C89 (lines).** Every two statements of a block that are not returns can change places. -/
theorem C89_solidity_lines {env : MutEnv} (hf : 0 < env.fuel) {m : Mutator ListRand}
    (hm : Solidity.mutatorFor env .swapLines = some m) {j : Json} (hmut : m.isMutable j = true) {ss : List Json}
    (hs : j.field "statements" = some (.arr ss)) (hl : ss.length ≤ 2 ^ 64) {i k : Nat} (hne : i ≠ k) {a b : Json}
    (ha : ss[i]? = some a) (hb : ss[k]? = some b) (hna : ¬ IsKind "Return" a) (hnb : ¬ IsKind "Return" b) :
    ∃ j' ss', Reachable m j j' ∧ OnlyField "statements" j j' ∧ j'.field "statements" = some (.arr ss') ∧ Exchanged i k ss ss' := by
  cases hm
  simp only [Solidity.swapLinesMutable, Bool.and_eq_true] at hmut
  have hj := isKind_isObj (solidity_hasType.1 hmut.1)
  have hi := (List.getElem?_eq_some_iff.1 ha).1
  have hk := (List.getElem?_eq_some_iff.1 hb).1
  have hg : ∀ {n : Nat} {x : Json}, ss[n]? = some x → ¬ IsKind "Return" x → Solidity.notOfType "Return" ss n = true := by
    intro n x hx hnx
    unfold Solidity.notOfType
    rw [hx]
    cases hh : Solidity.hasType "Return" x with
    | true => exact absurd (solidity_hasType.1 hh) hnx
    | false => simp [hh]
  cases htk : takeValueForKey "statements" j with
  | mk o j1 =>
    obtain ⟨ho, _, _⟩ := take_eq (by decide) hj htk
    rw [hs] at ho
    subst ho
    obtain ⟨⟨x, y, ss'⟩, hex⟩ := Option.isSome_iff_exists.1 (exchange_isSome hne hi hk)
    have hset := onlyField_take_set (k := "statements") (by decide) (.arr ss') hj htk
    refine ⟨_, ss', reachable_of [i, k] ?_, hset.1, hset.2, (exchange_eq hne hex).1⟩
    have h1 := drawUntil_at hi (by omega) (hg ha hna) hf [k]
    have h2 := drawUntil_at (good := fun n => n != i && Solidity.notOfType "Return" ss n) hk (by omega)
      (by simp [Ne.symm hne, hg hb hnb]) hf []
    simp only [Solidity.swapLinesMutate, htk, h1, h2, hex, nodeOf]

/-- **C89 (statements).** Every expression statement of a block can be deleted. -/
theorem C89_solidity_delete {env : MutEnv} {m : Mutator ListRand}
    (hm : Solidity.mutatorFor env .deleteStatement = some m) {j : Json} (hmut : m.isMutable j = true) {ss : List Json}
    (hs : j.field "statements" = some (.arr ss)) (hl : ss.length ≤ 2 ^ 64) {i : Nat} {v : Json} (hv : ss[i]? = some v)
    (hk : IsKind "ExpressionStatement" v) :
    ∃ j' ss' w, Reachable m j j' ∧ OnlyField "statements" j j' ∧ j'.field "statements" = some (.arr ss') ∧
      ReplacedAt i w ss ss' ∧ IsKind "Comment" w ∧ w.field "value" = some v := by
  cases hm
  simp only [Solidity.deleteStatementMutable, Bool.and_eq_true] at hmut
  have hj := isKind_isObj (solidity_hasType.1 hmut.1)
  have hi := (List.getElem?_eq_some_iff.1 hv).1
  have hmem : i ∈ Solidity.expressionStatementIndexes ss := by
    unfold Solidity.expressionStatementIndexes
    rw [List.mem_filter]
    refine ⟨List.mem_range.2 hi, ?_⟩
    have ho : v.asObj.isSome = true := by
      have := isKind_isObj hk
      obtain ⟨kvs, rfl⟩ := isObj_iff.1 this
      rfl
    simp [hv, ho, solidity_hasType.2 hk]
  obtain ⟨vi, hvi, he⟩ := List.mem_iff_getElem.mp hmem
  have hlen : (Solidity.expressionStatementIndexes ss).length ≤ ss.length := by
    unfold Solidity.expressionStatementIndexes
    exact Nat.le_trans (List.length_filter_le _ _) (by simp)
  cases htk : takeValueForKey "statements" j with
  | mk o j1 =>
    obtain ⟨ho, _, _⟩ := take_eq (by decide) hj htk
    rw [hs] at ho
    subst ho
    have hset := onlyField_take_set (k := "statements") (by decide)
      (.arr (ss.set i (Solidity.commentNodeFromNode v))) hj htk
    refine ⟨_, _, Solidity.commentNodeFromNode v, reachable_of [vi] ?_, hset.1, hset.2, replacedAt_set hi, ?_, ?_⟩
    · have h1 := drawIndex_at hvi (by omega) []
      simp only [Solidity.deleteStatementMutate, htk, h1, List.getElem?_eq_getElem hvi, he, hv, nodeOf,
        eraseIdx_insertIdx_self _ _ _ hi]
    · exact (commentNodeFromNode_spec v).1
    · exact (commentNodeFromNode_spec v).2

/-- **C89 (unary operators).** Every other operator of the same position can come up. -/
theorem C89_solidity_unary {env : MutEnv} (hf : 0 < env.fuel) {m : Mutator ListRand}
    (hm : Solidity.mutatorFor env .unaryOp = some m) {j : Json} (hmut : m.isMutable j = true) {pre : Bool} {old new : String}
    (hp : j.field "prefix" = some (.bool pre)) (ho : TextField "operator" j old) (hn : new ∈ unaryClass pre) (hne : new ≠ old) :
    ∃ j', Reachable m j j' ∧ TextField "operator" j' new ∧ OnlyField "operator" j j' := by
  cases hm
  simp only [Solidity.unaryOpMutable, Bool.and_eq_true] at hmut
  have hj := isKind_isObj (solidity_hasType.1 hmut.1)
  have hmem : new ∈ Solidity.unaryOperators pre := by
    revert hn
    cases pre <;> simp [Solidity.unaryOperators, unaryClass, prefixOperators, postfixOperators]
  obtain ⟨d, hd⟩ := chooseOther_at hmem hne hf
  refine ⟨setStrForKey "operator" new j, reachable_of [d] ?_, ?_, onlyField_set (by decide) _ hj⟩
  · simp only [Solidity.unaryOpMutate, (getBool_iff (by decide) hj).2 hp, getStr_of_text (by decide) ho, Option.getD_some,
      hd [], nodeOf]
  · unfold TextField setStrForKey
    rw [field_setNodeForKey (by decide) _ _ hj, if_pos rfl]

/-- **C89 (integers).** A literal can become the next number, the number before, and every number of 64 bits. -/
theorem C89_solidity_integer {env : MutEnv} {m : Mutator ListRand} (hm : Solidity.mutatorFor env .integer = some m) {j : Json}
    (hmut : m.isMutable j = true) :
    (∀ v : Nat, v < 2 ^ 64 → ∃ j', Reachable m j j' ∧ OnlyField "value" j j' ∧ TextField "value" j' (toString v)) ∧
    (∀ (old : String) (i d : Int), TextField "value" j old → parseI64 old = some i → d = 1 ∨ d = -1 →
      -(2 ^ 63) ≤ i + d → i + d < 2 ^ 63 →
      ∃ j', Reachable m j j' ∧ OnlyField "value" j j' ∧ TextField "value" j' (toString (i + d))) := by
  cases hm
  simp only [Solidity.integerMutable, Bool.and_eq_true] at hmut
  have hj := isKind_isObj (solidity_hasType.1 hmut.1.1)
  have fin : ∀ t : String, OnlyField "value" j (setStrForKey "value" t j) ∧ TextField "value" (setStrForKey "value" t j) t := by
    intro t
    refine ⟨onlyField_set (by decide) _ hj, ?_⟩
    unfold TextField setStrForKey
    rw [field_setNodeForKey (by decide) _ _ hj, if_pos rfl]
  refine ⟨fun v hv => ⟨_, reachable_of [2, v] ?_, fin _⟩, fun old i d ho hi hd h1 h2 => ?_⟩
  · simp only [Solidity.integerMutate, nextU64_cons (show 2 < 2 ^ 64 by decide), nextU64_cons hv, nodeOf]
    rfl
  · have hstep : Solidity.integerStep env d old = some (toString (i + d)) := by
      simp only [Solidity.integerStep, hi, Option.bind_some, addI64, h1, h2, and_self, if_true, Option.map_some,
        intText_toString]
    rcases hd with rfl | rfl
    · refine ⟨_, reachable_of [0] ?_, fin _⟩
      simp only [Solidity.integerMutate, nextU64_cons (show 0 < 2 ^ 64 by decide), Nat.zero_mod, getStr_of_text (by decide) ho,
        if_true, hstep, nodeOf, show (0 : Nat) ≠ 2 by decide, if_false]
    · refine ⟨_, reachable_of [1] ?_, fin _⟩
      simp only [Solidity.integerMutate, nextU64_cons (show 1 < 2 ^ 64 by decide), getStr_of_text (by decide) ho,
        show 1 % 3 = 1 from rfl, hstep, nodeOf, show (1 : Nat) ≠ 2 by decide, if_false, Nat.one_ne_zero]

/-- **C89 (unchecked blocks).** Every statement that is neither a return nor an unchecked block can be wrapped. -/
theorem C89_solidity_unchecked {env : MutEnv} (hf : 0 < env.fuel) {m : Mutator ListRand}
    (hm : Solidity.mutatorFor env .uncheckedBlock = some m) {j : Json} (hmut : m.isMutable j = true) {ss : List Json}
    (hs : j.field "statements" = some (.arr ss)) (hl : ss.length ≤ 2 ^ 64) {i : Nat} {v : Json} (hv : ss[i]? = some v)
    (hr : ¬ IsKind "Return" v) (hu : ¬ IsKind "UncheckedBlock" v) :
    ∃ j' ss' w, Reachable m j j' ∧ OnlyField "statements" j j' ∧ j'.field "statements" = some (.arr ss') ∧
      ReplacedAt i w ss ss' ∧ IsKind "UncheckedBlock" w ∧ w.field "statements" = some (.arr [v]) := by
  cases hm
  simp only [Solidity.uncheckedBlockMutable, Bool.and_eq_true] at hmut
  have hj := isKind_isObj (solidity_hasType.1 hmut.1)
  have hi := (List.getElem?_eq_some_iff.1 hv).1
  have hg : (Solidity.hasType "Return" v || Solidity.hasType "UncheckedBlock" v) = false := by
    rw [Bool.or_eq_false_iff]
    constructor
    · cases hh : Solidity.hasType "Return" v with
      | true => exact absurd (solidity_hasType.1 hh) hr
      | false => rfl
    · cases hh : Solidity.hasType "UncheckedBlock" v with
      | true => exact absurd (solidity_hasType.1 hh) hu
      | false => rfl
  cases htk : takeValueForKey "statements" j with
  | mk o j1 =>
    obtain ⟨ho, _, _⟩ := take_eq (by decide) hj htk
    rw [hs] at ho
    subst ho
    have hset := onlyField_take_set (k := "statements") (by decide)
      (.arr (ss.set i (Solidity.uncheckedBlockNode [v] (i64AsU64 ((v.getIntForKey "id").getD 9999999))))) hj htk
    refine ⟨_, _, _, reachable_of [i] ?_, hset.1, hset.2, replacedAt_set hi, (uncheckedBlockNode_spec v _).1,
      (uncheckedBlockNode_spec v _).2⟩
    obtain ⟨f, hf⟩ : ∃ f, env.fuel = f + 1 := ⟨env.fuel - 1, by omega⟩
    simp only [Solidity.uncheckedBlockMutate, htk, hf, Solidity.uncheckedDraw, drawIndex_at hi (show i < 2 ^ 64 by omega), hv, hg,
      Bool.false_eq_true, if_false, nodeOf, eraseIdx_insertIdx_self _ _ _ hi]

/-- **C89 (arguments).** The first two arguments of every type can change places.  Missing: further arguments of the type
(`C89_arguments_counterexample`). -/
theorem C89_solidity_arguments_partial {env : MutEnv} {m : Mutator ListRand}
    (hm : Solidity.mutatorFor env .swapFunctionArguments = some m) {j : Json} (hmut : m.isMutable j = true) {args : List Json}
    (hs : j.field "arguments" = some (.arr args)) (hl : args.length ≤ 2 ^ 64) {i k : Nat} (hik : i < k) {a b : Json} {s : String}
    (ha : args[i]? = some a) (hb : args[k]? = some b) (hta : HasTypeText s a) (htb : HasTypeText s b)
    (hfirst : ∀ n x, args[n]? = some x → HasTypeText s x → n < k → n = i) :
    ∃ j' args', Reachable m j j' ∧ OnlyField "arguments" j j' ∧ j'.field "arguments" = some (.arr args') ∧
      Exchanged i k args args' := by
  cases hm
  simp only [Solidity.swapArgumentsMutable, Bool.and_eq_true] at hmut
  have hj := isKind_isObj (solidity_hasType.1 hmut.1)
  obtain ⟨more, hmem⟩ := group_first_two hik ha hb (argumentType_iff.2 hta) (argumentType_iff.2 htb)
    (fun n x h1 h2 h3 => hfirst n x h1 (argumentType_iff.1 h2) h3)
  have hml : (i, a) :: (k, b) :: more ∈ ((env.groupOrder (Solidity.groupArguments args 0 [])).map Prod.snd).filter
      fun l => decide (l.length ≥ 2) := by
    rw [List.mem_filter]
    exact ⟨List.mem_map.2 ⟨_, (env.groupOrder_perm _).mem_iff.2 hmem, rfl⟩, by simp⟩
  obtain ⟨li, hli, he⟩ := List.mem_iff_getElem.mp hml
  have hlen : (((env.groupOrder (Solidity.groupArguments args 0 [])).map Prod.snd).filter
      fun l => decide (l.length ≥ 2)).length ≤ args.length := by
    refine Nat.le_trans (List.length_filter_le _ _) ?_
    rw [List.length_map, (env.groupOrder_perm _).length_eq]
    simpa using groupArguments_length args 0 []
  cases htk : takeValueForKey "arguments" j with
  | mk o j1 =>
    obtain ⟨ho, _, _⟩ := take_eq (by decide) hj htk
    rw [hs] at ho
    subst ho
    have hset := onlyField_take_set (k := "arguments") (by decide)
      (.arr ((((args.eraseIdx i).insertIdx i b).eraseIdx k).insertIdx k a)) hj htk
    refine ⟨_, _, reachable_of [li] ?_, hset.1, hset.2, exchanged_reinsert hik ha hb⟩
    simp only [Solidity.swapArgumentsMutate, htk, drawIndex_at hli (by omega), List.getElem?_eq_getElem hli, he, nodeOf]

/-- **C89 (assignments).** Every number of the type `intN` below 128 bits can be assigned; every one of the type `uintN` but the
largest.  Missing: the largest number (`C89_largest_counterexample`), `true` for `bool` (`C89_bool_counterexample`), and numbers of more than
128 bits. -/
theorem C89_solidity_assignment_partial {env : MutEnv} {m : Mutator ListRand} (hm : Solidity.mutatorFor env .assignment = some m) {j : Json}
    (hmut : m.isMutable j = true) {old : Json} (ho : j.field "rightHandSide" = some old) {n : Nat} :
    (HasTypeText ("int" ++ toString n) j → 0 < n → n < 128 → ∀ v : Int, -(2 ^ (n - 1)) ≤ v → v < 2 ^ (n - 1) →
      ∃ j' new, Reachable m j j' ∧ OnlyField "rightHandSide" j j' ∧ j'.field "rightHandSide" = some new ∧ IsNumberLiteral v new) ∧
    (HasTypeText ("uint" ++ toString n) j → n ≤ 128 → ∀ v : Int, 0 ≤ v → v < 2 ^ n - 1 →
      ∃ j' new, Reachable m j j' ∧ OnlyField "rightHandSide" j j' ∧ j'.field "rightHandSide" = some new ∧ IsNumberLiteral v new) := by
  cases hm
  simp only [Solidity.assignmentMutable, Bool.and_eq_true] at hmut
  have hj := isKind_isObj (solidity_hasType.1 hmut.1)
  have fin : ∀ (s : String) (v : Int) (ds : List Nat) (ps : List HashPart) (r : ListRand), HasTypeText s j →
      Solidity.assignmentValue s (⟨ds⟩ : ListRand) = .ok (some (Solidity.integerConstantNode v), ps, r) →
      ∃ j' new, Reachable ⟨.assignment, Solidity.assignmentMutable, Solidity.assignmentMutate env⟩ j j' ∧
        OnlyField "rightHandSide" j j' ∧ j'.field "rightHandSide" = some new ∧ IsNumberLiteral v new := by
    intro s v ds ps r hs hv
    obtain ⟨td, htd, hts⟩ := hs
    have hfs : field "rightHandSide" (setNodeForKey "rightHandSide" (Solidity.integerConstantNode v) j) =
        some (Solidity.integerConstantNode v) := by
      rw [field_setNodeForKey (by decide) _ _ hj, if_pos rfl]
    refine ⟨_, _, reachable_of ds ?_, onlyField_set (by decide) _ hj, hfs, isNumberLiteral_mk v⟩
    simp only [Solidity.assignmentMutate, field?_eq_field, htd, getStr_of_text (by decide) hts, ho, hv, hfs, nodeOf]
  refine ⟨fun hs h0 h1 v h2 h3 => ?_, fun hs h1 v h2 h3 => ?_⟩
  · refine fin _ v [(v - -(2 ^ (n - 1))).toNat] [.text "int", .int v] ⟨[]⟩ hs ?_
    have hp : parseU32 (Nat.repr n) = some n := by rw [parseU32_repr, if_pos (by omega)]
    simp only [Solidity.assignmentValue, (int_text n).1, if_true, (int_text n).2, Option.bind_some, hp,
      show ¬ n > 128 by omega, if_false, show ¬ (n = 0 ∨ n = 128) by omega, genRange_at h2 h3]
  · refine fin _ v [(v - 0).toNat] [.text "uin", .int v] ⟨[]⟩ hs ?_
    have hp : parseU32 (Nat.repr n) = some n := by rw [parseU32_repr, if_pos (by omega)]
    have hup : (if n < 128 then 2 ^ n - 1 else 340282366920938463463374607431768211455 : Int) = 2 ^ n - 1 := by
      by_cases h : n < 128
      · rw [if_pos h]
      · rw [if_neg h, show n = 128 by omega]; decide
    simp only [Solidity.assignmentValue, (uint_text n).1, if_true, (uint_text n).2, Option.bind_some, hp,
      show ¬ n > 128 by omega, if_false, show ("uin" : String) ≠ "int" by decide, hup, genRange_at h2 h3]

/-! ### Vyper -/

/-- Names and symbols of the operators of a class. -/
theorem vyper_reach_symbols {t : MutationType} (ht : BinaryAlgorithm t) {m : Mutator ListRand} {env : MutEnv}
    (hm : Vyper.mutatorFor env t = some m) :
    ∃ ops, (∀ n ∈ vyperOperatorClass t, ∃ s ∈ ops, Vyper.symbolOf n = some s ∧ Vyper.nameOf s = some n) ∧
      m = ⟨t, Vyper.binaryOpMutable ops, Vyper.binaryOpMutate env ops t⟩ := by
  have hall : ∀ (ops cls : List String),
      (∀ n ∈ cls, (Vyper.symbolOf n).any (fun s => decide (s ∈ ops) && decide (Vyper.nameOf s = some n)) = true) →
      ∀ n ∈ cls, ∃ s ∈ ops, Vyper.symbolOf n = some s ∧ Vyper.nameOf s = some n := by
    intro ops cls h n hn
    have := h n hn
    cases hs : Vyper.symbolOf n with
    | none => simp [hs] at this
    | some s =>
      simp only [hs, Option.any_some, Bool.and_eq_true, decide_eq_true_eq] at this
      exact ⟨s, this.1, rfl, this.2⟩
  rcases ht with rfl | rfl | rfl | rfl | rfl
  · exact ⟨_, hall arithmeticOperators _ (by decide), (Option.some.inj hm).symm⟩
  · exact ⟨_, hall logicalOperators _ (by decide), (Option.some.inj hm).symm⟩
  · exact ⟨_, hall bitwiseOperators _ (by decide), (Option.some.inj hm).symm⟩
  · exact ⟨_, hall bitshiftOperators _ (by decide), (Option.some.inj hm).symm⟩
  · exact ⟨_, hall comparisonOperators _ (by decide), (Option.some.inj hm).symm⟩

/-- **C89 (operators).** Every other operator of the class can come up. -/
theorem C89_vyper_operator {env : MutEnv} (hf : 0 < env.fuel) {t : MutationType} (ht : BinaryAlgorithm t) {m : Mutator ListRand}
    (hm : Vyper.mutatorFor env t = some m) {j op : Json} (hmut : m.isMutable j = true) {old new : String}
    (hop : j.field "op" = some op) (ho : TextField "ast_type" op old) (hold : old ∈ vyperOperatorClass t)
    (hn : new ∈ vyperOperatorClass t) (hne : new ≠ old) :
    ∃ j' op', Reachable m j j' ∧ OnlyField "op" j j' ∧ j'.field "op" = some op' ∧ OnlyField "ast_type" op op' ∧
      TextField "ast_type" op' new := by
  obtain ⟨ops, hcls, rfl⟩ := vyper_reach_symbols ht hm
  simp only [Vyper.binaryOpMutable, Bool.and_eq_true] at hmut
  have hj : IsObj j := by
    have := hmut.1
    simp only [Vyper.isBinary, Bool.or_eq_true] at this
    rcases this with (h | h) | h <;> exact isVyperKind_isObj (vyper_hasType.1 h)
  obtain ⟨s, hs, hs1, hs2⟩ := hcls _ hn
  obtain ⟨s0, hs0, hs01, hs02⟩ := hcls _ hold
  have hsne : s ≠ s0 := by
    rintro rfl
    rw [hs2] at hs02
    exact hne (Option.some.inj hs02)
  have hgs := getStr_of_text (k := "ast_type") (by decide) ho
  have hopo := isObj_of_getStr (by decide) (by decide) hgs
  obtain ⟨d, hd⟩ := chooseOther_at hs hsne hf
  cases htk : takeValueForKey "op" j with
  | mk o j1 =>
    obtain ⟨ho', _, _⟩ := take_eq (by decide) hj htk
    rw [hop] at ho'
    subst ho'
    have hset := onlyField_take_set (k := "op") (by decide) (setStrForKey "ast_type" new op) hj htk
    refine ⟨_, _, reachable_of [d] ?_, hset.1, hset.2, onlyField_set (by decide) _ hopo, ?_⟩
    · simp only [Vyper.binaryOpMutate, htk, hgs, hs01, hd [], hs2, nodeOf]
    · unfold TextField setStrForKey
      rw [field_setNodeForKey (by decide) _ _ hopo, if_pos rfl]

/-- **C89 (conditions).** The condition of an `if` can become `True`, `False` and its negation. -/
theorem C89_vyper_if {env : MutEnv} {m : Mutator ListRand} (hm : Vyper.mutatorFor env .ifStatement = some m) {j : Json}
    (hmut : m.isMutable j = true) {old : Json} (ho : j.field "test" = some old) :
    (∃ j' new, Reachable m j j' ∧ OnlyField "test" j j' ∧ j'.field "test" = some new ∧ IsVyperBool true new) ∧
    (∃ j' new, Reachable m j j' ∧ OnlyField "test" j j' ∧ j'.field "test" = some new ∧ IsVyperBool false new) ∧
    (∃ j' new, Reachable m j j' ∧ OnlyField "test" j j' ∧ j'.field "test" = some new ∧ IsVyperNegation old new) := by
  cases hm
  simp only [Vyper.ifMutable, Bool.and_eq_true] at hmut
  have hj := isVyperKind_isObj (vyper_hasType.1 hmut.1)
  have hfs : ∀ v : Json, OnlyField "test" j (setNodeForKey "test" v j) ∧ field "test" (setNodeForKey "test" v j) = some v := by
    intro v
    exact ⟨onlyField_set (by decide) _ hj, by rw [field_setNodeForKey (by decide) _ _ hj, if_pos rfl]⟩
  refine ⟨⟨_, _, reachable_of [0] ?_, (hfs _).1, (hfs _).2, isVyperBool_mk true⟩,
    ⟨_, _, reachable_of [1] ?_, (hfs _).1, (hfs _).2, isVyperBool_mk false⟩, ?_⟩
  · simp only [Vyper.ifMutate, field?_eq_field, ho, nextU64_cons (show 0 < 2 ^ 64 by decide), Nat.zero_mod, if_true, nodeOf]
  · simp only [Vyper.ifMutate, field?_eq_field, ho, nextU64_cons (show 1 < 2 ^ 64 by decide), show 1 % 3 = 1 from rfl, if_true,
      Nat.one_ne_zero, if_false, nodeOf]
  · cases htk : takeValueForKey "test" j with
    | mk o j1 =>
      obtain ⟨ho', _, _⟩ := take_eq (by decide) hj htk
      rw [ho] at ho'
      subst ho'
      have hset := onlyField_take_set (k := "test") (by decide) (Vyper.unaryOpNode "Not" old) hj htk
      refine ⟨_, _, reachable_of [2] ?_, hset.1, hset.2, isVyperNegation_mk old⟩
      simp only [Vyper.ifMutate, field?_eq_field, ho, nextU64_cons (show 2 < 2 ^ 64 by decide), show 2 % 3 = 2 from rfl,
        show (2 : Nat) ≠ 0 by decide, show (2 : Nat) ≠ 1 by decide, if_false, htk, nodeOf]

/-- **C89 (integers).** A literal can become every number of 64 bits. -/
theorem C89_vyper_integer {env : MutEnv} {m : Mutator ListRand} (hm : Vyper.mutatorFor env .integer = some m) {j : Json}
    (hmut : m.isMutable j = true) {v : Int} (h1 : -(2 ^ 63) ≤ v) (h2 : v < 2 ^ 63) :
    ∃ j', Reachable m j j' ∧ OnlyField "value" j j' ∧ j'.field "value" = some (.num (.int v)) := by
  cases hm
  simp only [Vyper.integerMutable] at hmut
  have hj := isVyperKind_isObj (vyper_hasType.1 hmut)
  refine ⟨setNodeForKey "value" (.num (.int v)) j, reachable_of [2, (v % 2 ^ 64).toNat] ?_, onlyField_set (by decide) _ hj,
    by rw [field_setNodeForKey (by decide) _ _ hj, if_pos rfl]⟩
  have hb : (v % 2 ^ 64).toNat < 2 ^ 64 := by omega
  have hv : u64AsI64 (v % 2 ^ 64).toNat = v := by
    unfold u64AsI64
    simp only
    split <;> omega
  simp only [Vyper.integerMutate, nextU64_cons (show 2 < 2 ^ 64 by decide), nextU64_cons hb, hv, nodeOf]
  rfl

/-- **C89 (calls).** A call can become each of its arguments. -/
theorem C89_vyper_call {env : MutEnv} (hf : 0 < env.fuel) {m : Mutator ListRand}
    (hm : Vyper.mutatorFor env .functionCall = some m) {j : Json} {args : List Json}
    (ha : j.field "args" = some (.arr args)) (hl : args.length ≤ 2 ^ 64) {a : Json} (hmem : a ∈ args)
    (hn : a.field "nodeType" = none) : Reachable m j a := by
  cases hm
  obtain ⟨i, hi, rfl⟩ := List.mem_iff_getElem.mp hmem
  have hg : Vyper.acceptableArgument args i = true := by
    unfold Vyper.acceptableArgument
    rw [List.getElem?_eq_getElem hi]
    have : getStrForKey "nodeType" args[i] = none := by
      cases h : getStrForKey "nodeType" args[i] with
      | none => rfl
      | some s =>
        have := getStr_text (k := "nodeType") (by decide) (by decide) h
        unfold TextField at this
        rw [hn] at this
        cases this
    simp [this]
  refine reachable_of [i] ?_
  have hd := drawUntil_at hi (by omega) hg hf []
  simp only [Vyper.functionCallMutate, vyper_arrayField_iff.2 ha, hd, List.getElem?_eq_getElem hi, nodeOf]

/-- **C89 (lines).** Every two statements of a body that are not returns can change places. -/
theorem C89_vyper_lines {env : MutEnv} (hf : 0 < env.fuel) {m : Mutator ListRand}
    (hm : Vyper.mutatorFor env .swapLines = some m) {j : Json} (hmut : m.isMutable j = true) {ss : List Json}
    (hs : j.field "body" = some (.arr ss)) (hl : ss.length ≤ 2 ^ 64) {i k : Nat} (hne : i ≠ k) {a b : Json}
    (ha : ss[i]? = some a) (hb : ss[k]? = some b) (hna : ¬ IsVyperKind "Return" a) (hnb : ¬ IsVyperKind "Return" b) :
    ∃ j' ss', Reachable m j j' ∧ OnlyField "body" j j' ∧ j'.field "body" = some (.arr ss') ∧ Exchanged i k ss ss' := by
  cases hm
  simp only [Vyper.swapLinesMutable, Bool.and_eq_true, Bool.or_eq_true] at hmut
  have hj : IsObj j := by
    rcases hmut.1 with (h | h) | h <;> exact isVyperKind_isObj (vyper_hasType.1 h)
  have hi := (List.getElem?_eq_some_iff.1 ha).1
  have hk := (List.getElem?_eq_some_iff.1 hb).1
  have hg : ∀ {n : Nat} {x : Json}, ss[n]? = some x → ¬ IsVyperKind "Return" x → Vyper.notOfType "Return" ss n = true := by
    intro n x hx hnx
    unfold Vyper.notOfType
    rw [hx]
    cases hh : Vyper.hasType "Return" x with
    | true => exact absurd (vyper_hasType.1 hh) hnx
    | false => simp [hh]
  cases htk : takeValueForKey "body" j with
  | mk o j1 =>
    obtain ⟨ho, _, _⟩ := take_eq (by decide) hj htk
    rw [hs] at ho
    subst ho
    obtain ⟨⟨x, y, ss'⟩, hex⟩ := Option.isSome_iff_exists.1 (exchange_isSome hne hi hk)
    have hset := onlyField_take_set (k := "body") (by decide) (.arr ss') hj htk
    refine ⟨_, ss', reachable_of [i, k] ?_, hset.1, hset.2, (exchange_eq hne hex).1⟩
    have h1 := drawUntil_at hi (by omega) (hg ha hna) hf [k]
    have h2 := drawUntil_at (good := fun n => n != i && Vyper.notOfType "Return" ss n) hk (by omega)
      (by simp [Ne.symm hne, hg hb hnb]) hf []
    simp only [Vyper.swapLinesMutate, htk, h1, h2, hex, nodeOf]

/-- **C89 (statements).** Every statement of a body of two or more can be deleted.  Missing: what is returned instead of an only statement can
be nearly nothing of what was meant (`C89_result_counterexample`). -/
theorem C89_vyper_delete_partial {env : MutEnv} {m : Mutator ListRand}
    (hm : Vyper.mutatorFor env .deleteStatement = some m) {j : Json} (hmut : m.isMutable j = true) {ss : List Json}
    (hs : j.field "body" = some (.arr ss)) (hl : ss.length ≤ 2 ^ 64) (h2 : 2 ≤ ss.length) {i : Nat} {v : Json}
    (hv : ss[i]? = some v) :
    ∃ j' ss' w, Reachable m j j' ∧ OnlyField "body" j j' ∧ j'.field "body" = some (.arr ss') ∧
      ReplacedAt i w ss ss' ∧ IsVyperKind "Comment" w ∧ w.field "value" = some v := by
  cases hm
  simp only [Vyper.deleteStatementMutable, Bool.and_eq_true, Bool.or_eq_true] at hmut
  have hj : IsObj j := by
    rcases hmut.1 with ((h | h) | h) | h <;> exact isVyperKind_isObj (vyper_hasType.1 h)
  have hi := (List.getElem?_eq_some_iff.1 hv).1
  cases htk : takeValueForKey "body" j with
  | mk o j1 =>
    obtain ⟨ho, _, _⟩ := take_eq (by decide) hj htk
    rw [hs] at ho
    subst ho
    have hset := onlyField_take_set (k := "body") (by decide) (.arr (ss.set i (Vyper.commentNodeFromNode v))) hj htk
    refine ⟨_, _, Vyper.commentNodeFromNode v, reachable_of [i] ?_, hset.1, hset.2, replacedAt_set hi,
      (vyper_commentNodeFromNode_spec v).1, (vyper_commentNodeFromNode_spec v).2⟩
    have hlen : ¬ (ss.set i (Vyper.commentNodeFromNode v)).length = 1 := by rw [List.length_set]; omega
    simp only [Vyper.deleteStatementMutate, htk, drawIndex_at hi (show i < 2 ^ 64 by omega), hv, nodeOf,
      eraseIdx_insertIdx_self _ _ _ hi, hlen, if_false, List.append_nil]

/-- **C89 (arguments).** Every two arguments of a call can change places. -/
theorem C89_vyper_arguments {env : MutEnv} (hf : 0 < env.fuel) {m : Mutator ListRand}
    (hm : Vyper.mutatorFor env .swapFunctionArguments = some m) {j : Json} (hmut : m.isMutable j = true) {args : List Json}
    (hs : j.field "args" = some (.arr args)) (hl : args.length ≤ 2 ^ 64) {i k : Nat} (hik : i < k) (hk : k < args.length) :
    ∃ j' args', Reachable m j j' ∧ OnlyField "args" j j' ∧ j'.field "args" = some (.arr args') ∧ Exchanged i k args args' := by
  cases hm
  simp only [Vyper.swapArgumentsMutable, Bool.and_eq_true] at hmut
  have hj := isVyperKind_isObj (vyper_hasType.1 hmut.1)
  have hi : i < args.length := by omega
  have ha := List.getElem?_eq_getElem hi
  have hb := List.getElem?_eq_getElem hk
  have hdraw : ∃ ds ps r, Vyper.swapArgumentsDraw env args (⟨ds⟩ : ListRand) = .ok (some (i, k), ps, r) := by
    by_cases h2 : args.length = 2
    · obtain rfl : i = 0 := by omega
      obtain rfl : k = 1 := by omega
      exact ⟨[], _, _, by unfold Vyper.swapArgumentsDraw; rw [if_pos h2]⟩
    · refine ⟨[i, k], [.index i, .index k], ⟨[]⟩, ?_⟩
      have h3 := drawUntil_at (good := fun n => n != i) hk (by omega) (by simp; omega) hf []
      simp only [Vyper.swapArgumentsDraw, h2, if_false, show args.length > 2 by omega, if_true,
        drawIndex_at hi (show i < 2 ^ 64 by omega), h3]
  obtain ⟨ds, ps, r, hd⟩ := hdraw
  cases htk : takeValueForKey "args" j with
  | mk o j1 =>
    obtain ⟨ho, _, _⟩ := take_eq (by decide) hj htk
    rw [hs] at ho
    subst ho
    have hset := onlyField_take_set (k := "args") (by decide) (.arr ((args.set i args[k]).set k args[i])) hj htk
    refine ⟨_, _, reachable_of ds ?_, hset.1, hset.2, exchanged_set (by omega) ha hb⟩
    simp only [Vyper.swapArgumentsMutate, htk, hd, ha, hb, nodeOf]

/-- **C89 (assignments).** `True`, `False` and every integer of the two ranges can be assigned. -/
theorem C89_vyper_assignment {env : MutEnv} {m : Mutator ListRand} (hm : Vyper.mutatorFor env .assignment = some m) {j : Json}
    (hmut : m.isMutable j = true) {old : Json} (ho : j.field "value" = some old) :
    (∀ b : Bool, ∃ j' new, Reachable m j j' ∧ OnlyField "value" j j' ∧ j'.field "value" = some new ∧ IsVyperBool b new) ∧
    (∀ v : Int, -(2 ^ 63) ≤ v → v < 2 ^ 64 → ∃ j' new, Reachable m j j' ∧ OnlyField "value" j j' ∧ j'.field "value" = some new ∧
      IsVyperKind "Int" new ∧ new.field "value" = some (.num (.int v))) := by
  cases hm
  simp only [Vyper.assignmentMutable] at hmut
  have hj := isVyperKind_isObj (vyper_hasType.1 hmut)
  have fin : ∀ (new : Json) (ds : List Nat) (ps : List HashPart) (r : ListRand),
      Vyper.assignmentValue env (⟨ds⟩ : ListRand) = .ok (new, ps, r) →
      ∃ j', Reachable ⟨.assignment, Vyper.assignmentMutable, Vyper.assignmentMutate env⟩ j j' ∧
        OnlyField "value" j j' ∧ j'.field "value" = some new := by
    intro new ds ps r hv
    have hfs : field "value" (setNodeForKey "value" new j) = some new := by
      rw [field_setNodeForKey (by decide) _ _ hj, if_pos rfl]
    refine ⟨_, reachable_of ds ?_, onlyField_set (by decide) _ hj, hfs⟩
    simp only [Vyper.assignmentMutate, field?_eq_field, ho, hv, hfs, nodeOf]
  refine ⟨fun b => ?_, fun v h1 h2 => ?_⟩
  · have hb : (if b then 1 else 0) < 2 ^ 64 := by cases b <;> decide
    have hv : decide ((if b then 1 else 0) % 2 = 1) = b := by cases b <;> decide
    obtain ⟨j', h1, h2, h3⟩ := fin (Vyper.booleanConstantNode b) [2, if b then 1 else 0]
      [.byte 2, .index ((if b then 1 else 0) % 2)] ⟨[]⟩ (by
        simp only [Vyper.assignmentValue, nextU64_cons (show 2 < 2 ^ 64 by decide), nextU64_cons hb, hv]
        rfl)
    exact ⟨j', _, h1, h2, h3, isVyperBool_mk b⟩
  · have hl : (-170141183460469231731687303715884105728 : Int) ≤ v := by omega
    have hu : v < (170141183460469231731687303715884105727 : Int) := by omega
    obtain ⟨j', g1, g2, g3⟩ := fin (Vyper.integerConstantNode env v)
      [0, (v - -170141183460469231731687303715884105728).toNat] [.byte 0, .int v] ⟨[]⟩ (by
        simp only [Vyper.assignmentValue, nextU64_cons (show 0 < 2 ^ 64 by decide), Nat.zero_mod, if_true, genRange_at hl hu])
    refine ⟨j', _, g1, g2, g3, ?_, ?_⟩
    · unfold IsVyperKind TextField Vyper.integerConstantNode
      simp [field_ofFields, lastField]
    · unfold Vyper.integerConstantNode Vyper.parsedInt
      rw [if_pos ⟨h1, h2⟩]
      simp [field_ofFields, lastField, Vyper.jint]

/-! ### Values that never come up -/

/-- What an assignment becomes. -/
theorem assignment_value {R : Type} [Rand R] {env : MutEnv} {m : Mutator R} (hm : Solidity.mutatorFor env .assignment = some m)
    {j : Json} (hmut : m.isMutable j = true) {s : String} (hs : HasTypeText s j) {j' new : Json} {r r' : R} {res : MutatorResult}
    {c : Option Json} (h : m.mutate j r = .ok (j', res, c, r')) (hn : j'.field "rightHandSide" = some new) {v : Json}
    (hv : ∀ o ps r1, Solidity.assignmentValue s r = .ok (o, ps, r1) → o = some v) : new = v := by
  cases hm
  simp only [Solidity.assignmentMutable, Bool.and_eq_true] at hmut
  have hj := isKind_isObj (solidity_hasType.1 hmut.1)
  obtain ⟨td, htd, hts⟩ := hs
  simp only [Solidity.assignmentMutate, field?_eq_field, htd, getStr_of_text (by decide) hts] at h
  cases ho : field "rightHandSide" j with
  | none => simp [ho] at h
  | some old =>
    cases hav : Solidity.assignmentValue s r with
    | ok p =>
      obtain ⟨o, ps, r1⟩ := p
      have hfs : field "rightHandSide" (setNodeForKey "rightHandSide" v j) = some v := by
        rw [field_setNodeForKey (by decide) _ _ hj, if_pos rfl]
      rw [hv o ps r1 hav] at hav
      simp only [ho, hav, hfs, Outcome.ok.injEq, Prod.mk.injEq] at h
      rw [← h.1, hfs] at hn
      exact (Option.some.inj hn).symm
    | err e => simp [ho, hav] at h
    | panic => simp [ho, hav] at h
    | outOfFuel => simp [ho, hav] at h

/-- **C89 fails for booleans.** Whatever is drawn, `true` is never assigned to a variable of type `bool`: the value is drawn from the
half-open range from 0 to 1 (`solidity/mutators.rs:660`). -/
theorem C89_bool_counterexample {R : Type} [Rand R] {env : MutEnv} {m : Mutator R}
    (hm : Solidity.mutatorFor env .assignment = some m) {j : Json} (hmut : m.isMutable j = true) (hs : HasTypeText "bool" j)
    {j' new : Json} {r r' : R} {res : MutatorResult} {c : Option Json} (h : m.mutate j r = .ok (j', res, c, r'))
    (hn : j'.field "rightHandSide" = some new) : IsBoolLiteral false new ∧ ¬ IsBoolLiteral true new := by
  have key := assignment_value hm hmut hs h hn (v := Solidity.booleanLiteralNode false) (by
    intro o ps r1 ho
    have e : takeBytes 3 "bool" = some "boo" := by decide
    simp only [Solidity.assignmentValue, e, show ("boo" : String) ≠ "int" by decide, show ("boo" : String) ≠ "uin" by decide,
      if_false, if_true] at ho
    cases hg : genRange 0 1 r with
    | ok p =>
      obtain ⟨v, r2⟩ := p
      have := genRange_ok hg
      simp only [hg, Outcome.ok.injEq, Prod.mk.injEq] at ho
      rw [← ho.1, show v = 0 by omega]
      rfl
    | err e => simp [hg] at ho
    | panic => simp [hg] at ho
    | outOfFuel => simp [hg] at ho)
  subst key
  exact ⟨isBoolLiteral_mk false, fun ht => absurd ht.2.2.1 (by unfold TextField; decide +kernel)⟩

open DemoNodes Sol in
example : run (Solidity.mutatorFor env .assignment) (assign "bool" (var 1 "b" "bool")) [1] =
    some (true, some (assign "bool" (Solidity.booleanLiteralNode false))) := by decide +kernel

/-- **C89 fails for the largest number.** Whatever is drawn, the largest number of a type `uintN` is never assigned
(`solidity/mutators.rs:636-650`). -/
theorem C89_largest_counterexample {R : Type} [Rand R] {env : MutEnv} {m : Mutator R}
    (hm : Solidity.mutatorFor env .assignment = some m) {j : Json} (hmut : m.isMutable j = true) {n : Nat}
    (hs : HasTypeText ("uint" ++ toString n) j) {j' new : Json} {r r' : R} {res : MutatorResult} {c : Option Json}
    (h : m.mutate j r = .ok (j', res, c, r')) (hn : j'.field "rightHandSide" = some new) : ¬ IsNumberLiteral (2 ^ n - 1) new := by
  intro hlit
  cases hav : Solidity.assignmentValue ("uint" ++ toString n) r with
  | ok p =>
    obtain ⟨o, ps, r1⟩ := p
    have hb : ∃ v : Int, o = some (Solidity.integerConstantNode v) ∧ v < 2 ^ n - 1 := by
      have ho := hav
      simp only [Solidity.assignmentValue, (uint_text n).1, (uint_text n).2, Option.bind_some,
        show ("uin" : String) ≠ "int" by decide, if_false, if_true, parseU32_repr] at ho
      by_cases hnn : n < 2 ^ 32
      · simp only [hnn, if_true] at ho
        split at ho
        · rename_i v r2 hg
          simp only [Outcome.ok.injEq, Prod.mk.injEq] at ho
          refine ⟨v, ho.1.symm, ?_⟩
          have h2 := (genRange_ok hg).2
          have e : (2 : Int) ^ 128 = 340282366920938463463374607431768211456 := by decide
          by_cases h128 : n > 128
          · simp only [h128, if_true, Nat.lt_irrefl, if_false] at h2
            have : (2 : Int) ^ 128 ≤ 2 ^ n := by
              exact_mod_cast Nat.pow_le_pow_right (by decide) (by omega)
            omega
          · simp only [h128, if_false] at h2
            by_cases hlt : n < 128
            · simpa only [hlt, if_true] using h2
            · obtain rfl : n = 128 := by omega
              simp only [Nat.lt_irrefl, if_false] at h2
              omega
        all_goals cases ho
      · simp [hnn] at ho
    obtain ⟨v, rfl, hv⟩ := hb
    have key := assignment_value hm hmut hs h hn (v := Solidity.integerConstantNode v) (by
      intro o' ps' r2 ho'
      rw [hav] at ho'
      simp only [Outcome.ok.injEq, Prod.mk.injEq] at ho'
      exact ho'.1.symm)
    subst key
    have h1 := hlit.2.2.1
    have h2 := (isNumberLiteral_mk v).2.2.1
    unfold TextField at h1 h2
    rw [h1] at h2
    have h3 : toString ((2 : Int) ^ n - 1) = toString v := by
      simpa using h2
    have := Int.repr_injective (a := 2 ^ n - 1) (b := v) h3
    omega
  | _ =>
    cases hm
    obtain ⟨td, htd, hts⟩ := hs
    simp only [Solidity.assignmentMutate, field?_eq_field, htd, getStr_of_text (by decide) hts, hav] at h
    split at h <;> cases h

open DemoNodes Sol in
example : run (Solidity.mutatorFor env .assignment) (assign "uint8" (var 1 "b" "uint8")) [254] =
    some (true, some (assign "uint8" (Solidity.integerConstantNode 254))) ∧
  run (Solidity.mutatorFor env .assignment) (assign "uint8" (var 1 "b" "uint8")) [255] =
    some (true, some (assign "uint8" (Solidity.integerConstantNode 0))) := by decide +kernel

/-- **C89 fails for further arguments.** Whatever is drawn, only the first two arguments of a type change places; a third of the same
type never moves (`solidity/mutators.rs:1075-1090`). -/
theorem C89_arguments_counterexample {R : Type} [Rand R] {env : MutEnv} {m : Mutator R}
    (hm : Solidity.mutatorFor env .swapFunctionArguments = some m) {j j' : Json} {r r' : R} {res : MutatorResult} {c : Option Json}
    (hmut : m.isMutable j = true) (h : m.mutate j r = .ok (j', res, c, r')) {args args' : List Json}
    (ha : j.field "arguments" = some (.arr args)) (ha' : j'.field "arguments" = some (.arr args')) {i k n : Nat} {x y z : Json}
    {s : String} (hik : i < k) (hkn : k < n) (hx : args[i]? = some x) (hy : args[k]? = some y) (hz : args[n]? = some z)
    (htx : HasTypeText s x) (hty : HasTypeText s y) (htz : HasTypeText s z) : args'[n]? = some z := by
  cases hm
  simp only [Solidity.swapArgumentsMutable, Bool.and_eq_true] at hmut
  have hj := isKind_isObj (solidity_hasType.1 hmut.1)
  simp only [Solidity.swapArgumentsMutate] at h
  cases htk : takeValueForKey "arguments" j with
  | mk o j1 =>
    obtain ⟨ho, hj1, _⟩ := take_eq (by decide) hj htk
    rw [ha] at ho
    subst ho
    simp only [htk] at h
    split at h
    · rename_i li r1 hd
      split at h
      · rename_i i1 n1 i2 n2 more hl
        simp only [Outcome.ok.injEq, Prod.mk.injEq] at h
        obtain ⟨rfl, _, _, _⟩ := h
        have hmem := List.mem_of_getElem? hl
        simp only [List.mem_filter, List.mem_map] at hmem
        obtain ⟨⟨⟨t, l⟩, hg, hg2⟩, _⟩ := hmem
        simp only at hg2
        subst hg2
        have hg' := (env.groupOrder_perm _).mem_iff.1 hg
        obtain ⟨hlt, h1, h2, ht1, ht2⟩ := group_pair hg'
        have hset := onlyField_take_set (k := "arguments") (by decide)
          (.arr ((((args.eraseIdx i1).insertIdx i1 n2).eraseIdx i2).insertIdx i2 n1)) hj htk
        rw [hset.2] at ha'
        injection ha' with ha'
        injection ha' with ha'
        subst ha'
        obtain ⟨_, _, _, _, _, _, hrest⟩ := exchanged_reinsert hlt h1 h2
        simp only at h1 h2 hlt ht1 ht2
        have hts : ∀ w, Solidity.argumentType w = some t → HasTypeText s w → t = s := by
          intro w hw1 hw2
          rw [argumentType_iff.2 hw2] at hw1
          exact (Option.some.inj hw1).symm
        have hb : ∀ (n' : Nat) (w : Json), args[n']? = some w → HasTypeText s w → t = s → n' < i2 → n' = i1 :=
          fun n' w hw1 hw2 he hw3 => group_begins hg' hw1 (he ▸ argumentType_iff.2 hw2) hw3
        refine (hrest n ?_ ?_).trans hz
        · rintro rfl
          rw [hz] at h1
          injection h1 with h1
          have he := hts _ ht1 (h1 ▸ htz)
          have := hb i x hx htx he (by omega)
          omega
        · rintro rfl
          rw [hz] at h2
          injection h2 with h2
          have he := hts _ ht2 (h2 ▸ htz)
          have e1 := hb i x hx htx he (by omega)
          have e2 := hb k y hy hty he (by omega)
          omega
      · cases h
    all_goals cases h

open DemoNodes Sol in
example : run (Solidity.mutatorFor env .swapFunctionArguments)
    (call "f" [var 1 "a" "uint8", var 2 "b" "uint8", var 3 "c" "uint8"]) [5] =
    some (true, some (call "f" [var 2 "b" "uint8", var 1 "a" "uint8", var 3 "c" "uint8"])) := by decide +kernel

/-- **C89 fails for the result of an emptied function.** When the only statement of a Vyper function with a signed result type is
deleted, the number returned instead is always one of -10, -6, 6 and 10 (`vyper/mutators.rs:794`: `&` where `%` is meant). -/
theorem C89_result_counterexample {R : Type} [Rand R] {env : MutEnv} {m : Mutator R}
    (hm : Vyper.mutatorFor env .deleteStatement = some m) {j j' returns old : Json} {id : String} {r r' : R} {res : MutatorResult}
    {c : Option Json} (hmut : m.isMutable j = true) (h : m.mutate j r = .ok (j', res, c, r'))
    (hb : j.field "body" = some (.arr [old])) (hr : j.field "returns" = some returns) (hk : TextField "ast_type" returns "Name")
    (hi : TextField "id" returns id) (h3 : takeBytes 3 id = some "int") :
    ∃ w x v, j'.field "body" = some (.arr [w, x]) ∧ IsVyperKind "Comment" w ∧ IsVyperKind "Return" x ∧ x.field "value" = some v ∧
      IsVyperKind "Int" v ∧ ∃ i ∈ ([-10, -6, 6, 10] : List Int), v.field "value" = some (.num (.int i)) := by
  have hand : ∀ d : Nat, d &&& 20 = 0 ∨ d &&& 20 = 4 ∨ d &&& 20 = 16 ∨ d &&& 20 = 20 := by
    intro d
    have e : d &&& 20 = (d % 32) &&& 20 := by
      have h5 : d % 32 = d &&& 31 := (Nat.and_two_pow_sub_one_eq_mod d 5).symm
      have h6 : 31 &&& 20 = 20 := by decide
      rw [h5, Nat.and_assoc, h6]
    rw [e]
    have : ∀ x, x < 32 → x &&& 20 = 0 ∨ x &&& 20 = 4 ∨ x &&& 20 = 16 ∨ x &&& 20 = 20 := by decide
    exact this _ (Nat.mod_lt _ (by decide))
  cases hm
  simp only [Vyper.deleteStatementMutable, Bool.and_eq_true, Bool.or_eq_true] at hmut
  have hj : IsObj j := by
    rcases hmut.1 with ((h | h) | h) | h <;> exact isVyperKind_isObj (vyper_hasType.1 h)
  simp only [Vyper.deleteStatementMutate] at h
  cases htk : takeValueForKey "body" j with
  | mk o j1 =>
    obtain ⟨ho, hj1, hf1⟩ := take_eq (by decide) hj htk
    rw [hb] at ho
    subst ho
    have hr1 : field "returns" j1 = some returns := by rw [hf1, if_neg (fun hc => absurd hc.1 (by decide)), hr]
    simp only [htk] at h
    split at h
    · rename_i i r1 hd
      obtain rfl : i = 0 := by
        have := drawIndex_isOk (R := R) (len := [old].length) (r := r) (by simp)
        rw [this] at hd
        simp only [Outcome.ok.injEq, Prod.mk.injEq, List.length_cons, List.length_nil] at hd
        omega
      simp only [List.getElem?_cons_zero, List.eraseIdx_cons_zero, List.insertIdx_zero, List.length_cons, List.length_nil, if_true,
        Vyper.replacementStatement, field?_eq_field, hr1, getStr_of_text (by decide) hk, getStr_of_text (by decide) hi, h3,
        show ("int" : String) ≠ "boo" by decide, show ("int" : String) ≠ "uin" by decide, if_false, Outcome.ok.injEq,
        Prod.mk.injEq] at h
      obtain ⟨rfl, _⟩ := h
      have hset := onlyField_take_set (k := "body") (by decide) (.arr ([Vyper.commentNodeFromNode old] ++
        [Vyper.returnNode (Vyper.integerConstantNode env ((((nextU64 r1).1 &&& 20 : Nat) : Int) - 10))])) hj htk
      refine ⟨_, _, _, hset.2, (vyper_commentNodeFromNode_spec old).1, rfl, rfl, ?_, (((nextU64 r1).1 &&& 20 : Nat) : Int) - 10, ?_, ?_⟩
      · unfold IsVyperKind TextField Vyper.integerConstantNode
        simp [field_ofFields, lastField]
      · rcases hand (nextU64 r1).1 with e | e | e | e <;> rw [e] <;> decide
      · have hp : ∀ i : Int, -10 ≤ i → i ≤ 10 → Vyper.parsedInt env i = .num (.int i) := by
          intro i h1 h2
          unfold Vyper.parsedInt
          rw [if_pos ⟨by omega, by omega⟩]
          rfl
        unfold Vyper.integerConstantNode
        rw [hp _ (by omega) (by rcases hand (nextU64 r1).1 with e | e | e | e <;> rw [e] <;> decide)]
        simp [field_ofFields, lastField]
    all_goals cases h

open DemoNodes Vy in
example : run (Vyper.mutatorFor env .deleteStatement) (func [assign (name 1 "a") (int 2 3)] (name 4 "int128")) [0, 5] =
    some (true, some (func [Vyper.commentNodeFromNode (assign (name 1 "a") (int 2 3)),
      Vyper.returnNode (Vyper.integerConstantNode env (-6))] (name 4 "int128"))) := by decide +kernel

/-! ### Examples -/

section
open DemoNodes Sol

/-- `a + b` can become `a - b`, and `f(a, 1, b)` can become `b`. -/
example : (∃ m : Mutator ListRand, Solidity.mutatorFor env .arithmeticBinaryOp = some m ∧
      ∃ j', Reachable m (binary "+" (var 1 "a" "uint8") (var 2 "b" "uint8")) j' ∧ TextField "operator" j' "-") ∧
    ∃ m : Mutator ListRand, Solidity.mutatorFor env .functionCall = some m ∧
      Reachable m (call "f" [var 1 "a" "uint8", number 2 "1", var 3 "b" "uint8"]) (var 3 "b" "uint8") := by
  refine ⟨⟨_, rfl, ?_⟩, ⟨_, rfl, ?_⟩⟩
  · obtain ⟨j', h1, h2, _⟩ := C89_solidity_operator (env := env) (t := .arithmeticBinaryOp) (by decide) (Or.inl rfl) rfl
      (j := binary "+" (var 1 "a" "uint8") (var 2 "b" "uint8")) (by decide +kernel) (old := "+") (new := "-") rfl (by decide) (by decide)
    exact ⟨j', h1, h2⟩
  · exact C89_solidity_call (env := env) (by decide) rfl (args := [var 1 "a" "uint8", number 2 "1", var 3 "b" "uint8"]) rfl
      (by decide) (by simp) (by unfold IsKind TextField; decide +kernel)

/-- In a block of three statements and a return the first and the third statement can change places, and the second can be deleted. -/
example : (∃ m : Mutator ListRand, Solidity.mutatorFor env .swapLines = some m ∧
      ∃ j' ss', Reachable m (block [stmt 1, stmt 2, stmt 3, ret]) j' ∧ j'.field "statements" = some (.arr ss') ∧
        Exchanged 0 2 [stmt 1, stmt 2, stmt 3, ret] ss') ∧
    ∃ m : Mutator ListRand, Solidity.mutatorFor env .deleteStatement = some m ∧
      ∃ j' ss' w, Reachable m (block [stmt 1, stmt 2, stmt 3, ret]) j' ∧ j'.field "statements" = some (.arr ss') ∧
        ReplacedAt 1 w [stmt 1, stmt 2, stmt 3, ret] ss' := by
  refine ⟨⟨_, rfl, ?_⟩, ⟨_, rfl, ?_⟩⟩
  · obtain ⟨j', ss', h1, _, h2, h3⟩ := C89_solidity_lines (env := env) (by decide) rfl
      (j := block [stmt 1, stmt 2, stmt 3, ret]) (by decide +kernel) (ss := [stmt 1, stmt 2, stmt 3, ret]) rfl (by decide)
      (i := 0) (k := 2) (by decide) rfl rfl (by unfold IsKind TextField; decide +kernel) (by unfold IsKind TextField; decide +kernel)
    exact ⟨j', ss', h1, h2, h3⟩
  · obtain ⟨j', ss', w, h1, _, h2, h3, _⟩ := C89_solidity_delete (env := env) rfl
      (j := block [stmt 1, stmt 2, stmt 3, ret]) (by decide +kernel) (ss := [stmt 1, stmt 2, stmt 3, ret]) rfl (by decide)
      (i := 1) rfl rfl
    exact ⟨j', ss', w, h1, h2, h3⟩

/-- `f(a, b, c)` with `a` and `c` of one type can become `f(c, b, a)`. -/
example : ∃ m : Mutator ListRand, Solidity.mutatorFor env .swapFunctionArguments = some m ∧
      ∃ j' args', Reachable m (call "f" [var 1 "a" "uint8", var 2 "b" "bool", var 3 "c" "uint8"]) j' ∧
        j'.field "arguments" = some (.arr args') ∧
        Exchanged 0 2 [var 1 "a" "uint8", var 2 "b" "bool", var 3 "c" "uint8"] args' := by
  refine ⟨_, rfl, ?_⟩
  obtain ⟨j', args', h1, _, h2, h3⟩ := C89_solidity_arguments_partial (env := env) rfl
    (j := call "f" [var 1 "a" "uint8", var 2 "b" "bool", var 3 "c" "uint8"]) (by decide +kernel)
    (args := [var 1 "a" "uint8", var 2 "b" "bool", var 3 "c" "uint8"]) rfl (by decide) (i := 0) (k := 2) (by decide) rfl rfl
    (s := "uint8") ⟨_, rfl, rfl⟩ ⟨_, rfl, rfl⟩ (by
      intro n x hx ht hn
      match n, hn with
      | 0, _ => rfl
      | 1, _ =>
        simp only [List.getElem?_cons_succ, List.getElem?_cons_zero, Option.some.injEq] at hx
        subst hx
        obtain ⟨td, h1, h2⟩ := ht
        have : td = types "bool" := by
          have : field "typeDescriptions" (var 2 "b" "bool") = some (types "bool") := rfl
          rw [this] at h1
          exact (Option.some.inj h1).symm
        subst this
        exact absurd h2 (by unfold TextField; decide +kernel))
  exact ⟨j', args', h1, h2, h3⟩

/-- Any `int8` can be assigned, for instance -128, and an `if` gets each of its three conditions. -/
example : (∃ m : Mutator ListRand, Solidity.mutatorFor env .assignment = some m ∧
      ∃ j' new, Reachable m (assign "int8" (number 1 "5")) j' ∧ j'.field "rightHandSide" = some new ∧ IsNumberLiteral (-128) new) ∧
    ∃ m : Mutator ListRand, Solidity.mutatorFor env .ifStatement = some m ∧
      ∃ j' new, Reachable m (ifNode (var 2 "b" "bool")) j' ∧ j'.field "condition" = some new ∧ IsNegation (var 2 "b" "bool") new := by
  refine ⟨⟨_, rfl, ?_⟩, ⟨_, rfl, ?_⟩⟩
  · obtain ⟨j', new, h1, _, h2, h3⟩ := (C89_solidity_assignment_partial (env := env) rfl (j := assign "int8" (number 1 "5"))
      (by decide +kernel) rfl (n := 8)).1 ⟨_, rfl, by unfold TextField; decide +kernel⟩ (by decide) (by decide) (-128) (by decide)
      (by decide)
    exact ⟨j', new, h1, h2, h3⟩
  · obtain ⟨_, _, j', new, h1, _, h2, h3⟩ := C89_solidity_if (env := env) rfl (j := ifNode (var 2 "b" "bool")) (by decide +kernel) rfl
    exact ⟨j', new, h1, h2, h3⟩

end

section
open DemoNodes Vy

/-- In Vyper `f(1, x)` can become `f(x, 1)` and `x`, and the second of two statements can be deleted. -/
example : (∃ m : Mutator ListRand, Vyper.mutatorFor env .swapFunctionArguments = some m ∧
      ∃ j' args', Reachable m (call [int 1 1, name 2 "x"]) j' ∧ j'.field "args" = some (.arr args') ∧
        Exchanged 0 1 [int 1 1, name 2 "x"] args') ∧
    (∃ m : Mutator ListRand, Vyper.mutatorFor env .functionCall = some m ∧ Reachable m (call [int 1 1, name 2 "x"]) (name 2 "x")) ∧
    ∃ m : Mutator ListRand, Vyper.mutatorFor env .deleteStatement = some m ∧
      ∃ j' ss' w, Reachable m (func [assign (name 1 "a") (int 2 3), assign (name 3 "b") (int 4 5)] .null) j' ∧
        j'.field "body" = some (.arr ss') ∧ ReplacedAt 1 w [assign (name 1 "a") (int 2 3), assign (name 3 "b") (int 4 5)] ss' := by
  refine ⟨⟨_, rfl, ?_⟩, ⟨_, rfl, ?_⟩, ⟨_, rfl, ?_⟩⟩
  · obtain ⟨j', args', h1, _, h2, h3⟩ := C89_vyper_arguments (env := env) (by decide) rfl (j := call [int 1 1, name 2 "x"])
      (by decide +kernel) (args := [int 1 1, name 2 "x"]) rfl (by decide) (i := 0) (k := 1) (by decide) (by decide)
    exact ⟨j', args', h1, h2, h3⟩
  · exact C89_vyper_call (env := env) (by decide) rfl (args := [int 1 1, name 2 "x"]) rfl (by decide) (by simp) rfl
  · obtain ⟨j', ss', w, h1, _, h2, h3, _⟩ := C89_vyper_delete_partial (env := env) rfl
      (j := func [assign (name 1 "a") (int 2 3), assign (name 3 "b") (int 4 5)] .null) (by decide +kernel)
      (ss := [assign (name 1 "a") (int 2 3), assign (name 3 "b") (int 4 5)]) rfl (by decide) (by decide) (i := 1) rfl
    exact ⟨j', ss', w, h1, h2, h3⟩

end

end Mutagenyx
