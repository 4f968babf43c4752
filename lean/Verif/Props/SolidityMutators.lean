import Verif.Spec.DemoNodes
import Verif.Proofs.MutatorNodes

/-!
# Solidity mutations of calls, statements, literals and assignments (C32-C41)

Every theorem speaks about the mutator the factory returns for an algorithm, a node it calls mutable and
a mutation that ended with a mutated node.
-/

namespace Mutagenyx
open Json

variable {R : Type} [Rand R]

/-- Two arguments of the same type are exchanged; nothing else changes. -/
theorem C32_solidity {env : MutEnv} {m : Mutator R}
    (hm : Solidity.mutatorFor env .swapFunctionArguments = some m) {j j' : Json} {r r' : R}
    {res : MutatorResult} {c : Option Json} (hmut : m.isMutable j = true)
    (h : m.mutate j r = .ok (j', res, c, r')) :
    IsKind "FunctionCall" j ∧
    (∃ args args' i k a b s, j.field "arguments" = some (.arr args) ∧
      j'.field "arguments" = some (.arr args') ∧ Exchanged i k args args' ∧
      args[i]? = some a ∧ args[k]? = some b ∧ HasTypeText s a ∧ HasTypeText s b) ∧
    OnlyField "arguments" j j' ∧ res.mutatedNodeId = solidityId j := by
  cases hm
  simp only [Solidity.swapArgumentsMutable, Bool.and_eq_true] at hmut
  have hk := solidity_hasType.1 hmut.1
  have hj := isKind_isObj hk
  simp only [Solidity.swapArgumentsMutate] at h
  cases htk : takeValueForKey "arguments" j with
  | mk o j1 =>
    obtain ⟨ho, hj1, _⟩ := take_eq (by decide) hj htk
    rw [htk] at h
    split at h
    · rename_i args j2 heq
      obtain ⟨rfl, rfl⟩ := Prod.mk.inj heq
      split at h
      · rename_i li r1 hd
        split at h
        · rename_i i1 n1 i2 n2 more hl
          simp only [Outcome.ok.injEq, Prod.mk.injEq] at h
          obtain ⟨rfl, rfl, _, _⟩ := h
          have hmem := List.mem_of_getElem? hl
          simp only [List.mem_filter, List.mem_map] at hmem
          obtain ⟨⟨g, hg, hg2⟩, _⟩ := hmem
          obtain ⟨s, l⟩ := g
          simp only at hg2
          subst hg2
          have hg' := (env.groupOrder_perm _).mem_iff.1 hg
          obtain ⟨hlt, ha, hb, hta, htb⟩ := group_pair hg'
          have hset := onlyField_take_set (k := "arguments") (by decide)
            (.arr ((((args.eraseIdx i1).insertIdx i1 n2).eraseIdx i2).insertIdx i2 n1)) hj htk
          exact ⟨hk, ⟨args, _, i1, i2, n1, n2, s, ho.symm, hset.2, exchanged_reinsert hlt ha hb, ha, hb,
            argumentType_iff.1 hta, argumentType_iff.1 htb⟩, hset.1, solidityId_onlyField (by decide) hset.1⟩
        · cases h
      all_goals cases h
    · cases h

open DemoNodes Sol in
example : run (Solidity.mutatorFor env .swapFunctionArguments) (call "f" [var 1 "a" "uint8", var 2 "b" "bool", var 3 "c" "uint8"]) [5] =
    some (true, some (call "f" [var 3 "c" "uint8", var 2 "b" "bool", var 1 "a" "uint8"])) := by decide +kernel

/-- Two statements at different positions are exchanged, neither a return; nothing else changes. -/
theorem C33_solidity {env : MutEnv} {m : Mutator R}
    (hm : Solidity.mutatorFor env .swapLines = some m) {j j' : Json} {r r' : R}
    {res : MutatorResult} {c : Option Json} (hmut : m.isMutable j = true)
    (h : m.mutate j r = .ok (j', res, c, r')) :
    IsKind "Block" j ∧
    (∃ ss ss' i k a b, j.field "statements" = some (.arr ss) ∧ j'.field "statements" = some (.arr ss') ∧
      Exchanged i k ss ss' ∧ ss[i]? = some a ∧ ss[k]? = some b ∧ ¬ IsKind "Return" a ∧ ¬ IsKind "Return" b) ∧
    OnlyField "statements" j j' ∧ res.mutatedNodeId = solidityId j := by
  cases hm
  simp only [Solidity.swapLinesMutable, Bool.and_eq_true] at hmut
  have hk := solidity_hasType.1 hmut.1
  have hj := isKind_isObj hk
  simp only [Solidity.swapLinesMutate] at h
  have hnot : ∀ (ss : List Json) i, Solidity.notOfType "Return" ss i = true →
      ∃ a, ss[i]? = some a ∧ ¬ IsKind "Return" a := by
    intro ss i hi
    unfold Solidity.notOfType at hi
    cases ha : ss[i]? with
    | none => simp [ha] at hi
    | some a =>
      refine ⟨a, rfl, fun hc => ?_⟩
      rw [ha] at hi
      simp [solidity_hasType.2 hc] at hi
  cases htk : takeValueForKey "statements" j with
  | mk o j1 =>
    obtain ⟨ho, hj1, _⟩ := take_eq (by decide) hj htk
    rw [htk] at h
    split at h
    · rename_i ss j2 heq
      obtain ⟨rfl, rfl⟩ := Prod.mk.inj heq
      split at h
      · rename_i first r1 hd1
        split at h
        · rename_i second r2 hd2
          split at h
          · cases h
          · rename_i larger smaller ss' hex
            simp only [Outcome.ok.injEq, Prod.mk.injEq] at h
            obtain ⟨rfl, rfl, _, _⟩ := h
            have hg2 := (drawUntil_ok hd2).2
            simp only [Bool.and_eq_true, bne_iff_ne, ne_eq] at hg2
            obtain ⟨a, ha, hna⟩ := hnot ss first (drawUntil_ok hd1).2
            obtain ⟨b, hb, hnb⟩ := hnot ss second hg2.2
            have hset := onlyField_take_set (k := "statements") (by decide) (.arr ss') hj htk
            exact ⟨hk, ⟨ss, ss', first, second, a, b, ho.symm, hset.2,
              (exchange_eq (fun e => hg2.1 e.symm) hex).1, ha, hb, hna, hnb⟩, hset.1,
              solidityId_onlyField (by decide) hset.1⟩
        all_goals cases h
      all_goals cases h
    · cases h

open DemoNodes Sol in
example : run (Solidity.mutatorFor env .swapLines) (block [stmt 1, stmt 2, ret]) [2, 1, 1, 0] =
    some (true, some (block [stmt 2, stmt 1, ret])) := by decide +kernel

/-- Removing the comment nodes after replacing one element by a comment removes that element. -/
theorem filter_replaced {p : Json → Bool} {i : Nat} {w : Json} {xs ys : List Json}
    (h : ReplacedAt i w xs ys) (hw : p w = false) (hxs : ∀ x ∈ xs, p x = true) :
    ys.filter p = xs.eraseIdx i := by
  obtain ⟨hi, hl, hyi, hrest⟩ := h
  have hys : ys = xs.set i w := by
    apply List.ext_getElem?
    intro n
    rw [List.getElem?_set]
    by_cases hn : i = n
    · subst hn; simp [hi, hyi]
    · simp [hn, hrest n (Ne.symm hn)]
  subst hys
  clear hl hyi hrest
  induction xs generalizing i with
  | nil => simp at hi
  | cons x xs ih =>
    have hx := hxs x (by simp)
    have hxs' : ∀ y ∈ xs, p y = true := fun y hy => hxs y (by simp [hy])
    cases i with
    | zero =>
      simp only [List.set_cons_zero, List.filter_cons, hw, Bool.false_eq_true, if_false, List.eraseIdx_cons_zero]
      exact List.filter_eq_self.2 hxs'
    | succ i =>
      simp only [List.set_cons_succ, List.filter_cons, hx, if_true, List.eraseIdx_cons_succ]
      rw [ih hxs' (by simpa using hi)]

/-- One expression statement is turned into a comment that holds it; the other statements and all other
fields stay.  Without the comments the block is the old one without that statement. -/
theorem C34_solidity {env : MutEnv} {m : Mutator R}
    (hm : Solidity.mutatorFor env .deleteStatement = some m) {j j' : Json} {r r' : R}
    {res : MutatorResult} {c : Option Json} (hmut : m.isMutable j = true)
    (h : m.mutate j r = .ok (j', res, c, r')) :
    IsKind "Block" j ∧
    (∃ ss ss' i v w, j.field "statements" = some (.arr ss) ∧ j'.field "statements" = some (.arr ss') ∧
      ReplacedAt i w ss ss' ∧ ss[i]? = some v ∧ IsKind "ExpressionStatement" v ∧ IsKind "Comment" w ∧
      w.field "value" = some v ∧ res.mutatedNodeId = solidityId v ∧
      ∀ p : Json → Bool, (∀ x, p x = false ↔ IsKind "Comment" x) → (∀ x ∈ ss, ¬ IsKind "Comment" x) →
        ss'.filter p = ss.eraseIdx i) ∧
    OnlyField "statements" j j' := by
  cases hm
  simp only [Solidity.deleteStatementMutable, Bool.and_eq_true] at hmut
  have hk := solidity_hasType.1 hmut.1
  have hj := isKind_isObj hk
  simp only [Solidity.deleteStatementMutate] at h
  cases htk : takeValueForKey "statements" j with
  | mk o j1 =>
    obtain ⟨ho, hj1, _⟩ := take_eq (by decide) hj htk
    rw [htk] at h
    split at h
    · rename_i ss j2 heq
      obtain ⟨rfl, rfl⟩ := Prod.mk.inj heq
      split at h
      · rename_i vi r1 hd
        split at h
        · cases h
        · rename_i i hidx
          split at h
          · cases h
          · rename_i v hv
            simp only [Outcome.ok.injEq, Prod.mk.injEq] at h
            obtain ⟨rfl, rfl, _, _⟩ := h
            have hlt : i < ss.length := (List.getElem?_eq_some_iff.1 hv).1
            have hmem := List.mem_of_getElem? hidx
            simp only [Solidity.expressionStatementIndexes, List.mem_filter, hv, Bool.and_eq_true] at hmem
            have hset := onlyField_take_set (k := "statements") (by decide)
              (.arr ((ss.eraseIdx i).insertIdx i (Solidity.commentNodeFromNode v))) hj htk
            have hrep : ReplacedAt i (Solidity.commentNodeFromNode v) ss
                ((ss.eraseIdx i).insertIdx i (Solidity.commentNodeFromNode v)) := by
              rw [eraseIdx_insertIdx_self _ _ _ hlt]
              exact replacedAt_set hlt
            have hw := commentNodeFromNode_spec v
            refine ⟨hk, ⟨ss, _, i, v, _, ho.symm, hset.2, hrep, hv, solidity_hasType.1 hmem.2.2, hw.1, hw.2, rfl,
              fun p hp hno => ?_⟩, hset.1⟩
            refine filter_replaced hrep ((hp _).2 hw.1) (fun x hx => ?_)
            cases hpx : p x with
            | true => rfl
            | false => exact absurd ((hp x).1 hpx) (hno x hx)
      all_goals cases h
    · cases h

open DemoNodes Sol in
example : run (Solidity.mutatorFor env .deleteStatement) (block [ret, stmt 2]) [0] =
    some (true, some (block [ret, Solidity.commentNodeFromNode (stmt 2)])) := by decide +kernel

/-- What the change of an `if` node does to its condition. -/
theorem ifChange_spec (choice : Nat) {j old : Json} (hj : IsObj j) (hc : field "condition" j = some old) :
    OnlyField "condition" j (Solidity.ifChange choice j) ∧
    ∃ new, field "condition" (Solidity.ifChange choice j) = some new ∧
      (IsBoolLiteral true new ∨ IsBoolLiteral false new ∨ IsNegation old new) := by
  unfold Solidity.ifChange
  split
  · refine ⟨onlyField_set (by decide) _ hj, _, ?_, Or.inl (isBoolLiteral_mk true)⟩
    rw [field_setNodeForKey (by decide) _ _ hj, if_pos rfl]
  · split
    · refine ⟨onlyField_set (by decide) _ hj, _, ?_, Or.inr (Or.inl (isBoolLiteral_mk false))⟩
      rw [field_setNodeForKey (by decide) _ _ hj, if_pos rfl]
    · cases htk : takeValueForKey "condition" j with
      | mk o j1 =>
        obtain ⟨ho, _, _⟩ := take_eq (by decide) hj htk
        rw [hc] at ho
        subst ho
        have hset := onlyField_take_set (k := "condition") (by decide)
          (Solidity.unaryOpNode "!" true (Solidity.tupleExpressionNode [old])) hj htk
        exact ⟨hset.1, _, hset.2, Or.inr (Or.inr (isNegation_mk old))⟩

/-- The condition becomes `true`, `false` or the negation of the old condition; nothing else changes, in
particular neither branch. -/
theorem C35_solidity {env : MutEnv} {m : Mutator R}
    (hm : Solidity.mutatorFor env .ifStatement = some m) {j j' : Json} {r r' : R}
    {res : MutatorResult} {c : Option Json} (hmut : m.isMutable j = true)
    (h : m.mutate j r = .ok (j', res, c, r')) :
    IsKind "IfStatement" j ∧
    (∃ old new, j.field "condition" = some old ∧ j'.field "condition" = some new ∧
      (IsBoolLiteral true new ∨ IsBoolLiteral false new ∨ IsNegation old new)) ∧
    OnlyField "condition" j j' ∧ j'.field "trueBody" = j.field "trueBody" ∧
    j'.field "falseBody" = j.field "falseBody" ∧ res.mutatedNodeId = solidityId j := by
  cases hm
  simp only [Solidity.ifMutable, Bool.and_eq_true] at hmut
  have hk := solidity_hasType.1 hmut.1
  have hj := isKind_isObj hk
  simp only [Solidity.ifMutate, field?_eq_field] at h
  cases hc : field "condition" j with
  | none => simp [hc] at h
  | some old =>
    rw [hc] at h
    simp only at h
    obtain ⟨hof, new, hnew, hcases⟩ := ifChange_spec ((nextU64 r).1 % 3) hj hc
    rw [hnew] at h
    simp only [Outcome.ok.injEq, Prod.mk.injEq] at h
    obtain ⟨rfl, rfl, _, _⟩ := h
    exact ⟨hk, ⟨old, new, rfl, hnew, hcases⟩, hof, hof.2.2 _ (by decide), hof.2.2 _ (by decide),
      solidityId_onlyField (by decide) hof⟩

open DemoNodes Sol in
example : run (Solidity.mutatorFor env .ifStatement) (ifNode (var 2 "b" "bool")) [1] =
    some (true, some (ifNode (Solidity.booleanLiteralNode false))) := by decide +kernel

/-- Only the value of the literal changes.  The new value is the old one plus or minus one, or (for every
third value of the first draw) the 64-bit number drawn next.  Missing: that it differs from the old value, which fails for the random number
(`C36_same_value_counterexample`). -/
theorem C36_solidity_partial {env : MutEnv} {m : Mutator R}
    (hm : Solidity.mutatorFor env .integer = some m) {j j' : Json} {r r' : R}
    {res : MutatorResult} {c : Option Json} (hmut : m.isMutable j = true)
    (h : m.mutate j r = .ok (j', res, c, r')) :
    IsKind "Literal" j ∧ TextField "kind" j "number" ∧
    (∃ old new, TextField "value" j old ∧ TextField "value" j' new ∧
      ((nextU64 r).1 % 3 ≠ 2 →
        ∃ i k : Int, parseI64 old = some i ∧ parseI64 new = some k ∧ new = toString k ∧ new ≠ old ∧
          ((k = i + 1 ∨ k = i - 1) ∨ (env.overflowChecks = false ∧
            ((i = 2 ^ 63 - 1 ∧ k = -(2 ^ 63)) ∨ (i = -(2 ^ 63) ∧ k = 2 ^ 63 - 1))))) ∧
      ((nextU64 r).1 % 3 = 2 → new = toString (nextU64 (nextU64 r).2).1)) ∧
    OnlyField "value" j j' ∧ res.mutatedNodeId = solidityId j := by
  cases hm
  simp only [Solidity.integerMutable, Bool.and_eq_true, beq_iff_eq] at hmut
  have hk := solidity_hasType.1 hmut.1.1
  have hj := isKind_isObj hk
  have hkind := getStr_text (by decide) (by decide) hmut.1.2
  have hmut2 := hmut.2
  cases hv : getStrForKey "value" j with
  | none => simp [hv] at hmut2
  | some old =>
    have hold := (getStr_iff (by decide) hj).1 hv
    have key : ∀ new : String, TextField "value" (setStrForKey "value" new j) new ∧
        OnlyField "value" j (setStrForKey "value" new j) := by
      intro new
      refine ⟨?_, onlyField_set (by decide) _ hj⟩
      unfold TextField setStrForKey
      rw [field_setNodeForKey (by decide) _ _ hj, if_pos rfl]
    simp only [Solidity.integerMutate, hv] at h
    by_cases h2 : (nextU64 r).1 % 3 = 2
    · simp only [h2, if_true, Outcome.ok.injEq, Prod.mk.injEq] at h
      obtain ⟨rfl, rfl, _, _⟩ := h
      refine ⟨hk, hkind, ⟨old, _, hold, (key _).1, fun hne => absurd h2 hne, fun _ => rfl⟩, (key _).2,
        solidityId_onlyField (by decide) (key _).2⟩
    · simp only [h2, if_false] at h
      cases hs : Solidity.integerStep env (if (nextU64 r).1 % 3 = 0 then 1 else -1) old with
      | none => simp [hs] at h
      | some new =>
        simp only [hs, Outcome.ok.injEq, Prod.mk.injEq] at h
        obtain ⟨rfl, rfl, _, _⟩ := h
        refine ⟨hk, hkind, ⟨old, new, hold, (key _).1, fun _ => ?_, fun he => absurd he h2⟩, (key _).2,
          solidityId_onlyField (by decide) (key _).2⟩
        generalize hd : (if (nextU64 r).1 % 3 = 0 then (1 : Int) else -1) = d at hs
        have hd' : d = 1 ∨ d = -1 := by
          rw [← hd]; split <;> simp
        exact integerStep_spec hd' hs

open DemoNodes Sol in
example : run (Solidity.mutatorFor env .integer) (number 1 "-3") [0] =
    some (true, some (number 1 "-2")) := by decide +kernel

/-- The random replacement can be the literal's own value: the node is then not changed. -/
theorem C36_same_value_counterexample : ∃ (j j' : Json) (m : Mutator ListRand) (r r' : ListRand)
    (res : MutatorResult) (c : Option Json), Solidity.mutatorFor DemoNodes.env .integer = some m ∧
    m.isMutable j = true ∧ m.mutate j r = .ok (j', res, c, r') ∧ j' = j :=
  ⟨DemoNodes.Sol.number 1 "7", DemoNodes.Sol.number 1 "7", _, ⟨[2, 7]⟩, _, _, _, rfl,
    by decide +kernel, rfl, rfl⟩

/-- Only the right-hand side changes, and for every integer width and for `bool` the new right-hand side is a
literal representable in the type of the assignment. -/
theorem C37_solidity {env : MutEnv} {m : Mutator R}
    (hm : Solidity.mutatorFor env .assignment = some m) {j j' : Json} {r r' : R}
    {res : MutatorResult} {c : Option Json} (hmut : m.isMutable j = true)
    (h : m.mutate j r = .ok (j', res, c, r')) :
    IsKind "Assignment" j ∧ OnlyField "rightHandSide" j j' ∧ res.mutatedNodeId = solidityId j ∧
    ∃ s new, HasTypeText s j ∧ j'.field "rightHandSide" = some new ∧
      (∀ n : Nat, s = "uint" ++ toString n → ∃ v : Int, IsNumberLiteral v new ∧ 0 ≤ v ∧ v < 2 ^ n) ∧
      (∀ n : Nat, s = "int" ++ toString n →
        ∃ v : Int, IsNumberLiteral v new ∧ -(2 ^ (n - 1)) ≤ v ∧ v < 2 ^ (n - 1)) ∧
      (s = "bool" → ∃ b, IsBoolLiteral b new) := by
  cases hm
  simp only [Solidity.assignmentMutable, Bool.and_eq_true] at hmut
  have hk := solidity_hasType.1 hmut.1
  have hj := isKind_isObj hk
  simp only [Solidity.assignmentMutate, field?_eq_field] at h
  cases htd : field "typeDescriptions" j with
  | none => simp [htd] at h
  | some td =>
    simp only [htd] at h
    cases hts : getStrForKey "typeString" td with
    | none => simp [hts] at h
    | some s =>
      simp only [hts] at h
      cases hr : field "rightHandSide" j with
      | none => simp [hr] at h
      | some rhs =>
        simp only [hr] at h
        split at h
        · rename_i o ps r1 hv
          have htype : HasTypeText s j := ⟨td, htd, getStr_text (by decide) (by decide) hts⟩
          cases o with
          | none =>
            simp only [hr, Outcome.ok.injEq, Prod.mk.injEq] at h
            obtain ⟨rfl, rfl, _, _⟩ := h
            refine ⟨hk, ⟨hj, hj, fun _ _ => rfl⟩, rfl, s, rhs, htype, hr, ?_, ?_, ?_⟩
            · rintro n rfl
              obtain ⟨v, hv', _⟩ := assignmentValue_uint hv
              cases hv'
            · rintro n rfl
              obtain ⟨v, hv', _⟩ := assignmentValue_int hv
              cases hv'
            · rintro rfl
              obtain ⟨b, hv'⟩ := assignmentValue_bool hv
              cases hv'
          | some v =>
            have hf : field "rightHandSide" (setNodeForKey "rightHandSide" v j) = some v := by
              rw [field_setNodeForKey (by decide) _ _ hj, if_pos rfl]
            simp only [hf, Outcome.ok.injEq, Prod.mk.injEq] at h
            obtain ⟨rfl, rfl, _, _⟩ := h
            have hof : OnlyField "rightHandSide" j (setNodeForKey "rightHandSide" v j) :=
              onlyField_set (by decide) _ hj
            refine ⟨hk, hof, solidityId_onlyField (by decide) hof, s, v, htype, hf, ?_, ?_, ?_⟩
            · rintro n rfl
              obtain ⟨i, hv', h1, h2⟩ := assignmentValue_uint hv
              injection hv' with hv'
              exact ⟨i, hv' ▸ isNumberLiteral_mk i, h1, h2⟩
            · rintro n rfl
              obtain ⟨i, hv', h1, h2⟩ := assignmentValue_int hv
              injection hv' with hv'
              exact ⟨i, hv' ▸ isNumberLiteral_mk i, h1, h2⟩
            · rintro rfl
              obtain ⟨b, hv'⟩ := assignmentValue_bool hv
              injection hv' with hv'
              exact ⟨b, hv' ▸ isBoolLiteral_mk b⟩
        all_goals cases h

open DemoNodes Sol in
example : run (Solidity.mutatorFor env .assignment) (assign "int16" (var 1 "a" "int16")) [5] =
    some (true, some (assign "int16" (Solidity.integerConstantNode (-32763)))) := by decide +kernel

/-- A call is replaced by one of its own arguments, unchanged. -/
theorem C38_solidity {env : MutEnv} {m : Mutator R}
    (hm : Solidity.mutatorFor env .functionCall = some m) {j j' : Json} {r r' : R}
    {res : MutatorResult} {c : Option Json} (hmut : m.isMutable j = true)
    (h : m.mutate j r = .ok (j', res, c, r')) :
    IsKind "FunctionCall" j ∧ ¬ IsKind "Literal" j' ∧
    ∃ args, j.field "arguments" = some (.arr args) ∧ j' ∈ args := by
  cases hm
  simp only [Solidity.functionCallMutable, Bool.and_eq_true] at hmut
  have hk := solidity_hasType.1 hmut.1
  simp only [Solidity.functionCallMutate] at h
  cases ha : Solidity.arrayField "arguments" j with
  | none => simp [ha] at h
  | some args =>
    simp only [ha] at h
    split at h
    · rename_i i r1 hd
      split at h
      · cases h
      · rename_i v hv
        simp only [Outcome.ok.injEq, Prod.mk.injEq] at h
        obtain ⟨rfl, rfl, _, _⟩ := h
        refine ⟨hk, fun hc => ?_, args, arrayField_iff.1 ha, List.mem_of_getElem? hv⟩
        have := (drawUntil_ok hd).2
        simp [Solidity.notOfType, hv, solidity_hasType.2 hc] at this
    all_goals cases h

open DemoNodes Sol in
example : run (Solidity.mutatorFor env .functionCall) (call "f" [number 4 "1", var 2 "b" "bool"]) [0, 1] =
    some (true, some (var 2 "b" "bool")) := by decide +kernel

/-- The first argument of a `require` is negated; the callee, the other arguments and all other fields are
unchanged. -/
theorem C39_solidity {env : MutEnv} {m : Mutator R}
    (hm : Solidity.mutatorFor env .require = some m) {j j' : Json} {r r' : R}
    {res : MutatorResult} {c : Option Json} (hmut : m.isMutable j = true)
    (h : m.mutate j r = .ok (j', res, c, r')) :
    IsKind "FunctionCall" j ∧ (∃ callee, j.field "expression" = some callee ∧ TextField "name" callee "require") ∧
    (∃ cond neg rest, j.field "arguments" = some (.arr (cond :: rest)) ∧
      j'.field "arguments" = some (.arr (neg :: rest)) ∧ IsNegation cond neg) ∧
    OnlyField "arguments" j j' ∧ res.mutatedNodeId = solidityId j ∧ r' = r := by
  cases hm
  simp only [Solidity.requireMutable, Bool.and_eq_true, beq_iff_eq, field?_eq_field] at hmut
  have hk := solidity_hasType.1 hmut.1.1
  have hj := isKind_isObj hk
  have hcallee : ∃ callee, j.field "expression" = some callee ∧ TextField "name" callee "require" := by
    have h2 := hmut.1.2
    cases he : field "expression" j with
    | none => simp [he] at h2
    | some callee =>
      rw [he] at h2
      exact ⟨callee, rfl, getStr_text (by decide) (by decide) h2⟩
  simp only [Solidity.requireMutate] at h
  split at h
  · rename_i cond rest ha
    have hargs := arrayField_iff.1 ha
    have hga : getArrayForKey "arguments" j = some (cond :: rest) := by
      rw [getArray_field (by decide) hj, hargs]; rfl
    simp only [Solidity.takeArgument, hga, List.getElem?_cons_zero, List.set_cons_zero, Outcome.ok.injEq,
      Prod.mk.injEq] at h
    obtain ⟨rfl, rfl, _, rfl⟩ := h
    have hj1 := setNodeForKey_isObj (k := "arguments") (by decide) (.arr (.null :: rest)) hj
    have hf1 := fun k' => field_setNodeForKey (k := "arguments") (by decide) k' (.arr (.null :: rest)) hj
    have hf2 : field "arguments" (setNodeForKey "arguments" (.arr (.null :: rest)) j) =
        some (.arr (.null :: rest)) := by rw [hf1, if_pos rfl]
    have hset := setAtIndex_field (k := "arguments") (by decide) (v := Solidity.requireNegation cond) hj1 hf2
      (i := 0) (by simp)
    have hof : OnlyField "arguments" j (setNodeForKeyAtIndex "arguments" 0 (Solidity.requireNegation cond)
        (setNodeForKey "arguments" (.arr (.null :: rest)) j)) := by
      refine ⟨hj, hset.1.2.1, fun k' hk' => ?_⟩
      rw [hset.1.2.2 k' hk', hf1, if_neg (Ne.symm hk')]
    exact ⟨hk, hcallee, ⟨cond, _, rest, hargs, hset.2, isNegation_require cond⟩, hof,
      solidityId_onlyField (by decide) hof, rfl⟩
  · cases h

open DemoNodes Sol in
example : run (Solidity.mutatorFor env .require) (call "require" [var 2 "b" "bool", var 1 "a" "string"]) [] =
    some (true, some (call "require" [Solidity.requireNegation (var 2 "b" "bool"), var 1 "a" "string"])) := by decide +kernel

/-- One statement, neither a return nor an unchecked block, is wrapped in an unchecked block; all other
statements, their order and all other fields are unchanged. -/
theorem C40_solidity {env : MutEnv} {m : Mutator R}
    (hm : Solidity.mutatorFor env .uncheckedBlock = some m) {j j' : Json} {r r' : R}
    {res : MutatorResult} {c : Option Json} (hmut : m.isMutable j = true)
    (h : m.mutate j r = .ok (j', res, c, r')) :
    IsKind "Block" j ∧
    (∃ ss ss' i v w, j.field "statements" = some (.arr ss) ∧ j'.field "statements" = some (.arr ss') ∧
      ReplacedAt i w ss ss' ∧ ss[i]? = some v ∧ ¬ IsKind "Return" v ∧ ¬ IsKind "UncheckedBlock" v ∧
      IsKind "UncheckedBlock" w ∧ w.field "statements" = some (.arr [v])) ∧
    OnlyField "statements" j j' := by
  cases hm
  simp only [Solidity.uncheckedBlockMutable, Bool.and_eq_true] at hmut
  have hk := solidity_hasType.1 hmut.1
  have hj := isKind_isObj hk
  simp only [Solidity.uncheckedBlockMutate] at h
  cases htk : takeValueForKey "statements" j with
  | mk o j1 =>
    obtain ⟨ho, hj1, _⟩ := take_eq (by decide) hj htk
    rw [htk] at h
    split at h
    · rename_i ss j2 heq
      obtain ⟨rfl, rfl⟩ := Prod.mk.inj heq
      split at h
      · rename_i i v rest r1 hd
        simp only [Outcome.ok.injEq, Prod.mk.injEq] at h
        obtain ⟨rfl, rfl, _, _⟩ := h
        obtain ⟨hv, hrest, hn1, hn2⟩ := uncheckedDraw_ok hd
        have hlt : i < ss.length := (List.getElem?_eq_some_iff.1 hv).1
        have hset := fun w => onlyField_take_set (k := "statements") (by decide)
          (.arr (rest.insertIdx i w)) hj htk
        have hrep : ∀ w, ReplacedAt i w ss (rest.insertIdx i w) := by
          intro w
          rw [hrest, eraseIdx_insertIdx_self _ _ _ hlt]
          exact replacedAt_set hlt
        exact ⟨hk, ⟨ss, _, i, v, _, ho.symm, (hset _).2, hrep _, hv, hn1, hn2,
          (uncheckedBlockNode_spec v _).1, (uncheckedBlockNode_spec v _).2⟩, (hset _).1⟩
      all_goals cases h
    · cases h

open DemoNodes Sol in
example : run (Solidity.mutatorFor env .uncheckedBlock) (block [ret, stmt 2]) [0, 1] =
    some (true, some (block [ret, Solidity.uncheckedBlockNode [stmt 2] 102])) := by decide +kernel

/-- `delegatecall` becomes `call`, nothing else changes; the mutation always succeeds, and exactly the
accesses to a member named `delegatecall` are candidates. -/
theorem C41_solidity {env : MutEnv} {m : Mutator R}
    (hm : Solidity.mutatorFor env .elimDelegateCall = some m) (j : Json) (r : R) :
    (m.isMutable j = true ↔ IsKind "MemberAccess" j ∧ TextField "memberName" j "delegatecall") ∧
    (m.isMutable j = true → ∃ j' res c, m.mutate j r = .ok (j', res, c, r) ∧
      TextField "memberName" j' "call" ∧ OnlyField "memberName" j j' ∧ res.mutatedNodeId = solidityId j) := by
  cases hm
  have hiff : Solidity.delegateCallMutable j = true ↔
      IsKind "MemberAccess" j ∧ TextField "memberName" j "delegatecall" := by
    simp only [Solidity.delegateCallMutable, Bool.and_eq_true, beq_iff_eq]
    constructor
    · rintro ⟨h1, h2⟩
      exact ⟨solidity_hasType.1 h1, getStr_text (by decide) (by decide) h2⟩
    · rintro ⟨h1, h2⟩
      exact ⟨solidity_hasType.2 h1, getStr_of_text (by decide) h2⟩
  refine ⟨hiff, fun hmut => ?_⟩
  have hj := isKind_isObj (hiff.1 hmut).1
  have hof : OnlyField "memberName" j (setStrForKey "memberName" "call" j) := onlyField_set (by decide) _ hj
  refine ⟨_, _, _, rfl, ?_, hof, solidityId_onlyField (by decide) hof⟩
  unfold TextField setStrForKey
  rw [field_setNodeForKey (by decide) _ _ hj, if_pos rfl]

open DemoNodes Sol in
example : run (Solidity.mutatorFor env .elimDelegateCall) (member "delegatecall") [] =
    some (true, some (member "call")) := by decide +kernel

/-- **C17** fails for the argument swap: the groups come out of a hash map, and with the same draws another
order of the groups gives another mutant (`solidity/mutators.rs`, `SwapFunctionArgumentsMutator`). -/
theorem C17_swap_arguments_counterexample :
    ∃ (env₁ env₂ : MutEnv) (order : List (String × List (Nat × Json)) → List (String × List (Nat × Json)))
      (hperm : ∀ l, (order l).Perm l) (j j₁ j₂ : Json) (draws : List Nat),
      env₂ = { env₁ with groupOrder := order, groupOrder_perm := hperm } ∧
      DemoNodes.run (Solidity.mutatorFor env₁ .swapFunctionArguments) j draws = some (true, some j₁) ∧
      DemoNodes.run (Solidity.mutatorFor env₂ .swapFunctionArguments) j draws = some (true, some j₂) ∧
      j₁ ≠ j₂ := by
  let a := DemoNodes.Sol.var 1 "a" "uint8"
  let b := DemoNodes.Sol.var 2 "b" "uint8"
  let c := DemoNodes.Sol.var 3 "c" "bool"
  let d := DemoNodes.Sol.var 4 "d" "bool"
  exact ⟨DemoNodes.env, _, List.reverse, List.reverse_perm, DemoNodes.Sol.call "f" [a, b, c, d],
    DemoNodes.Sol.call "f" [b, a, c, d], DemoNodes.Sol.call "f" [a, b, d, c], [0, 0, 1], rfl,
    by decide +kernel, by decide +kernel, by decide +kernel⟩

end Mutagenyx
