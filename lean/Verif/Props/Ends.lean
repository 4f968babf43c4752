import Verif.Proofs.Ends
import Verif.Props.Operators
import Verif.Props.SolidityMutators
import Verif.Props.VyperMutators

/-!
# Mutable nodes are mutated (C30)
-/

namespace Mutagenyx
open Json

variable {R : Type} [Rand R]

/-- The mutation of a node by the Solidity mutator of an algorithm, with at most `n` iterations of the loops
that draw again. -/
def solidityMutate (env : MutEnv) (t : MutationType) (j : Json) (r : R) (n : Nat) :
    Outcome (Json × MutatorResult × Option Json × R) :=
  match Solidity.mutatorFor { env with fuel := n } t with
  | some m => m.mutate j r
  | none => .panic

/-- The same for Vyper. -/
def vyperMutate (env : MutEnv) (t : MutationType) (j : Json) (r : R) (n : Nat) :
    Outcome (Json × MutatorResult × Option Json × R) :=
  match Vyper.mutatorFor { env with fuel := n } t with
  | some m => m.mutate j r
  | none => .panic

theorem another_operator (ops : List String) (hl : 2 ≤ ops.length) (hn : ops.Nodup) (old : String) :
    ∃ o ∈ ops, o ≠ old := by
  match ops, hl, hn with
  | a :: b :: rest, _, hn =>
    by_cases ha : a = old
    · refine ⟨b, by simp, ?_⟩
      rintro rfl
      simp [ha] at hn
    · exact ⟨a, by simp, ha⟩

theorem solidity_binary_ends (env : MutEnv) (ops : List String) (t : MutationType) {j : Json} (r : R)
    (hmut : Solidity.binaryOpMutable ops j = true)
    (hops : ∀ old, ∃ o ∈ ops, o ≠ old) :
    EndsIf (FairSource r) (fun n => Solidity.binaryOpMutate { env with fuel := n } ops t j r) := by
  simp only [Solidity.binaryOpMutable, Bool.and_eq_true] at hmut
  have h2 := hmut.2
  cases hop : getStrForKey "operator" j with
  | none => simp [hop] at h2
  | some old =>
    obtain ⟨o, ho, hne⟩ := hops old
    refine EndsIf.congr (fun n => ?_) ((chooseOther_ends ho hne r).map (fun p =>
      (setStrForKey "operator" p.1 j, Solidity.result t (Solidity.nodeId (setStrForKey "operator" p.1 j))
        (some (env.digest [.text p.1])),
        some (Solidity.commentNode (t.toStr ++ " Mutator: changed '" ++ old ++ "' to '" ++ p.1 ++ "'")), p.2)))
    unfold Solidity.binaryOpMutate
    simp only [hop]
    cases chooseOther ops old n r <;> rfl

/-- Every algorithm for which the node is usable ends with a mutated node: it never reports an error and
never crashes, and with a fair random source there is a number of iterations after which its loops have
ended. -/
theorem C30_solidity_partial (env : MutEnv) (t : MutationType) {j : Json} (r : R) {m : Mutator R}
    (hm : Solidity.mutatorFor env t = some m) (hmut : m.isMutable j = true) (hu : SolidityUsable t j)
    (hfit : FitsMemory j) : EndsIf (FairSource r) (solidityMutate env t j r) := by
  cases t <;> cases hm
  case arithmeticBinaryOp => exact solidity_binary_ends env _ _ r hmut (another_operator _ (by decide) (by decide))
  case logicalBinaryOp => exact solidity_binary_ends env _ _ r hmut (another_operator _ (by decide) (by decide))
  case bitwiseBinaryOp => exact solidity_binary_ends env _ _ r hmut (another_operator _ (by decide) (by decide))
  case bitshiftBinaryOp => exact solidity_binary_ends env _ _ r hmut (another_operator _ (by decide) (by decide))
  case comparisonBinaryOp => exact solidity_binary_ends env _ _ r hmut (another_operator _ (by decide) (by decide))
  case assignment =>
    obtain ⟨⟨rhs, hr⟩, htype⟩ := hu
    simp only [Solidity.assignmentMutable, Bool.and_eq_true] at hmut
    have hj := isKind_isObj (solidity_hasType.1 hmut.1)
    -- a value is generated
    have hval : ∃ s, HasTypeText s j ∧ ∃ v ps r', Solidity.assignmentValue s r = .ok (some v, ps, r') := by
      rcases htype with ⟨n, h0, hn, ht⟩ | ⟨n, h0, hn, ht⟩ | ht
      · refine ⟨_, ht, ?_⟩
        unfold Solidity.assignmentValue
        rw [(uint_text n).1]
        simp only [show ("uin" : String) ≠ "int" by decide, if_false, if_true, (uint_text n).2, Option.bind_some,
          parseU32_repr, hn]
        obtain ⟨v, r', hg⟩ := genRange_isOk (lo := 0) (hi := if (if n > 128 then 128 else n) < 128 then
            2 ^ (if n > 128 then 128 else n) - 1 else 340282366920938463463374607431768211455) (by
          by_cases h1 : n > 128
          · simp [h1]
          · simp only [h1, if_false]
            by_cases h2 : n < 128
            · simp only [h2, if_true]
              have : (2 : Int) ^ 1 ≤ 2 ^ n := by exact_mod_cast Nat.pow_le_pow_right (by decide) h0
              omega
            · simp [h2]) r
        rw [hg]
        exact ⟨_, _, _, rfl⟩
      · refine ⟨_, ht, ?_⟩
        unfold Solidity.assignmentValue
        rw [(int_text n).1]
        simp only [if_true, (int_text n).2, Option.bind_some, parseU32_repr, show n < 2 ^ 32 by omega,
          show ¬ n > 128 by omega, if_false, show ¬ (n = 0 ∨ n = 128) by omega]
        obtain ⟨v, r', hg⟩ := genRange_isOk (lo := -(2 ^ (n - 1))) (hi := 2 ^ (n - 1)) (by
          have : (0 : Int) < 2 ^ (n - 1) := by exact_mod_cast Nat.pow_pos (by decide)
          omega) r
        rw [hg]
        exact ⟨_, _, _, rfl⟩
      · refine ⟨_, ht, ?_⟩
        unfold Solidity.assignmentValue
        have e : takeBytes 3 "bool" = some "boo" := by decide
        rw [e]
        simp only [show ("boo" : String) ≠ "int" by decide, show ("boo" : String) ≠ "uin" by decide, if_false,
          if_true]
        obtain ⟨v, r', hg⟩ := genRange_isOk (lo := 0) (hi := 1) (by decide) r
        rw [hg]
        exact ⟨_, _, _, rfl⟩
    obtain ⟨s, ⟨td, h1, h2⟩, v, ps, r', hv⟩ := hval
    have hf : field "rightHandSide" (setNodeForKey "rightHandSide" v j) = some v := by
      rw [field_setNodeForKey (by decide) _ _ hj, if_pos rfl]
    refine EndsIf.same (fun n => rfl) ?_
    · show ∃ a, Solidity.assignmentMutate { env with fuel := 0 } j r = .ok a
      simp only [Solidity.assignmentMutate, field?_eq_field, h1, getStr_of_text (by decide) h2, hr, hv, hf]
      exact ⟨_, rfl⟩
  case deleteStatement =>
    simp only [Solidity.deleteStatementMutable, Bool.and_eq_true] at hmut
    have hj := isKind_isObj (solidity_hasType.1 hmut.1)
    have hmut2 := hmut.2
    cases ha : Solidity.arrayField "statements" j with
    | none => simp [ha] at hmut2
    | some ss =>
      simp only [ha, Bool.and_eq_true, List.any_eq_true] at hmut2
      obtain ⟨_, v, hv, hvt⟩ := hmut2
      cases htk : takeValueForKey "statements" j with
      | mk o j1 =>
        obtain ⟨ho, _, _⟩ := take_eq (by decide) hj htk
        rw [arrayField_iff.1 ha] at ho
        subst ho
        obtain ⟨i, hi, hiv⟩ := List.mem_iff_getElem.1 hv
        have hmem : i ∈ Solidity.expressionStatementIndexes ss := by
          unfold Solidity.expressionStatementIndexes
          simp only [List.mem_filter, List.mem_range, List.getElem?_eq_getElem hi, hiv, hvt, Bool.and_true]
          refine ⟨hi, ?_⟩
          obtain ⟨kvs, rfl⟩ := isObj_iff.1 (isKind_isObj (solidity_hasType.1 hvt))
          rfl
        have hne : (Solidity.expressionStatementIndexes ss).length ≠ 0 := by
          intro h0
          rw [List.length_eq_zero_iff.1 h0] at hmem
          simp at hmem
        have hlt : (nextU64 r).1 % (Solidity.expressionStatementIndexes ss).length <
            (Solidity.expressionStatementIndexes ss).length := Nat.mod_lt _ (Nat.pos_of_ne_zero hne)
        have hi' := List.getElem_mem hlt
        generalize hidx : (Solidity.expressionStatementIndexes ss)[(nextU64 r).1 %
          (Solidity.expressionStatementIndexes ss).length] = idx at hi'
        have hidx' : idx < ss.length := by
          unfold Solidity.expressionStatementIndexes at hi'
          exact List.mem_range.1 (List.mem_filter.1 hi').1
        refine EndsIf.same (fun n => rfl) ?_
        · show ∃ a, Solidity.deleteStatementMutate { env with fuel := 0 } j r = .ok a
          simp only [Solidity.deleteStatementMutate, htk, drawIndex_isOk hne, List.getElem?_eq_getElem hlt,
            hidx, List.getElem?_eq_getElem hidx']
          exact ⟨_, rfl⟩
  case functionCall =>
    obtain ⟨args, a, hargs, ha, hna⟩ := hu
    obtain ⟨i, hi, hia⟩ := List.mem_iff_getElem.1 ha
    have hg : Solidity.notOfType "Literal" args i = true := by
      unfold Solidity.notOfType
      rw [List.getElem?_eq_getElem hi, hia]
      have : Solidity.hasType "Literal" a = false := by
        cases hh : Solidity.hasType "Literal" a with
        | false => rfl
        | true => exact absurd (solidity_hasType.1 hh) hna
      simp [this]
    refine EndsIf.congr (fun n => ?_) (((drawUntil_ends hi hg (hfit _ _ hargs) r).mono (F := FairSource r) And.left).bind
      (g := fun _ p => match args[p.1]? with
        | none => .panic
        | some j' => .ok (j', Solidity.result .functionCall
            (if j'.asObj.isSome then Solidity.nodeId j' else none) (some (env.digest [.index p.1])),
            some (Solidity.commentNode
              ("FunctionCall Mutator: replaced '" ++ env.pp j ++ "' with '" ++ env.pp j' ++ "'")), p.2))
      (fun n p hp => ?_))
    · show Solidity.functionCallMutate { env with fuel := n } j r = _
      simp only [Solidity.functionCallMutate, arrayField_iff.2 hargs]
      cases drawUntil (Solidity.notOfType "Literal" args) args.length n r <;> rfl
    · have := (drawUntil_ok (i := p.1) (r' := p.2) hp).1
      simp only [List.getElem?_eq_getElem this]
      exact EndsIf.const (fun _ => rfl)
  case swapFunctionArguments =>
    simp only [Solidity.swapArgumentsMutable, Bool.and_eq_true] at hmut
    have hj := isKind_isObj (solidity_hasType.1 hmut.1)
    have hmut2 := hmut.2
    cases ha : Solidity.arrayField "arguments" j with
    | none => simp [ha] at hmut2
    | some args =>
      simp only [ha, Bool.and_eq_true, List.any_eq_true, decide_eq_true_eq] at hmut2
      obtain ⟨_, s, _, hcount⟩ := hmut2
      cases htk : takeValueForKey "arguments" j with
      | mk o j1 =>
        obtain ⟨ho, _, _⟩ := take_eq (by decide) hj htk
        rw [arrayField_iff.1 ha] at ho
        subst ho
        have hlen := groupFor_length args 0 [] s
        have hmem : (s, groupFor s (Solidity.groupArguments args 0 [])) ∈
            Solidity.groupArguments args 0 [] := mem_of_groupFor (by omega)
        have hmem2 := (env.groupOrder_perm _).mem_iff.2 hmem
        have hmem3 : groupFor s (Solidity.groupArguments args 0 []) ∈
            ((env.groupOrder (Solidity.groupArguments args 0 [])).map Prod.snd).filter
              (fun l => decide (l.length ≥ 2)) := by
          simp only [List.mem_filter, List.mem_map, decide_eq_true_eq]
          exact ⟨⟨_, hmem2, rfl⟩, by omega⟩
        generalize hlists : ((env.groupOrder (Solidity.groupArguments args 0 [])).map Prod.snd).filter
          (fun l => decide (l.length ≥ 2)) = lists at hmem3
        have hne : lists.length ≠ 0 := by
          intro h0
          rw [List.length_eq_zero_iff.1 h0] at hmem3
          simp at hmem3
        have hlt : (nextU64 r).1 % lists.length < lists.length := Nat.mod_lt _ (Nat.pos_of_ne_zero hne)
        have h2 : 2 ≤ lists[(nextU64 r).1 % lists.length].length := by
          have := List.getElem_mem hlt
          have h4 : ∀ l ∈ lists, 2 ≤ l.length := by
            intro l hl
            rw [← hlists] at hl
            simpa using (List.mem_filter.1 hl).2
          exact h4 _ this
        have h3 : ∃ p q more, lists[(nextU64 r).1 % lists.length] = p :: q :: more := by
          match hl : lists[(nextU64 r).1 % lists.length], h2 with
          | p :: q :: more, _ => exact ⟨p, q, more, rfl⟩
        obtain ⟨⟨i1, n1⟩, ⟨i2, n2⟩, more, hl⟩ := h3
        refine EndsIf.same (fun n => rfl) ?_
        · show ∃ a, Solidity.swapArgumentsMutate { env with fuel := 0 } j r = .ok a
          simp only [Solidity.swapArgumentsMutate, htk, hlists, drawIndex_isOk hne, List.getElem?_eq_getElem hlt,
            hl]
          exact ⟨_, rfl⟩
  case ifStatement =>
    simp only [Solidity.ifMutable, Bool.and_eq_true] at hmut
    have hj := isKind_isObj (solidity_hasType.1 hmut.1)
    have hmut2 := hmut.2
    rw [field?_eq_field] at hmut2
    cases hc : field "condition" j with
    | none => simp [hc] at hmut2
    | some old =>
      obtain ⟨hof, new, hnew, hcases⟩ := ifChange_spec ((nextU64 r).1 % 3) hj hc
      refine EndsIf.same (fun n => rfl) ?_
      · show ∃ a, Solidity.ifMutate { env with fuel := 0 } j r = .ok a
        simp only [Solidity.ifMutate, field?_eq_field, hc, hnew]
        exact ⟨_, rfl⟩
  case integer =>
    obtain ⟨i, h1, h2, hi⟩ := hu
    have hp := parseI64_toString (i := i) (by omega) (by omega)
    have hstep : ∀ d : Int, d = 1 ∨ d = -1 → ∃ s, Solidity.integerStep env d (toString i) = some s := by
      intro d hd
      unfold Solidity.integerStep addI64
      rw [hp]
      simp only [Option.bind_some]
      rw [if_pos (by omega)]
      exact ⟨_, rfl⟩
    by_cases hc : (nextU64 r).1 % 3 = 2
    · refine EndsIf.same (fun n => rfl) ?_
      · show ∃ a, Solidity.integerMutate { env with fuel := 0 } j r = .ok a
        simp only [Solidity.integerMutate, hc, if_true]
        exact ⟨_, rfl⟩
    · obtain ⟨s, hs⟩ := hstep (if (nextU64 r).1 % 3 = 0 then 1 else -1) (by split <;> simp)
      have hs' : ∀ n, Solidity.integerStep { env with fuel := n } (if (nextU64 r).1 % 3 = 0 then 1 else -1)
          (toString i) = some s := fun n => hs
      refine EndsIf.same (fun n => rfl) ?_
      · show ∃ a, Solidity.integerMutate { env with fuel := 0 } j r = .ok a
        simp only [Solidity.integerMutate, hc, if_false, getStr_of_text (by decide) hi, hs']
        exact ⟨_, rfl⟩
  case swapOperatorArguments =>
    obtain ⟨⟨left, hl⟩, ⟨right, hr⟩⟩ := hu
    simp only [Solidity.swapOperandsMutable, Bool.and_eq_true] at hmut
    have hj := isKind_isObj (solidity_hasType.1 hmut.1)
    cases h1 : takeValueForKey "leftExpression" j with
    | mk o1 j1 =>
      obtain ⟨e1, hj1, hf1⟩ := take_eq (by decide) hj h1
      rw [hl] at e1
      subst e1
      cases h2 : takeValueForKey "rightExpression" j1 with
      | mk o2 j2 =>
        obtain ⟨e2, _, _⟩ := take_eq (by decide) hj1 h2
        rw [hf1 "rightExpression", if_neg (fun h => absurd h.1 (by decide)), hr] at e2
        subst e2
        refine EndsIf.same (fun n => rfl) ?_
        · show ∃ a, Solidity.swapOperandsMutate { env with fuel := 0 } j r = .ok a
          simp only [Solidity.swapOperandsMutate, h1, h2]
          exact ⟨_, rfl⟩
  case swapLines =>
    obtain ⟨ss, i, k, a, b, hss, hik, ha, hb, hna, hnb⟩ := hu
    simp only [Solidity.swapLinesMutable, Bool.and_eq_true] at hmut
    have hj := isKind_isObj (solidity_hasType.1 hmut.1)
    have hgood : ∀ i a, ss[i]? = some a → ¬ IsKind "Return" a → Solidity.notOfType "Return" ss i = true := by
      intro i a ha hna
      unfold Solidity.notOfType
      rw [ha]
      have : Solidity.hasType "Return" a = false := by
        cases hh : Solidity.hasType "Return" a with
        | false => rfl
        | true => exact absurd (solidity_hasType.1 hh) hna
      simp [this]
    have hi : i < ss.length := (List.getElem?_eq_some_iff.1 ha).1
    have hk : k < ss.length := (List.getElem?_eq_some_iff.1 hb).1
    cases htk : takeValueForKey "statements" j with
    | mk o j1 =>
      obtain ⟨ho, _, _⟩ := take_eq (by decide) hj htk
      rw [hss] at ho
      subst ho
      refine EndsIf.congr (fun n => ?_) (((drawUntil_ends hi (hgood i a ha hna) (hfit _ _ hss) r).mono
          (F := FairSource r) And.left).bind
        (g := fun n p => (drawUntil (fun x => x != p.1 && Solidity.notOfType "Return" ss x) ss.length n p.2).bind
          (fun q => match exchange p.1 q.1 ss with
            | none => .panic
            | some (lg, sm, ss') =>
              .ok (setNodeForKey "statements" (.arr ss') j1,
                Solidity.result .swapLines (Solidity.nodeId (setNodeForKey "statements" (.arr ss') j1))
                  (some (env.digest [.index p.1, .index q.1])),
                some (Solidity.commentNode ("SwapLines Mutator: swapped line '" ++ env.pp lg ++
                  "' with line '" ++ env.pp sm ++ "'")), q.2)))
        (fun n p hp => ?_))
      · show Solidity.swapLinesMutate { env with fuel := n } j r = _
        simp only [Solidity.swapLinesMutate, htk]
        cases drawUntil (Solidity.notOfType "Return" ss) ss.length n r with
        | ok p =>
          obtain ⟨first, r1⟩ := p
          simp only [Outcome.bind]
          cases drawUntil (fun x => x != first && Solidity.notOfType "Return" ss x) ss.length n r1 with
          | ok q =>
            obtain ⟨second, r2⟩ := q
            simp only
            cases exchange first second ss <;> rfl
          | err e => rfl
          | panic => rfl
          | outOfFuel => rfl
        | err e => rfl
        | panic => rfl
        | outOfFuel => rfl
      · obtain ⟨first, r1⟩ := p
        have hf1 := drawUntil_ok hp
        have hsec : ∃ x, x < ss.length ∧ (x != first && Solidity.notOfType "Return" ss x) = true := by
          by_cases hfi : first = i
          · exact ⟨k, hk, by simp [hgood k b hb hnb, hfi, Ne.symm hik]⟩
          · exact ⟨i, hi, by simp [hgood i a ha hna, Ne.symm hfi]⟩
        obtain ⟨x, hx, hxg⟩ := hsec
        refine EndsIf.bind ((drawUntil_ends hx hxg (hfit _ _ hss) r1).mono
          (fun hF => drawUntil_fair hp hF.1)) (fun n2 q hq => ?_)
        obtain ⟨second, r2⟩ := q
        have hf2 := drawUntil_ok hq
        simp only [Bool.and_eq_true, bne_iff_ne, ne_eq] at hf2
        have := exchange_isSome (ss := ss) (fun e => hf2.2.1 e.symm : first ≠ second) hf1.1 hf2.1
        obtain ⟨⟨lg, sm, ss'⟩, he⟩ := Option.isSome_iff_exists.1 this
        simp only [he]
        exact EndsIf.const (fun _ => rfl)
  case unaryOp =>
    simp only [Solidity.unaryOpMutable, Bool.and_eq_true] at hmut
    have h2 := hmut.2
    cases hp : getBoolForKey "prefix" j with
    | none => simp [hp] at h2
    | some pre =>
      cases hop : getStrForKey "operator" j with
      | none => simp [hp, hop] at h2
      | some old =>
        obtain ⟨o, ho, hne⟩ := another_operator (Solidity.unaryOperators pre)
          (by cases pre <;> decide) (by cases pre <;> decide) old
        refine EndsIf.congr (fun n => ?_) ((chooseOther_ends ho hne r).map (fun p =>
          (setStrForKey "operator" p.1 j, Solidity.result .unaryOp (Solidity.nodeId (setStrForKey "operator" p.1 j))
            (some (env.digest [.byte (if pre then 0 else 1), .text p.1])),
            some (Solidity.commentNode ("UnaryOp Mutator: Changed '" ++ old ++ "' to '" ++ p.1 ++ "'")), p.2)))
        show Solidity.unaryOpMutate { env with fuel := n } j r = _
        simp only [Solidity.unaryOpMutate, hp, hop, Option.getD_some]
        cases chooseOther (Solidity.unaryOperators pre) old n r <;> rfl
  case require =>
    obtain ⟨a, rest, hargs⟩ := hu
    simp only [Solidity.requireMutable, Bool.and_eq_true] at hmut
    have hj := isKind_isObj (solidity_hasType.1 hmut.1.1)
    have hga : getArrayForKey "arguments" j = some (a :: rest) := by
      rw [getArray_field (by decide) hj, hargs]; rfl
    refine EndsIf.same (fun n => rfl) ?_
    · show ∃ a, Solidity.requireMutate { env with fuel := 0 } j r = .ok a
      simp only [Solidity.requireMutate, arrayField_iff.2 hargs, Solidity.takeArgument, hga,
        List.getElem?_cons_zero]
      exact ⟨_, rfl⟩
  case uncheckedBlock =>
    obtain ⟨ss, a, hss, ha, hna, hnb⟩ := hu
    simp only [Solidity.uncheckedBlockMutable, Bool.and_eq_true] at hmut
    have hj := isKind_isObj (solidity_hasType.1 hmut.1)
    obtain ⟨i, hi, hia⟩ := List.mem_iff_getElem.1 ha
    have hnot : ∀ t, ¬ IsKind t a → Solidity.hasType t a = false := by
      intro t ht
      cases hh : Solidity.hasType t a with
      | false => rfl
      | true => exact absurd (solidity_hasType.1 hh) ht
    have hg : (match ss[i]? with
        | some v => !(Solidity.hasType "Return" v || Solidity.hasType "UncheckedBlock" v)
        | none => false) = true := by
      rw [List.getElem?_eq_getElem hi, hia]
      simp [hnot _ hna, hnot _ hnb]
    cases htk : takeValueForKey "statements" j with
    | mk o j1 =>
      obtain ⟨ho, _, _⟩ := take_eq (by decide) hj htk
      rw [hss] at ho
      subst ho
      have hdraw : EndsIf (FairSource r) (fun n => Solidity.uncheckedDraw n ss r) := by
        refine EndsIf.congr (fun n => uncheckedDraw_eq n ss r)
          (((drawUntil_ends (good := fun i => match ss[i]? with
            | some v => !(Solidity.hasType "Return" v || Solidity.hasType "UncheckedBlock" v)
            | none => false) hi hg (hfit _ _ hss) r).mono (F := FairSource r) And.left).bind
            (g := fun _ p => match ss[p.1]? with
              | some v => .ok (p.1, v, ss.eraseIdx p.1, p.2)
              | none => .panic) (fun n p hp => ?_))
        have := (drawUntil_ok (i := p.1) (r' := p.2) hp).1
        simp only [List.getElem?_eq_getElem this]
        exact EndsIf.const (fun _ => rfl)
      refine EndsIf.congr (fun n => ?_) (hdraw.map (fun p =>
        let id := i64AsU64 ((p.2.1.getIntForKey "id").getD 9999999)
        let wrapped := Solidity.uncheckedBlockNode [p.2.1] id
        (setNodeForKey "statements" (.arr (p.2.2.1.insertIdx p.1 wrapped)) j1,
          Solidity.result .uncheckedBlock (some id) (some (env.digest [.index p.1])),
          some (Solidity.commentNode
            ("UncheckedBlock Mutator: Changing '" ++ env.pp p.2.1 ++ "' to '" ++ env.pp wrapped ++ "'")),
          p.2.2.2)))
      show Solidity.uncheckedBlockMutate { env with fuel := n } j r = _
      simp only [Solidity.uncheckedBlockMutate, htk]
      cases Solidity.uncheckedDraw n ss r <;> rfl
  case elimDelegateCall => exact EndsIf.const (fun n => rfl)

theorem vyper_names : ∀ ops ∈ [arithmeticOperators, logicalOperators, bitwiseOperators, comparisonOperators],
    ∀ o ∈ ops, (Vyper.nameOf o).isSome = true := by decide

theorem vyper_binary_ends (env : MutEnv) (ops : List String) (t : MutationType) {j : Json} (r : R)
    (hmut : Vyper.binaryOpMutable ops j = true)
    (hops : ∀ old, ∃ o ∈ ops, o ≠ old) (hnames : ∀ o ∈ ops, (Vyper.nameOf o).isSome = true) :
    EndsIf (FairSource r) (fun n => Vyper.binaryOpMutate { env with fuel := n } ops t j r) := by
  simp only [Vyper.binaryOpMutable, Vyper.isBinary, Bool.and_eq_true, Bool.or_eq_true] at hmut
  have hj : IsObj j := by
    rcases hmut.1 with (h | h) | h <;> exact isVyperKind_isObj (vyper_hasType.1 h)
  have h2 := hmut.2
  rw [field?_eq_field] at h2
  cases hop : field "op" j with
  | none => simp [hop] at h2
  | some op =>
    cases ht : getStrForKey "ast_type" op with
    | none => simp [hop, ht] at h2
    | some opType =>
      cases hs : Vyper.symbolOf opType with
      | none => simp [hop, ht, hs] at h2
      | some original =>
        obtain ⟨o, ho, hne⟩ := hops original
        cases htk : takeValueForKey "op" j with
        | mk v j1 =>
          obtain ⟨hv, _, _⟩ := take_eq (by decide) hj htk
          rw [hop] at hv
          subst hv
          refine EndsIf.congr (fun n => ?_) ((chooseOther_ends ho hne r).bind
            (g := fun _ p => match Vyper.nameOf p.1 with
              | none => .panic
              | some name =>
                .ok (setNodeForKey "op" (setStrForKey "ast_type" name op) j1,
                  Vyper.result t (Vyper.nodeId (setNodeForKey "op" (setStrForKey "ast_type" name op) j1))
                    (some (env.digest [.text p.1])),
                  some (Vyper.commentNode (t.toStr ++ " Mutator: Changed '" ++ env.pp j ++ "' to '" ++
                    env.pp (setNodeForKey "op" (setStrForKey "ast_type" name op) j1) ++ "'")), p.2))
            (fun n p hp => ?_))
          · unfold Vyper.binaryOpMutate
            simp only [htk, ht, hs]
            cases chooseOther ops original n r with
            | ok p =>
              simp only [Outcome.bind]
              cases Vyper.nameOf p.1 <;> rfl
            | err e => rfl
            | panic => rfl
            | outOfFuel => rfl
          · obtain ⟨name, hname⟩ := Option.isSome_iff_exists.1
              (hnames p.1 (chooseOther_ok (new := p.1) (r' := p.2) hp).1)
            simp only [hname]
            exact EndsIf.const (fun _ => rfl)

theorem vyper_bitshift_never : ∀ op, ∀ s, Vyper.symbolOf op = some s → s ∉ bitshiftOperators := by
  intro op s h
  unfold Vyper.symbolOf at h
  have hmem : (op, s) ∈ Vyper.operatorMap := by
    rw [List.lookup_eq_some_iff] at h
    obtain ⟨l1, l2, he, _⟩ := h
    rw [he]; simp
  revert hmem
  have : ∀ p ∈ Vyper.operatorMap, p.2 ∉ bitshiftOperators := by decide
  exact fun hm => this _ hm

theorem takeBytes3 {p rest : String} (hp : p ∈ ["boo", "uin", "int", "str"]) :
    takeBytes 3 (p ++ rest) = some p := by
  have : ∀ (a b c : Char) (cs : List Char), a.utf8Size = 1 → b.utf8Size = 1 → c.utf8Size = 1 →
      splitAtByte (a :: b :: c :: cs) 3 = some ([a, b, c], cs) := by
    intro a b c cs ha hb hc
    simp [splitAtByte, ha, hb, hc]
  simp only [List.mem_cons, List.not_mem_nil, or_false] at hp
  unfold takeBytes
  rw [String.toList_append]
  rcases hp with rfl | rfl | rfl | rfl
  · show (splitAtByte ('b' :: 'o' :: 'o' :: rest.toList) 3).map _ = _
    rw [this _ _ _ _ (by decide) (by decide) (by decide)]; rfl
  · show (splitAtByte ('u' :: 'i' :: 'n' :: rest.toList) 3).map _ = _
    rw [this _ _ _ _ (by decide) (by decide) (by decide)]; rfl
  · show (splitAtByte ('i' :: 'n' :: 't' :: rest.toList) 3).map _ = _
    rw [this _ _ _ _ (by decide) (by decide) (by decide)]; rfl
  · show (splitAtByte ('s' :: 't' :: 'r' :: rest.toList) 3).map _ = _
    rw [this _ _ _ _ (by decide) (by decide) (by decide)]; rfl

theorem replacementStatement_isOk (env : MutEnv) (j : Json) (r : R)
    (hu : ∀ ret id, j.field "returns" = some ret → IsVyperKind "Name" ret → TextField "id" ret id →
      ∃ p rest, p ∈ ["boo", "uin", "int", "str"] ∧ id = p ++ rest) :
    ∃ a, Vyper.replacementStatement env j r = .ok a := by
  unfold Vyper.replacementStatement
  rw [field?_eq_field]
  cases hr : field "returns" j with
  | none => exact ⟨_, rfl⟩
  | some ret =>
    simp only
    cases ht : getStrForKey "ast_type" ret with
    | none => exact ⟨_, rfl⟩
    | some t =>
      simp only
      by_cases hn : t = "Name"
      · subst hn
        simp only [if_true]
        have hk : IsVyperKind "Name" ret := vyper_hasType.1 (by simp [Vyper.hasType, ht])
        cases hid : getStrForKey "id" ret with
        | none => exact ⟨_, rfl⟩
        | some id =>
          obtain ⟨p, rest, hp, rfl⟩ := hu ret id hr hk ((getStr_iff (by decide) (isVyperKind_isObj hk)).1 hid)
          simp only [takeBytes3 hp]
          simp only [List.mem_cons, List.not_mem_nil, or_false] at hp
          rcases hp with rfl | rfl | rfl | rfl <;>
            simp only [show ("uin" : String) ≠ "boo" by decide, show ("int" : String) ≠ "boo" by decide,
              show ("str" : String) ≠ "boo" by decide, show ("int" : String) ≠ "uin" by decide,
              show ("str" : String) ≠ "uin" by decide, show ("str" : String) ≠ "int" by decide,
              if_true, if_false] <;> exact ⟨_, rfl⟩
      · simp only [hn, if_false]
        by_cases hp : t = "Pass"
        · simp only [hp, if_true]; exact ⟨_, rfl⟩
        · simp only [hp, if_false]
          split
          · split <;> exact ⟨_, rfl⟩
          · exact ⟨_, rfl⟩

/-- The same for Vyper: every usable mutable node is mutated. -/
theorem C30_vyper_partial (env : MutEnv) (t : MutationType) {j : Json} (r : R) {m : Mutator R}
    (hm : Vyper.mutatorFor env t = some m) (hmut : m.isMutable j = true) (hu : VyperUsable t j)
    (hfit : FitsMemory j) : EndsIf (FairSource r) (vyperMutate env t j r) := by
  have hgood : ∀ (ss : List Json) i a, ss[i]? = some a → ¬ IsVyperKind "Return" a →
      Vyper.notOfType "Return" ss i = true := by
    intro ss i a ha hna
    unfold Vyper.notOfType
    rw [ha]
    have : Vyper.hasType "Return" a = false := by
      cases hh : Vyper.hasType "Return" a with
      | false => rfl
      | true => exact absurd (vyper_hasType.1 hh) hna
    simp [this]
  cases t <;> cases hm
  case arithmeticBinaryOp =>
    exact vyper_binary_ends env _ _ r hmut (another_operator _ (by decide) (by decide)) (vyper_names _ (by simp))
  case logicalBinaryOp =>
    exact vyper_binary_ends env _ _ r hmut (another_operator _ (by decide) (by decide)) (vyper_names _ (by simp))
  case bitwiseBinaryOp =>
    exact vyper_binary_ends env _ _ r hmut (another_operator _ (by decide) (by decide)) (vyper_names _ (by simp))
  case comparisonBinaryOp =>
    exact vyper_binary_ends env _ _ r hmut (another_operator _ (by decide) (by decide)) (vyper_names _ (by simp))
  case bitshiftBinaryOp =>
    exfalso
    simp only [Vyper.binaryOpMutable, Bool.and_eq_true] at hmut
    have h2 := hmut.2
    split at h2
    · rename_i s hs
      obtain ⟨op, _, hop⟩ := Option.bind_eq_some_iff.1 hs
      exact vyper_bitshift_never op s hop (by simpa using h2)
    · cases h2
  case assignment =>
    obtain ⟨old, hold⟩ := hu
    have hj := isVyperKind_isObj (vyper_hasType.1 hmut)
    have hval : ∃ v ps r', Vyper.assignmentValue env r = .ok (v, ps, r') := by
      unfold Vyper.assignmentValue
      simp only
      split
      · obtain ⟨v, r', hg⟩ := genRange_isOk (lo := -170141183460469231731687303715884105728)
          (hi := 170141183460469231731687303715884105727) (by decide) (nextU64 r).2
        rw [hg]
        exact ⟨_, _, _, rfl⟩
      · split
        · obtain ⟨v, r', hg⟩ := genRange_isOk (lo := 0)
            (hi := 340282366920938463463374607431768211455) (by decide) (nextU64 r).2
          rw [hg]
          exact ⟨_, _, _, rfl⟩
        · split <;> exact ⟨_, _, _, rfl⟩
    obtain ⟨v, ps, r', hv⟩ := hval
    have hv' : Vyper.assignmentValue { env with fuel := 0 } r = .ok (v, ps, r') := hv
    have hf : field "value" (setNodeForKey "value" v j) = some v := by
      rw [field_setNodeForKey (by decide) _ _ hj, if_pos rfl]
    refine EndsIf.same (fun n => rfl) ?_
    show ∃ a, Vyper.assignmentMutate { env with fuel := 0 } j r = .ok a
    simp only [Vyper.assignmentMutate, field?_eq_field, hold, hv', hf]
    exact ⟨_, rfl⟩
  case deleteStatement =>
    simp only [Vyper.deleteStatementMutable, Bool.and_eq_true, Bool.or_eq_true] at hmut
    have hj : IsObj j := by
      rcases hmut.1 with ((h | h) | h) | h <;> exact isVyperKind_isObj (vyper_hasType.1 h)
    have hmut2 := hmut.2
    cases ha : Vyper.arrayField "body" j with
    | none => simp [ha] at hmut2
    | some ss =>
      have hne : ss.length ≠ 0 := by
        intro h0
        rw [ha, List.length_eq_zero_iff.1 h0] at hmut2
        simp at hmut2
      cases htk : takeValueForKey "body" j with
      | mk o j1 =>
        obtain ⟨ho, _, hf1⟩ := take_eq (by decide) hj htk
        rw [vyper_arrayField_iff.1 ha] at ho
        subst ho
        have hlt : (nextU64 r).1 % ss.length < ss.length := Nat.mod_lt _ (Nat.pos_of_ne_zero hne)
        have hlen : ∀ v, ((ss.eraseIdx ((nextU64 r).1 % ss.length)).insertIdx ((nextU64 r).1 % ss.length)
            v).length = ss.length := by
          intro v
          rw [eraseIdx_insertIdx_self _ _ _ hlt]
          simp
        have hextra : ∃ more ps r2, (if ss.length = 1 then
            Vyper.replacementStatement { env with fuel := 0 } j1 (nextU64 r).2
            else .ok ([], [], (nextU64 r).2)) = .ok (more, ps, r2) := by
          split
          · rename_i h1
            obtain ⟨s, rfl⟩ := List.length_eq_one_iff.1 h1
            obtain ⟨⟨more, ps, r2⟩, h⟩ := replacementStatement_isOk { env with fuel := 0 } j1 (nextU64 r).2
              (fun ret id hret => hu s (vyper_arrayField_iff.1 ha) ret id (by
                rw [hf1 "returns", if_neg (fun h => absurd h.1 (by decide))] at hret
                exact hret))
            exact ⟨more, ps, r2, h⟩
          · exact ⟨_, _, _, rfl⟩
        obtain ⟨more, ps, r2, he⟩ := hextra
        refine EndsIf.same (fun n => rfl) ?_
        show ∃ a, Vyper.deleteStatementMutate { env with fuel := 0 } j r = .ok a
        simp only [Vyper.deleteStatementMutate, htk, drawIndex_isOk hne, List.getElem?_eq_getElem hlt, hlen, he]
        exact ⟨_, rfl⟩
  case functionCall =>
    obtain ⟨args, a, hargs, ha, hna, hnb⟩ := hu
    obtain ⟨i, hi, hia⟩ := List.mem_iff_getElem.1 ha
    have hne : ∀ s, ¬ TextField "nodeType" a s → getStrForKey "nodeType" a ≠ some s :=
      fun s hs hh => hs (getStr_text (by decide) (by decide) hh)
    have hg : Vyper.acceptableArgument args i = true := by
      unfold Vyper.acceptableArgument
      rw [List.getElem?_eq_getElem hi, hia]
      simp [hne _ hna, hne _ hnb]
    refine EndsIf.congr (fun n => ?_) (((drawUntil_ends hi hg (hfit _ _ hargs) r).mono (F := FairSource r)
        And.left).bind
      (g := fun _ p => match args[p.1]? with
        | none => .panic
        | some j' => .ok (j', Vyper.result .functionCall
            (if j'.asObj.isSome then Vyper.nodeId j' else none) (some (env.digest [.index p.1])),
            some (Vyper.commentNode
              ("FunctionCall Mutator: replaced '" ++ env.pp j ++ "' with '" ++ env.pp j' ++ "'")), p.2))
      (fun n p hp => ?_))
    · show Vyper.functionCallMutate { env with fuel := n } j r = _
      simp only [Vyper.functionCallMutate, vyper_arrayField_iff.2 hargs]
      cases drawUntil (Vyper.acceptableArgument args) args.length n r <;> rfl
    · have := (drawUntil_ok (i := p.1) (r' := p.2) hp).1
      simp only [List.getElem?_eq_getElem this]
      exact EndsIf.const (fun _ => rfl)
  case swapFunctionArguments =>
    simp only [Vyper.swapArgumentsMutable, Bool.and_eq_true] at hmut
    have hj := isVyperKind_isObj (vyper_hasType.1 hmut.1)
    have hmut2 := hmut.2
    cases ha : Vyper.arrayField "args" j with
    | none => simp [ha] at hmut2
    | some args =>
      have hl : args.length ≥ 2 := by simpa [ha] using hmut2
      cases htk : takeValueForKey "args" j with
      | mk o j1 =>
        obtain ⟨ho, _, _⟩ := take_eq (by decide) hj htk
        rw [vyper_arrayField_iff.1 ha] at ho
        subst ho
        have hdraw : EndsIf (FairSource r) (fun n => Vyper.swapArgumentsDraw { env with fuel := n } args r) := by
          unfold Vyper.swapArgumentsDraw
          by_cases h2 : args.length = 2
          · simp only [h2, if_true]
            exact EndsIf.const (fun _ => rfl)
          · simp only [h2, if_false, show args.length > 2 by omega, if_true,
              drawIndex_isOk (show args.length ≠ 0 by omega)]
            have hother : ∃ x, x < args.length ∧ (x != (nextU64 r).1 % args.length) = true := by
              by_cases h0 : (nextU64 r).1 % args.length = 0
              · exact ⟨1, by omega, by simp [h0]⟩
              · exact ⟨0, by omega, by simp; omega⟩
            obtain ⟨x, hx, hxg⟩ := hother
            refine EndsIf.congr (fun n => ?_) (((drawUntil_ends (good := fun i => i !=
              (nextU64 r).1 % args.length) hx hxg (hfit _ _ (vyper_arrayField_iff.1 ha)) (nextU64 r).2).mono
              (F := FairSource r) (fun hF => FairU64.next hF.1)).map (fun p =>
                (some ((nextU64 r).1 % args.length, p.1),
                  [.index ((nextU64 r).1 % args.length), .index p.1], p.2)))
            cases drawUntil (fun i => i != (nextU64 r).1 % args.length) args.length n (nextU64 r).2 <;> rfl
        refine EndsIf.congr (fun n => ?_) (hdraw.bind (g := fun _ p => match p with
          | (some (i1, i2), parts, r') => match args[i1]?, args[i2]? with
            | some a1, some a2 =>
              .ok (setNodeForKey "args" (.arr ((args.set i1 a2).set i2 a1)) j1,
                Vyper.result .swapFunctionArguments
                  (Vyper.nodeId (setNodeForKey "args" (.arr ((args.set i1 a2).set i2 a1)) j1))
                  (some (env.digest parts)),
                some (Vyper.commentNode ("SwapFunctionArguments Mutator: swapped '" ++ env.pp a1 ++
                  "', for '" ++ env.pp a2 ++ "'")), r')
            | _, _ => .panic
          | (none, parts, r') =>
            .ok (j1, Vyper.result .swapFunctionArguments (Vyper.nodeId j1) (some (env.digest parts)), none, r'))
          (fun n p hp => ?_))
        · show Vyper.swapArgumentsMutate { env with fuel := n } j r = _
          simp only [Vyper.swapArgumentsMutate, htk]
          cases Vyper.swapArgumentsDraw { env with fuel := n } args r with
          | ok p =>
            obtain ⟨o, parts, r'⟩ := p
            cases o with
            | none => rfl
            | some q =>
              obtain ⟨i1, i2⟩ := q
              simp only [Outcome.bind]
              cases args[i1]? <;> cases args[i2]? <;> rfl
          | err e => rfl
          | panic => rfl
          | outOfFuel => rfl
        · obtain ⟨o, parts, r'⟩ := p
          obtain ⟨i, k, rfl, _, hi, hk⟩ := swapArgumentsDraw_ok hl hp
          simp only [List.getElem?_eq_getElem hi, List.getElem?_eq_getElem hk]
          exact EndsIf.const (fun _ => rfl)
  case ifStatement =>
    simp only [Vyper.ifMutable, Bool.and_eq_true] at hmut
    have hj := isVyperKind_isObj (vyper_hasType.1 hmut.1)
    have hmut2 := hmut.2
    rw [field?_eq_field] at hmut2
    cases hc : field "test" j with
    | none => simp [hc] at hmut2
    | some old =>
      cases htk : takeValueForKey "test" j with
      | mk o j1 =>
        obtain ⟨ho, _, _⟩ := take_eq (by decide) hj htk
        rw [hc] at ho
        subst ho
        refine EndsIf.same (fun n => rfl) ?_
        show ∃ a, Vyper.ifMutate { env with fuel := 0 } j r = .ok a
        simp only [Vyper.ifMutate, field?_eq_field, hc, htk]
        split
        · exact ⟨_, rfl⟩
        · split <;> exact ⟨_, rfl⟩
  case integer =>
    obtain ⟨i, h1, h2, hi⟩ := hu
    have hstep : ∃ k, addI64 env.overflowChecks i (if (nextU64 r).1 % 3 = 0 then 1 else -1) = some k := by
      unfold addI64
      simp only
      rw [if_pos (by split <;> omega)]
      exact ⟨_, rfl⟩
    obtain ⟨k, hk⟩ := hstep
    have hval : (field "value" j).bind asI64 = some i := by
      rw [hi]
      simp only [Option.bind_some, asI64]
      rw [if_pos (by omega)]
    refine EndsIf.same (fun n => rfl) ?_
    show ∃ a, Vyper.integerMutate { env with fuel := 0 } j r = .ok a
    simp only [Vyper.integerMutate, field?_eq_field, hval, hk]
    split <;> exact ⟨_, rfl⟩
  case swapOperatorArguments =>
    have key : ∀ t, t = "BinOp" ∨ t = "Compare" → IsVyperKind t j →
        EndsIf (FairSource r) (vyperMutate env .swapOperatorArguments j r) := by
      intro t ht hk
      refine EndsIf.same (fun n => rfl) ?_
      show ∃ a, Vyper.swapOperandsMutate { env with fuel := 0 } j r = .ok a
      simp only [Vyper.swapOperandsMutate, getStr_of_text (by decide) hk]
      rw [if_pos ht]
      split <;> exact ⟨_, rfl⟩
    rcases hu with h | h
    · exact key _ (Or.inl rfl) h
    · exact key _ (Or.inr rfl) h
  case swapLines =>
    obtain ⟨ss, i, k, a, b, hss, hik, ha, hb, hna, hnb⟩ := hu
    simp only [Vyper.swapLinesMutable, Bool.and_eq_true, Bool.or_eq_true] at hmut
    have hj : IsObj j := by
      rcases hmut.1 with (h | h) | h <;> exact isVyperKind_isObj (vyper_hasType.1 h)
    have hi : i < ss.length := (List.getElem?_eq_some_iff.1 ha).1
    have hk : k < ss.length := (List.getElem?_eq_some_iff.1 hb).1
    cases htk : takeValueForKey "body" j with
    | mk o j1 =>
      obtain ⟨ho, _, _⟩ := take_eq (by decide) hj htk
      rw [hss] at ho
      subst ho
      refine EndsIf.congr (fun n => ?_) (((drawUntil_ends hi (hgood ss i a ha hna) (hfit _ _ hss) r).mono
          (F := FairSource r) And.left).bind
        (g := fun n p => (drawUntil (fun x => x != p.1 && Vyper.notOfType "Return" ss x) ss.length n p.2).bind
          (fun q => match exchange p.1 q.1 ss with
            | none => .panic
            | some (lg, sm, ss') =>
              .ok (setNodeForKey "body" (.arr ss') j1,
                Vyper.result .swapLines (Vyper.nodeId (setNodeForKey "body" (.arr ss') j1))
                  (some (env.digest [.index p.1, .index q.1])),
                some (Vyper.commentNode ("SwapLines Mutator: Swapped line '" ++ env.pp lg ++
                  "' with '" ++ env.pp sm ++ "'")), q.2)))
        (fun n p hp => ?_))
      · show Vyper.swapLinesMutate { env with fuel := n } j r = _
        simp only [Vyper.swapLinesMutate, htk]
        cases drawUntil (Vyper.notOfType "Return" ss) ss.length n r with
        | ok p =>
          obtain ⟨first, r1⟩ := p
          simp only [Outcome.bind]
          cases drawUntil (fun x => x != first && Vyper.notOfType "Return" ss x) ss.length n r1 with
          | ok q =>
            obtain ⟨second, r2⟩ := q
            simp only
            cases exchange first second ss <;> rfl
          | err e => rfl
          | panic => rfl
          | outOfFuel => rfl
        | err e => rfl
        | panic => rfl
        | outOfFuel => rfl
      · obtain ⟨first, r1⟩ := p
        have hf1 := drawUntil_ok hp
        have hsec : ∃ x, x < ss.length ∧ (x != first && Vyper.notOfType "Return" ss x) = true := by
          by_cases hfi : first = i
          · exact ⟨k, hk, by simp [hgood ss k b hb hnb, hfi, Ne.symm hik]⟩
          · exact ⟨i, hi, by simp [hgood ss i a ha hna, Ne.symm hfi]⟩
        obtain ⟨x, hx, hxg⟩ := hsec
        refine EndsIf.bind ((drawUntil_ends hx hxg (hfit _ _ hss) r1).mono
          (fun hF => drawUntil_fair hp hF.1)) (fun n2 q hq => ?_)
        obtain ⟨second, r2⟩ := q
        have hf2 := drawUntil_ok hq
        simp only [Bool.and_eq_true, bne_iff_ne, ne_eq] at hf2
        have := exchange_isSome (ss := ss) (fun e => hf2.2.1 e.symm : first ≠ second) hf1.1 hf2.1
        obtain ⟨⟨lg, sm, ss'⟩, he⟩ := Option.isSome_iff_exists.1 this
        simp only [he]
        exact EndsIf.const (fun _ => rfl)
  case unaryOp =>
    obtain ⟨v, hv⟩ := hu
    have hj := isVyperKind_isObj (vyper_hasType.1 hmut)
    cases htk : takeValueForKey "operand" j with
    | mk o j1 =>
      obtain ⟨ho, _, _⟩ := take_eq (by decide) hj htk
      rw [hv] at ho
      subst ho
      refine EndsIf.same (fun n => rfl) ?_
      show ∃ a, Vyper.unaryOpMutate { env with fuel := 0 } j r = .ok a
      simp only [Vyper.unaryOpMutate, htk]
      exact ⟨_, rfl⟩

/-! ### The random sources of the theorems exist -/

theorem cycleRand_fairSource (k : Nat) : FairSource (⟨k⟩ : CycleRand) := by
  have h1 : ∀ m, u64After (⟨k⟩ : CycleRand) m = ⟨k + m⟩ := by
    intro m
    induction m with
    | zero => rfl
    | succ m ih => unfold u64After; rw [ih]; rfl
  have h2 : ∀ n m, belowAfter n (⟨k⟩ : CycleRand) m = ⟨k + m⟩ := by
    intro n m
    induction m with
    | zero => rfl
    | succ m ih => unfold belowAfter; rw [ih]; rfl
  have key : ∀ K i n, i < K → ∃ m, n ≤ m ∧ (k + m) % K = i := by
    intro K i n hi
    have hk : n + k + 1 ≤ K * (n + k + 1) := Nat.le_mul_of_pos_left _ (by omega)
    refine ⟨i + K * (n + k + 1) - k, by omega, ?_⟩
    rw [show k + (i + K * (n + k + 1) - k) = i + K * (n + k + 1) by omega, Nat.add_mul_mod_self_left]
    exact Nat.mod_eq_of_lt hi
  constructor
  · intro len i hi hl n
    obtain ⟨m, hm, he⟩ := key (2 ^ 64) i n (by omega)
    refine ⟨m, hm, ?_⟩
    rw [h1]
    show ((k + m) % 2 ^ 64) % len = i
    rw [he]
    exact Nat.mod_eq_of_lt hi
  · intro K i hi n
    obtain ⟨m, hm, he⟩ := key K i n hi
    exact ⟨m, hm, by rw [h2]; exact he⟩

theorem mem_of_objGet {k : String} {v : Json} : ∀ {kvs : List (String × Json)}, objGet k kvs = some v → (k, v) ∈ kvs
  | [], h => by cases h
  | (k', v') :: rest, h => by
    unfold objGet at h
    split at h
    · rename_i he
      cases h
      subst he
      exact List.mem_cons_self
    · exact List.mem_cons_of_mem _ (mem_of_objGet h)

open DemoNodes Sol in
/-- The hypotheses hold for a block of three statements, and the mutation ends. -/
example : ∃ N a, ∀ n, N ≤ n →
    solidityMutate env .swapLines (block [stmt 1, stmt 2, ret]) (⟨0⟩ : CycleRand) n = .ok a := by
  refine (C30_solidity_partial (R := CycleRand) env .swapLines ⟨0⟩ rfl (by decide +kernel)
    ⟨[stmt 1, stmt 2, ret], 0, 1, stmt 1, stmt 2, rfl, by decide, rfl, rfl, ?_, ?_⟩ ?_).2
    (cycleRand_fairSource 0)
  · intro h; exact absurd h (by unfold IsKind TextField; decide +kernel)
  · intro h; exact absurd h (by unfold IsKind TextField; decide +kernel)
  · intro k xs hk
    have : ∀ p ∈ [("id", id' 13), ("nodeType", Json.str "Block"), ("statements", .arr [stmt 1, stmt 2, ret])],
        p.2 = .arr xs → xs.length ≤ 2 ^ 64 := by
      intro p hp
      simp only [List.mem_cons, List.not_mem_nil, or_false] at hp
      rcases hp with rfl | rfl | rfl
      · intro h; cases h
      · intro h; cases h
      · intro h; cases h; decide
    exact this (k, _) (mem_of_objGet hk) rfl

/-! ### Mutable nodes that are not mutated -/

/-- A mutable node whose mutation crashes: an assignment to an `int256`, and a literal `0xff` when the draw
says to add one. -/
theorem C30_solidity_crash_counterexample :
    (∃ (m : Mutator ListRand) (j : Json) (r : ListRand),
      Solidity.mutatorFor DemoNodes.env .assignment = some m ∧ m.isMutable j = true ∧
      HasTypeText "int256" j ∧ m.mutate j r = .panic) ∧
    (∃ (m : Mutator ListRand) (j : Json) (r : ListRand),
      Solidity.mutatorFor DemoNodes.env .integer = some m ∧ m.isMutable j = true ∧
      TextField "value" j "0xff" ∧ m.mutate j r = .panic) :=
  ⟨⟨_, DemoNodes.Sol.assign "int256" (DemoNodes.Sol.var 1 "a" "int256"), ⟨[]⟩, rfl, by decide +kernel,
    ⟨_, rfl, rfl⟩, rfl⟩,
   ⟨_, DemoNodes.Sol.number 1 "0xff", ⟨[0]⟩, rfl, by decide +kernel, rfl, rfl⟩⟩

/-- A mutable node whose mutation is an error: a `require` without arguments member. -/
theorem C30_solidity_error_counterexample : ∃ (m : Mutator ListRand) (j : Json) (r : ListRand) (e : Err),
    Solidity.mutatorFor DemoNodes.env .require = some m ∧ m.isMutable j = true ∧ m.mutate j r = .err e :=
  ⟨_, .obj [("expression", DemoNodes.Sol.var 10 "require" "function"), ("nodeType", .str "FunctionCall")], ⟨[]⟩, _,
    rfl, by decide +kernel, rfl⟩

/-- `f(1, 2)`. -/
def literalCall : Json := DemoNodes.Sol.call "f" [DemoNodes.Sol.number 1 "1", DemoNodes.Sol.number 2 "2"]

/-- Two returns and another statement. -/
def twoReturns : Json := DemoNodes.Sol.block [DemoNodes.Sol.ret, DemoNodes.Sol.ret, DemoNodes.Sol.stmt 1]

/-- Two returns. -/
def onlyReturns : Json := DemoNodes.Sol.block [DemoNodes.Sol.ret, DemoNodes.Sol.ret]

/-- Mutable nodes whose mutation never ends, whatever is drawn: a call whose two arguments are literals, a
block of two returns and one other statement (swapping lines), a block of two returns (unchecked block). -/
theorem C30_solidity_endless_counterexample (env : MutEnv) (r : R) :
    (∃ (m : Mutator R) (j : Json), Solidity.mutatorFor env .functionCall = some m ∧ m.isMutable j = true ∧
      ∀ n, solidityMutate env .functionCall j r n = .outOfFuel) ∧
    (∃ (m : Mutator R) (j : Json), Solidity.mutatorFor env .swapLines = some m ∧ m.isMutable j = true ∧
      ∀ n, solidityMutate env .swapLines j r n = .outOfFuel) ∧
    (∃ (m : Mutator R) (j : Json), Solidity.mutatorFor env .uncheckedBlock = some m ∧ m.isMutable j = true ∧
      ∀ n, solidityMutate env .uncheckedBlock j r n = .outOfFuel) := by
  refine ⟨⟨_, literalCall, rfl,
      (show Solidity.functionCallMutable literalCall = true by decide +kernel), fun n => ?_⟩,
    ⟨_, twoReturns, rfl,
      (show Solidity.swapLinesMutable twoReturns = true by decide +kernel), fun n => ?_⟩,
    ⟨_, onlyReturns, rfl,
      (show Solidity.uncheckedBlockMutable onlyReturns = true by decide +kernel), fun n => ?_⟩⟩
  · show Solidity.functionCallMutate { env with fuel := n } literalCall r = .outOfFuel
    have ha : Solidity.arrayField "arguments" literalCall = some [DemoNodes.Sol.number 1 "1", DemoNodes.Sol.number 2 "2"] := rfl
    simp only [Solidity.functionCallMutate, ha]
    rw [drawUntil_none (by decide) (by decide +kernel)]
  · show Solidity.swapLinesMutate { env with fuel := n } twoReturns r = .outOfFuel
    have ha : takeValueForKey "statements" twoReturns = (some (.arr [DemoNodes.Sol.ret, DemoNodes.Sol.ret, DemoNodes.Sol.stmt 1]),
        .obj [("id", DemoNodes.Sol.id' 13), ("nodeType", .str "Block"), ("statements", .null)]) := rfl
    simp only [Solidity.swapLinesMutate, ha]
    rcases drawUntil_cases (Solidity.notOfType "Return" [DemoNodes.Sol.ret, DemoNodes.Sol.ret,
      DemoNodes.Sol.stmt 1]) (len := 3) (by decide) n r with ⟨i, r', h⟩ | h
    · have h' := h
      simp only [List.length_cons, List.length_nil, Nat.reduceAdd, h']
      have hi := drawUntil_ok h
      have : i = 2 := by
        have : ∀ i, i < 3 → Solidity.notOfType "Return" [DemoNodes.Sol.ret, DemoNodes.Sol.ret,
          DemoNodes.Sol.stmt 1] i = true → i = 2 := by decide +kernel
        exact this i hi.1 hi.2
      subst this
      rw [drawUntil_none (by decide) (by decide +kernel)]
    · simp only [List.length_cons, List.length_nil, Nat.reduceAdd, h]
  · show Solidity.uncheckedBlockMutate { env with fuel := n } onlyReturns r = .outOfFuel
    have ha : takeValueForKey "statements" onlyReturns =
      (some (.arr [DemoNodes.Sol.ret, DemoNodes.Sol.ret]),
        .obj [("id", DemoNodes.Sol.id' 13), ("nodeType", .str "Block"), ("statements", .null)]) := rfl
    simp only [Solidity.uncheckedBlockMutate, ha, uncheckedDraw_eq]
    rw [drawUntil_none (by decide) (by decide +kernel)]
    rfl

/-- Vyper: deleting the only statement of a function that returns an address is an error, and asking
whether a node with a shift operator is mutable crashes. -/
theorem C30_vyper_counterexample :
    (∃ (m : Mutator ListRand) (j : Json) (r : ListRand) (e : Err),
      Vyper.mutatorFor DemoNodes.env .deleteStatement = some m ∧ m.isMutable j = true ∧ m.mutate j r = .err e) ∧
    (∃ j op, IsVyperKind "BinOp" j ∧ j.field "op" = some op ∧ IsVyperKind "LShift" op ∧
      Vyper.swapOperandsTest j = .panic) :=
  ⟨⟨_, DemoNodes.Vy.func [DemoNodes.Vy.ret] (DemoNodes.Vy.name 3 "address"), ⟨[]⟩, _, rfl, by decide +kernel, rfl⟩,
   ⟨DemoNodes.Vy.binary "BinOp" "LShift" (DemoNodes.Vy.name 1 "a") (DemoNodes.Vy.name 2 "b"), _, rfl, rfl, rfl, rfl⟩⟩

end Mutagenyx
