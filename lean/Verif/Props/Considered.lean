import Verif.Spec.Considered
import Verif.Proofs.MutatorNodes
import Verif.Spec.DemoNodes
import Verif.Props.Visitor

/-!
# Each algorithm considers exactly the nodes of its kind (C69)
-/

namespace Mutagenyx
open Json

variable {R : Type} [Rand R]

namespace Considered

/-- A test on an optional value that fails when there is none. -/
theorem opt_iff {α : Type} {o : Option α} {F : Option α → Bool} {P : α → Prop} (h0 : F none = false)
    (h : ∀ s, F (some s) = true ↔ P s) : F o = true ↔ ∃ s, o = some s ∧ P s := by
  cases o with
  | none => simp [h0]
  | some s => simp [h s]

theorem text_iff {k : String} (hk : PlainKey k) (hi : parseIndex k = none) {j : Json} {P : String → Prop} :
    (∃ s, getStrForKey k j = some s ∧ P s) ↔ ∃ s, TextField k j s ∧ P s :=
  exists_congr fun _ => and_congr_left fun _ => ⟨getStr_text hk hi, getStr_of_text hk⟩

theorem list_iff {k : String} {j : Json} {P : List Json → Prop} :
    (∃ s, Solidity.arrayField k j = some s ∧ P s) ↔ ∃ s, ListField k j s ∧ P s :=
  exists_congr fun _ => and_congr_left fun _ => arrayField_iff

/-- The beginning of a text, cut at a byte. -/
theorem takeBytes_three {a b c : Char} (ha : a.utf8Size = 1) (hb : b.utf8Size = 1) (hc : c.utf8Size = 1)
    {s : String} : takeBytes 3 s = some (String.ofList [a, b, c]) ↔ BeginsWith (String.ofList [a, b, c]) s := by
  have hpos : ∀ x : Char, 0 < x.utf8Size := Char.utf8Size_pos
  have key : ∀ cs : List Char, (splitAtByte cs 3).map (fun p => p.1) = some [a, b, c] ↔
      ∃ rest, cs = a :: b :: c :: rest := by
    intro cs
    constructor
    · intro h
      have gen : ∀ (cs : List Char) (n : Nat) (l : List Char),
          (splitAtByte cs n).map (fun p => p.1) = some l → ∃ rest, cs = l ++ rest := by
        intro cs
        induction cs with
        | nil =>
          intro n l h
          cases n with
          | zero => simp [splitAtByte] at h; subst h; exact ⟨[], rfl⟩
          | succ n => simp [splitAtByte] at h
        | cons x xs ih =>
          intro n l h
          cases n with
          | zero => simp [splitAtByte] at h; subst h; exact ⟨x :: xs, rfl⟩
          | succ n =>
            simp only [splitAtByte] at h
            split at h
            · cases hs : splitAtByte xs (n + 1 - x.utf8Size) with
              | none => simp [hs] at h
              | some p =>
                obtain ⟨u, w⟩ := p
                simp only [hs, Option.map_some, Option.some.injEq] at h
                subst h
                obtain ⟨rest, hr⟩ := ih _ u (by rw [hs]; rfl)
                exact ⟨rest, by rw [hr]; rfl⟩
            · simp at h
      obtain ⟨rest, h⟩ := gen cs 3 _ h
      exact ⟨rest, h⟩
    · rintro ⟨rest, rfl⟩
      simp [splitAtByte, ha, hb, hc]
  have hk := key s.toList
  unfold takeBytes BeginsWith
  constructor
  · intro h
    obtain ⟨rest, hr⟩ := hk.1 (by
      cases hs : splitAtByte s.toList 3 with
      | none => simp [hs] at h
      | some p =>
        simp only [hs, Option.map_some, Option.some.injEq] at h
        have := congrArg String.toList h
        simp only [String.toList_ofList] at this
        simp [this])
    refine ⟨String.ofList rest, ?_⟩
    apply String.toList_inj.1
    rw [String.toList_append, String.toList_ofList, String.toList_ofList, hr]
    rfl
  · rintro ⟨rest, rfl⟩
    have := hk.2 ⟨rest.toList, by rw [String.toList_append, String.toList_ofList]; rfl⟩
    revert this
    cases splitAtByte (String.ofList [a, b, c] ++ rest).toList 3 with
    | none => simp
    | some p => simp only [Option.map_some, Option.some.injEq]; rintro h; rw [h]

theorem any_kind {t : String} {ss : List Json} :
    ss.any (Solidity.hasType t) = true ↔ ∃ s ∈ ss, IsKind t s := by
  simp only [List.any_eq_true, solidity_hasType]

/-- An operator is in one of the lists of the model exactly when it is in the class. -/
theorem solidity_operation {ops cls : List String} (h : ∀ o, o ∈ ops ↔ o ∈ cls) {j : Json} :
    Solidity.binaryOpMutable ops j = true ↔
      IsKind "BinaryOperation" j ∧ ∃ op ∈ cls, TextField "operator" j op := by
  unfold Solidity.binaryOpMutable
  rw [Bool.and_eq_true, solidity_hasType]
  refine and_congr_right fun _ => ?_
  rw [show (∃ op ∈ cls, TextField "operator" j op) ↔ ∃ op, TextField "operator" j op ∧ op ∈ cls from
    exists_congr fun _ => and_comm, ← text_iff (by decide) (by decide)]
  refine opt_iff (F := fun o => match o with | some op => ops.contains op | none => false) rfl fun s => ?_
  rw [List.contains_iff_mem, h s]

/-- Some type text occurs twice: two positions with that text. -/
theorem twice_iff {args : List Json} :
    (decide (args.length > 1) && (args.filterMap Solidity.argumentType).any fun s =>
      decide ((args.filterMap Solidity.argumentType).count s ≥ 2)) = true ↔
    ∃ (i k : Nat) (a b : Json) (s : String), i < k ∧ args[i]? = some a ∧ args[k]? = some b ∧
      HasTypeText s a ∧ HasTypeText s b := by
  have one : ∀ (s : String) (xs : List Json), 1 ≤ (xs.filterMap Solidity.argumentType).count s ↔
      ∃ (i : Nat) (a : Json), xs[i]? = some a ∧ HasTypeText s a := by
    intro s xs
    rw [show (1 ≤ (xs.filterMap Solidity.argumentType).count s) ↔
      s ∈ xs.filterMap Solidity.argumentType from List.count_pos_iff]
    rw [List.mem_filterMap]
    constructor
    · rintro ⟨a, h1, h2⟩
      obtain ⟨i, hi⟩ := List.mem_iff_getElem?.1 h1
      exact ⟨i, a, hi, argumentType_iff.1 h2⟩
    · rintro ⟨i, a, h1, h2⟩
      exact ⟨a, List.mem_of_getElem? h1, argumentType_iff.2 h2⟩
  have two : ∀ (s : String) (xs : List Json), 2 ≤ (xs.filterMap Solidity.argumentType).count s ↔
      ∃ (i k : Nat) (a b : Json), i < k ∧ xs[i]? = some a ∧ xs[k]? = some b ∧
        HasTypeText s a ∧ HasTypeText s b := by
    intro s xs
    induction xs with
    | nil => simp
    | cons x xs ih =>
      by_cases hx : Solidity.argumentType x = some s
      · rw [List.filterMap_cons_some hx, List.count_cons_self]
        rw [show (2 ≤ (xs.filterMap Solidity.argumentType).count s + 1) ↔
          1 ≤ (xs.filterMap Solidity.argumentType).count s by omega, one]
        constructor
        · rintro ⟨i, b, h1, h2⟩
          exact ⟨0, i + 1, x, b, by omega, rfl, h1, argumentType_iff.1 hx, h2⟩
        · rintro ⟨i, k, a, b, h1, _, h3, _, h5⟩
          obtain ⟨k, rfl⟩ : ∃ k', k = k' + 1 := ⟨k - 1, by omega⟩
          exact ⟨k, b, h3, h5⟩
      · have e : (List.filterMap Solidity.argumentType (x :: xs)).count s =
            (xs.filterMap Solidity.argumentType).count s := by
          cases ht : Solidity.argumentType x with
          | none => rw [List.filterMap_cons_none ht]
          | some s' =>
            rw [List.filterMap_cons_some ht, List.count_cons_of_ne]
            rintro rfl
            exact hx ht
        rw [e, ih]
        constructor
        · rintro ⟨i, k, a, b, h1, h2, h3, h4⟩
          exact ⟨i + 1, k + 1, a, b, by omega, h2, h3, h4⟩
        · rintro ⟨i, k, a, b, h1, h2, h3, h4, h5⟩
          cases i with
          | zero =>
            cases h2
            exact absurd (argumentType_iff.2 h4) hx
          | succ i =>
            obtain ⟨k, rfl⟩ : ∃ k', k = k' + 1 := ⟨k - 1, by omega⟩
            exact ⟨i, k, a, b, by omega, h2, h3, h4, h5⟩
  rw [Bool.and_eq_true, decide_eq_true_eq, List.any_eq_true]
  constructor
  · rintro ⟨_, s, _, h⟩
    obtain ⟨i, k, a, b, h1, h2, h3, h4, h5⟩ := (two s args).1 (of_decide_eq_true h)
    exact ⟨i, k, a, b, s, h1, h2, h3, h4, h5⟩
  · rintro ⟨i, k, a, b, s, h1, h2, h3, h4, h5⟩
    have hk := (List.getElem?_eq_some_iff.1 h3).1
    have h := (two s args).2 ⟨i, k, a, b, h1, h2, h3, h4, h5⟩
    exact ⟨by omega, s, List.count_pos_iff.1 (by omega), decide_eq_true h⟩

/-- The operator names of the model's table whose symbol is in a list. -/
theorem vyper_operation {ops cls : List String}
    (h1 : ∀ p ∈ Vyper.operatorMap, ops.contains p.2 = true → p.1 ∈ cls)
    (h2 : ∀ o ∈ cls, ∃ s, Vyper.symbolOf o = some s ∧ ops.contains s = true) {j : Json} :
    (Vyper.isBinary j = true ∧
      ∃ o s, ((field "op" j).bind (getStrForKey "ast_type")) = some o ∧ Vyper.symbolOf o = some s ∧
        ops.contains s = true) ↔ VyperOperation cls j := by
  unfold VyperOperation Vyper.isBinary
  refine and_congr ?_ ?_
  · rw [Bool.or_eq_true, Bool.or_eq_true, vyper_hasType, vyper_hasType, vyper_hasType, or_assoc]
  · constructor
    · rintro ⟨o, s, ho, hs, hc⟩
      cases hf : field "op" j with
      | none => simp [hf] at ho
      | some n =>
        rw [hf] at ho
        refine ⟨n, rfl, o, h1 (o, s) ?_ hc, getStr_text (by decide) (by decide) ho⟩
        unfold Vyper.symbolOf at hs
        exact List.lookup_eq_some_iff.1 hs |>.choose_spec.choose_spec.1 ▸ by simp
    · rintro ⟨n, hf, o, ho, hk⟩
      obtain ⟨s, hs, hc⟩ := h2 o ho
      exact ⟨o, s, by rw [hf]; exact getStr_of_text (by decide) hk, hs, hc⟩

theorem vyper_binary_iff {ops cls : List String}
    (h1 : ∀ p ∈ Vyper.operatorMap, ops.contains p.2 = true → p.1 ∈ cls)
    (h2 : ∀ o ∈ cls, ∃ s, Vyper.symbolOf o = some s ∧ ops.contains s = true) {j : Json} :
    Vyper.binaryOpMutable ops j = true ↔ VyperOperation cls j := by
  rw [← vyper_operation h1 h2]
  unfold Vyper.binaryOpMutable
  rw [Bool.and_eq_true, field?_eq_field]
  refine and_congr_right fun _ => ?_
  cases (field "op" j).bind (getStrForKey "ast_type") with
  | none => simp
  | some o =>
    cases hs : Vyper.symbolOf o with
    | none => simp [hs]
    | some s => simp [hs]

theorem swapLines_iff {ss : List Json} {ret : Json → Bool} {P : Json → Prop} (hret : ∀ s, ret s = true ↔ P s) :
    (decide (ss.length ≥ 2) && (!ss.any ret || decide (ss.length ≥ 3))) = true ↔
      (3 ≤ ss.length ∨ ss.length = 2 ∧ ∀ s ∈ ss, ¬ P s) := by
  by_cases h : ∃ s ∈ ss, P s
  · have e : ss.any ret = true := by simpa only [List.any_eq_true, hret] using h
    have h' : ¬ ∀ s ∈ ss, ¬ P s := fun h0 => by
      obtain ⟨s, h1, h2⟩ := h
      exact h0 s h1 h2
    rw [e]
    simp only [h', and_false, or_false, Bool.and_eq_true, decide_eq_true_eq, Bool.or_eq_true,
      Bool.not_true, Bool.false_eq_true, false_or]
    omega
  · have e' : ss.any ret = false := by
      rw [← Bool.not_eq_true]
      simpa only [List.any_eq_true, hret] using h
    have h' : ∀ s ∈ ss, ¬ P s := fun s h1 h2 => h ⟨s, h1, h2⟩
    rw [e']
    simp only [Bool.not_false, Bool.true_or, Bool.and_true, decide_eq_true_eq, and_iff_left h']
    omega

end Considered

open Considered

/-- C69 for Solidity: whether an algorithm considers a node depends on the kind of the node and on the
fields that the algorithm is about, as listed in `SolidityNodeFor`, for every node. -/
theorem C69_solidity {env : MutEnv} {t : MutationType} {m : Mutator R}
    (hm : Solidity.mutatorFor env t = some m) (j : Json) :
    m.isMutable j = true ↔ SolidityNodeFor t j := by
  cases t <;> cases hm
  case arithmeticBinaryOp => exact solidity_operation (by simp [arithmeticOperators, operatorClass])
  case logicalBinaryOp => exact solidity_operation (by simp [logicalOperators, operatorClass])
  case bitwiseBinaryOp => exact solidity_operation (by simp [bitwiseOperators, operatorClass])
  case bitshiftBinaryOp => exact solidity_operation (by simp [bitshiftOperators, operatorClass])
  case comparisonBinaryOp =>
    refine solidity_operation fun o => ?_
    simp only [operatorClass, comparisonOperators, List.mem_cons, List.not_mem_nil, or_false]
    constructor <;> (intro h; rcases h with h | h | h | h | h | h <;> simp [h])
  case assignment =>
    show Solidity.assignmentMutable j = true ↔ _
    unfold Solidity.assignmentMutable SolidityNodeFor
    rw [Bool.and_eq_true, solidity_hasType]
    refine and_congr_right fun _ => ?_
    have e1 := fun s => @takeBytes_three 'u' 'i' 'n' (by decide) (by decide) (by decide) s
    have e2 := fun s => @takeBytes_three 'i' 'n' 't' (by decide) (by decide) (by decide) s
    have e3 := fun s => @takeBytes_three 'b' 'o' 'o' (by decide) (by decide) (by decide) s
    have n1 : String.ofList ['u', 'i', 'n'] = "uin" := by decide
    have n2 : String.ofList ['i', 'n', 't'] = "int" := by decide
    have n3 : String.ofList ['b', 'o', 'o'] = "boo" := by decide
    rw [n1] at e1
    rw [n2] at e2
    rw [n3] at e3
    constructor
    · intro h
      cases hs : Solidity.typeString j with
      | none => simp [hs] at h
      | some s =>
        refine ⟨s, argumentType_iff.1 hs, ?_⟩
        simp only [hs] at h
        cases hb : takeBytes 3 s with
        | none => simp [hb] at h
        | some p =>
          simp only [hb, Bool.or_eq_true, beq_iff_eq] at h
          rcases h with (rfl | rfl) | rfl
          · exact Or.inl ((e1 s).1 hb)
          · exact Or.inr (Or.inl ((e2 s).1 hb))
          · exact Or.inr (Or.inr ((e3 s).1 hb))
    · rintro ⟨s, h1, h2⟩
      have h1' : Solidity.typeString j = some s := argumentType_iff.2 h1
      simp only [h1']
      rcases h2 with h | h | h
      · rw [(e1 s).2 h]; rfl
      · rw [(e2 s).2 h]; rfl
      · rw [(e3 s).2 h]; rfl
  case deleteStatement =>
    show Solidity.deleteStatementMutable j = true ↔ _
    unfold Solidity.deleteStatementMutable SolidityNodeFor
    rw [Bool.and_eq_true, solidity_hasType]
    refine and_congr_right fun _ => ?_
    rw [← list_iff]
    cases Solidity.arrayField "statements" j with
    | none => simp
    | some ss =>
    simp only [Option.some.injEq, exists_eq_left']
    rw [Bool.and_eq_true, decide_eq_true_eq, any_kind]
    rfl
  case functionCall =>
    show Solidity.functionCallMutable j = true ↔ _
    unfold Solidity.functionCallMutable SolidityNodeFor
    rw [Bool.and_eq_true, solidity_hasType]
    refine and_congr_right fun _ => ?_
    rw [← list_iff]
    cases Solidity.arrayField "arguments" j with
    | none => simp
    | some args =>
    simp only [Option.some.injEq, exists_eq_left']
    match args with
    | [] => simp
    | [a] => simp [← solidity_hasType]
    | a :: b :: more => simp
  case swapFunctionArguments =>
    show Solidity.swapArgumentsMutable j = true ↔ _
    unfold Solidity.swapArgumentsMutable SolidityNodeFor
    rw [Bool.and_eq_true, solidity_hasType]
    refine and_congr_right fun _ => ?_
    rw [← list_iff]
    cases Solidity.arrayField "arguments" j with
    | none => simp
    | some args =>
    simp only [Option.some.injEq, exists_eq_left']
    exact twice_iff
  case ifStatement =>
    show Solidity.ifMutable j = true ↔ _
    unfold Solidity.ifMutable SolidityNodeFor
    rw [Bool.and_eq_true, solidity_hasType, field?_eq_field]
    refine and_congr_right fun _ => ?_
    cases field "condition" j with
    | none => simp
    | some c => cases c <;> simp
  case integer =>
    show Solidity.integerMutable j = true ↔ _
    unfold Solidity.integerMutable SolidityNodeFor
    rw [Bool.and_eq_true, Bool.and_eq_true, solidity_hasType, beq_iff_eq, and_assoc]
    refine and_congr_right fun hk => ?_
    rw [getStr_iff (by decide) (isKind_isObj hk), ← text_iff (by decide) (by decide)]
    refine and_congr_right fun _ => ?_
    cases getStrForKey "value" j <;> simp
  case swapOperatorArguments =>
    refine solidity_operation (ops := nonCommutativeOperators) fun o => ?_
    simp only [nonCommutative, nonCommutativeOperators, List.mem_cons, List.not_mem_nil, or_false]
    constructor <;> (intro h; rcases h with h | h | h | h | h | h | h | h | h | h <;> simp [h])
  case swapLines =>
    show Solidity.swapLinesMutable j = true ↔ _
    unfold Solidity.swapLinesMutable SolidityNodeFor
    rw [Bool.and_eq_true, solidity_hasType]
    refine and_congr_right fun _ => ?_
    rw [← list_iff]
    cases Solidity.arrayField "statements" j with
    | none => simp
    | some ss =>
    simp only [Option.some.injEq, exists_eq_left']
    exact swapLines_iff fun s => solidity_hasType
  case unaryOp =>
    show Solidity.unaryOpMutable j = true ↔ _
    unfold Solidity.unaryOpMutable SolidityNodeFor
    rw [Bool.and_eq_true, solidity_hasType]
    refine and_congr_right fun hk => ?_
    have hj := isKind_isObj hk
    have e : ∀ p o, o ∈ Solidity.unaryOperators p ↔ o ∈ unaryClass p := by
      intro p o
      cases p <;> simp [Solidity.unaryOperators, unaryClass, prefixOperators, postfixOperators]
    cases hp : getBoolForKey "prefix" j with
    | none =>
      refine ⟨fun h => by simp at h, fun ⟨p, h, _⟩ => ?_⟩
      rw [(getBool_iff (by decide) hj).2 h] at hp
      cases hp
    | some p =>
      have hf := (getBool_iff (by decide) hj).1 hp
      simp only
      constructor
      · intro h
        cases ho : getStrForKey "operator" j with
        | none => simp [ho] at h
        | some op =>
          exact ⟨p, hf, op, (e p op).1 (by simpa [ho] using h), getStr_text (by decide) (by decide) ho⟩
      · rintro ⟨p', h1, op, h2, h3⟩
        rw [hf] at h1
        cases h1
        rw [getStr_of_text (by decide) h3]
        simpa using (e p op).2 h2
  case require =>
    show Solidity.requireMutable j = true ↔ _
    unfold Solidity.requireMutable SolidityNodeFor
    rw [Bool.and_eq_true, Bool.and_eq_true, solidity_hasType, and_assoc]
    refine and_congr_right fun hk => ?_
    have hj := isKind_isObj hk
    rw [beq_iff_eq, field?_eq_field, getArray_field (by decide) hj]
    refine and_congr ?_ ?_
    · constructor
      · intro h
        cases hf : field "expression" j with
        | none => simp [hf] at h
        | some e =>
          rw [hf] at h
          exact ⟨e, rfl, getStr_text (by decide) (by decide) h⟩
      · rintro ⟨e, h1, h2⟩
        rw [h1]
        exact getStr_of_text (by decide) h2
    · unfold ListField
      cases field "arguments" j with
      | none => simp
      | some v =>
        cases v with
        | arr xs => cases xs <;> simp [asArray]
        | _ => simp [asArray]
  case uncheckedBlock =>
    show Solidity.uncheckedBlockMutable j = true ↔ _
    unfold Solidity.uncheckedBlockMutable SolidityNodeFor
    rw [Bool.and_eq_true, solidity_hasType]
    refine and_congr_right fun _ => ?_
    rw [← list_iff]
    cases Solidity.arrayField "statements" j with
    | none => simp
    | some ss =>
    simp only [Option.some.injEq, exists_eq_left']
    have e := @any_kind "Return" ss
    have e' := @any_kind "UncheckedBlock" ss
    match ss with
    | [] => simp
    | [s] =>
      by_cases h1 : IsKind "Return" s <;> by_cases h2 : IsKind "UncheckedBlock" s <;>
        simp [h1, h2, solidity_hasType] <;> omega
    | [s, s'] =>
      rw [Bool.and_eq_true, decide_eq_true_eq]
      by_cases h1 : (∃ x ∈ [s, s'], IsKind "Return" x) <;>
        by_cases h2 : (∃ x ∈ [s, s'], IsKind "UncheckedBlock" x) <;>
        simp only [e, e', h1, h2, if_true, if_false] <;> simp
    | s :: s' :: s'' :: more =>
      rw [Bool.and_eq_true, decide_eq_true_eq]
      simp only [List.length_cons]
      refine ⟨fun _ => Or.inl (by omega), fun _ => ⟨rfl, ?_⟩⟩
      split <;> split <;> omega
  case elimDelegateCall =>
    show Solidity.delegateCallMutable j = true ↔ _
    unfold Solidity.delegateCallMutable SolidityNodeFor
    rw [Bool.and_eq_true, solidity_hasType, beq_iff_eq]
    refine and_congr_right fun hk => ?_
    exact getStr_iff (by decide) (isKind_isObj hk)

/-- C69 for Vyper: likewise, as listed in `VyperNodeFor`; `env.pp` is how the printer writes a
statement. -/
theorem C69_vyper {env : MutEnv} {t : MutationType} {m : Mutator R}
    (hm : Vyper.mutatorFor env t = some m) (j : Json) :
    m.isMutable j = true ↔ VyperNodeFor env.pp t j := by
  have hbody : ∀ {k : String} {P : List Json → Prop},
      (∃ s, Vyper.arrayField k j = some s ∧ P s) ↔ ∃ s, ListField k j s ∧ P s := list_iff
  cases t <;> cases hm
  case arithmeticBinaryOp => exact vyper_binary_iff (by decide) (by decide)
  case logicalBinaryOp => exact vyper_binary_iff (by decide) (by decide)
  case bitwiseBinaryOp => exact vyper_binary_iff (by decide) (by decide)
  case bitshiftBinaryOp => exact vyper_binary_iff (by decide) (by decide)
  case comparisonBinaryOp => exact vyper_binary_iff (by decide) (by decide)
  case assignment => exact vyper_hasType
  case integer => exact vyper_hasType
  case unaryOp => exact vyper_hasType
  case deleteStatement =>
    show Vyper.deleteStatementMutable env j = true ↔ _
    unfold Vyper.deleteStatementMutable VyperNodeFor
    rw [Bool.and_eq_true, Bool.or_eq_true, Bool.or_eq_true, Bool.or_eq_true, vyper_hasType, vyper_hasType,
      vyper_hasType, vyper_hasType, or_assoc, or_assoc]
    refine and_congr_right fun _ => ?_
    rw [← hbody]
    cases Vyper.arrayField "body" j with
    | none => simp
    | some ss =>
      simp only [Option.some.injEq, exists_eq_left']
      match ss with
      | [] => simp
      | [s] => simp
      | s :: s' :: more => simp
  case functionCall =>
    show Vyper.functionCallMutable j = true ↔ _
    unfold Vyper.functionCallMutable VyperNodeFor
    rw [Bool.and_eq_true, vyper_hasType]
    refine and_congr_right fun _ => ?_
    rw [← hbody]
    cases Vyper.arrayField "args" j with
    | none => simp
    | some ss => cases ss <;> simp
  case swapFunctionArguments =>
    show Vyper.swapArgumentsMutable j = true ↔ _
    unfold Vyper.swapArgumentsMutable VyperNodeFor
    rw [Bool.and_eq_true, vyper_hasType]
    refine and_congr_right fun _ => ?_
    rw [← hbody]
    cases Vyper.arrayField "args" j <;> simp
  case ifStatement =>
    show Vyper.ifMutable j = true ↔ _
    unfold Vyper.ifMutable VyperNodeFor
    rw [Bool.and_eq_true, vyper_hasType, field?_eq_field, Option.isSome_iff_exists]
  case swapOperatorArguments =>
    show Vyper.swapOperandsMutable j = true ↔ VyperOperation vyperNonCommutative j
    rw [← vyper_operation (ops := nonCommutativeOperators) (by decide) (by decide)]
    unfold Vyper.swapOperandsMutable Vyper.swapOperandsTest
    rw [decide_eq_true_eq, field?_eq_field]
    by_cases hb : Vyper.isBinary j = true
    · rw [if_pos hb]
      simp only [hb, true_and]
      cases (field "op" j).bind (getStrForKey "ast_type") with
      | none => simp
      | some o =>
        cases hs : Vyper.symbolOf o with
        | none => simp [hs]
        | some s => simp [hs]
    · rw [if_neg hb]
      simp [hb]
  case swapLines =>
    show Vyper.swapLinesMutable j = true ↔ _
    unfold Vyper.swapLinesMutable VyperNodeFor
    rw [Bool.and_eq_true, Bool.or_eq_true, Bool.or_eq_true, vyper_hasType, vyper_hasType, vyper_hasType, or_assoc]
    refine and_congr_right fun _ => ?_
    rw [← hbody]
    cases Vyper.arrayField "body" j with
    | none => simp
    | some ss =>
      simp only [Option.some.injEq, exists_eq_left']
      exact swapLines_iff fun s => vyper_hasType

/-- The nodes that are counted, from a characterisation of the test. -/
theorem Considered.counted (cx : LangCtx) (ms : List (Mutator R)) (hn : (ms.map (·.implements)).Nodup)
    (m : Mutator R) (hm : m ∈ ms) (P : Json → Prop) (hP : ∀ j, m.isMutable j = true ↔ P j) (ast : Json) :
    ∃ cands : List Pos, cands.Sublist (positions ast) ∧
      (∀ p, p ∈ cands ↔ p ∈ positions ast ∧ ∃ n, nodeAt p ast = some n ∧ P n) ∧
      (countMutableNodes cx (functionPermissions []) ms ast).get? m.implements = entry cands.length ∧
      ∀ (index : Nat) (rng : R) (p : Pos), cands[index]? = some p →
        ServedAt m ast rng p (runMaker cx (functionPermissions []) m index ast rng) := by
  have hc := cand_all_aux cx m.isMutable ast false
  refine ⟨positionsWhere m.isMutable (fun _ => true) ast, List.filter_sublist, fun p => ?_, ?_,
    (C10_no_function_list cx ms hn m hm ast).2⟩
  · unfold positionsWhere
    rw [List.mem_filter]
    refine and_congr_right fun _ => ?_
    cases nodeAt p ast with
    | none => simp
    | some n => simp [hP n]
  · rw [get?_countMutableNodes cx _ ms hn m hm ast, hc]
    rfl

/-- C69 at the level of a file: without a function list the number reported for an algorithm is the
number of places of the Solidity AST that hold a node of its kind, and the `index`-th request is served at
the `index`-th such place. -/
theorem C69_solidity_counted {env : MutEnv} {t : MutationType} {m : Mutator R}
    (hf : Solidity.mutatorFor env t = some m) (ms : List (Mutator R))
    (hn : (ms.map (·.implements)).Nodup) (hm : m ∈ ms) (ast : Json) :
    ∃ cands : List Pos, cands.Sublist (positions ast) ∧
      (∀ p, p ∈ cands ↔ p ∈ positions ast ∧ ∃ n, nodeAt p ast = some n ∧ SolidityNodeFor t n) ∧
      (countMutableNodes solidityCtx (functionPermissions []) ms ast).get? m.implements = entry cands.length ∧
      ∀ (index : Nat) (rng : R) (p : Pos), cands[index]? = some p →
        ServedAt m ast rng p (runMaker solidityCtx (functionPermissions []) m index ast rng) :=
  Considered.counted _ ms hn m hm _ (C69_solidity hf) ast

/-- The same for Vyper. -/
theorem C69_vyper_counted {env : MutEnv} {t : MutationType} {m : Mutator R}
    (hf : Vyper.mutatorFor env t = some m) (ms : List (Mutator R))
    (hn : (ms.map (·.implements)).Nodup) (hm : m ∈ ms) (ast : Json) :
    ∃ cands : List Pos, cands.Sublist (positions ast) ∧
      (∀ p, p ∈ cands ↔ p ∈ positions ast ∧ ∃ n, nodeAt p ast = some n ∧ VyperNodeFor env.pp t n) ∧
      (countMutableNodes vyperCtx (functionPermissions []) ms ast).get? m.implements = entry cands.length ∧
      ∀ (index : Nat) (rng : R) (p : Pos), cands[index]? = some p →
        ServedAt m ast rng p (runMaker vyperCtx (functionPermissions []) m index ast rng) :=
  Considered.counted _ ms hn m hm _ (C69_vyper hf) ast

namespace DemoNodes

/-- Nodes that algorithms of Solidity consider, and neighbours that they do not. -/
example :
    (SolidityNodeFor .deleteStatement (Sol.block [Sol.ret, Sol.stmt 1]) ∧
      ¬ SolidityNodeFor .deleteStatement (Sol.block [Sol.stmt 1])) ∧
    (SolidityNodeFor .assignment (Sol.assign "bool" (Sol.number 1 "1")) ∧
      ¬ SolidityNodeFor .assignment (Sol.assign "address" (Sol.number 1 "1"))) ∧
    (SolidityNodeFor .integer (Sol.number 1 "15") ∧ ¬ SolidityNodeFor .integer (Sol.number 1 "1.5")) ∧
    (SolidityNodeFor .swapLines (Sol.block [Sol.stmt 1, Sol.stmt 2]) ∧
      ¬ SolidityNodeFor .swapLines (Sol.block [Sol.stmt 1, Sol.ret])) ∧
    (SolidityNodeFor .uncheckedBlock (Sol.block [Sol.stmt 1]) ∧
      ¬ SolidityNodeFor .uncheckedBlock (Sol.block [Sol.ret, Sol.unchecked])) := by
  have h := fun t (m : Mutator ListRand) (hm : Solidity.mutatorFor env t = some m) j =>
    C69_solidity (R := ListRand) hm j
  refine ⟨⟨(h _ _ rfl _).1 (by decide), fun c => absurd ((h _ _ rfl _).2 c) (by decide)⟩,
    ⟨(h _ _ rfl _).1 (by decide), fun c => absurd ((h _ _ rfl _).2 c) (by decide)⟩,
    ⟨(h _ _ rfl _).1 (by decide), fun c => absurd ((h _ _ rfl _).2 c) (by decide)⟩,
    ⟨(h _ _ rfl _).1 (by decide), fun c => absurd ((h _ _ rfl _).2 c) (by decide)⟩,
    ⟨(h _ _ rfl _).1 (by decide), fun c => absurd ((h _ _ rfl _).2 c) (by decide)⟩⟩

/-- The same for Vyper. -/
example :
    (VyperNodeFor env.pp .swapOperatorArguments (Vy.binary "BinOp" "Sub" (Vy.int 1 1) (Vy.int 2 2)) ∧
      ¬ VyperNodeFor env.pp .swapOperatorArguments (Vy.binary "BinOp" "Add" (Vy.int 1 1) (Vy.int 2 2))) ∧
    (VyperNodeFor env.pp .swapFunctionArguments (Vy.call [Vy.int 1 1, Vy.int 2 2]) ∧
      ¬ VyperNodeFor env.pp .swapFunctionArguments (Vy.call [Vy.int 1 1])) := by
  have h := fun t (m : Mutator ListRand) (hm : Vyper.mutatorFor env t = some m) j =>
    C69_vyper (R := ListRand) hm j
  exact ⟨⟨(h _ _ rfl _).1 (by decide), fun c => absurd ((h _ _ rfl _).2 c) (by decide)⟩,
    ⟨(h _ _ rfl _).1 (by decide), fun c => absurd ((h _ _ rfl _).2 c) (by decide)⟩⟩

end DemoNodes

end Mutagenyx
