import Verif.Props.Duplicates
import Verif.Props.Operators

/-!
# No mutant is written twice (property C98)
-/

namespace Mutagenyx
open Json
namespace Repeats

variable {R : Type} [Rand R] {env : MutEnv}

/-- Different reports on mutations of a node are on different mutations. -/
def Apart (m : Mutator R) : Prop :=
  ∀ {j : Json} {r₁ r₂ s₁ s₂ : R} {j' : Json} {rep₁ rep₂ : MutatorResult} {c₁ c₂ : Option Json}, m.isMutable j = true →
    m.mutate j r₁ = .ok (j', rep₁, c₁, s₁) → m.mutate j r₂ = .ok (j', rep₂, c₂, s₂) → rep₁ = rep₂

theorem set_inj {k : String} (hk : PlainKey k) {v w j j1 : Json} (hj : IsObj j) (hj1 : IsObj j1)
    (h : setNodeForKey k v j = setNodeForKey k w j1) : v = w := by
  have h1 := field_setNodeForKey hk k v hj
  rw [h, field_setNodeForKey hk k w hj1, if_pos rfl, if_pos rfl] at h1
  exact (Option.some.inj h1).symm

theorem solidity_binary {ops : List String} {t : MutationType} :
    Apart (R := R) ⟨t, Solidity.binaryOpMutable ops, Solidity.binaryOpMutate env ops t⟩ := by
  intro j r₁ r₂ s₁ s₂ j' rep₁ rep₂ c₁ c₂ hmut h₁ h₂
  simp only [Solidity.binaryOpMutable, Bool.and_eq_true] at hmut
  have hj := isKind_isObj (solidity_hasType.1 hmut.1)
  simp only [Solidity.binaryOpMutate] at h₁ h₂
  cases ho : j.getStrForKey "operator" with
  | none => simp only [ho] at h₁ h₂; cases h₁; cases h₂; rfl
  | some op =>
    simp only [ho] at h₁ h₂
    split at h₁ <;> try (cases h₁; done)
    split at h₂ <;> try (cases h₂; done)
    rename_i a _ _ _ b _ _
    simp only [Outcome.ok.injEq, Prod.mk.injEq] at h₁ h₂
    obtain ⟨rfl, rfl, -, -⟩ := h₁
    obtain ⟨h, rfl, -, -⟩ := h₂
    have := set_inj (by decide) hj hj h
    cases this
    rfl

theorem solidity_unary : Apart (R := R) ⟨.unaryOp, Solidity.unaryOpMutable, Solidity.unaryOpMutate env⟩ := by
  intro j r₁ r₂ s₁ s₂ j' rep₁ rep₂ c₁ c₂ hmut h₁ h₂
  simp only [Solidity.unaryOpMutable, Bool.and_eq_true] at hmut
  have hj := isKind_isObj (solidity_hasType.1 hmut.1)
  simp only [Solidity.unaryOpMutate] at h₁ h₂
  cases ho : j.getBoolForKey "prefix" with
  | none => simp only [ho] at h₁; cases h₁
  | some p =>
    simp only [ho] at h₁ h₂
    split at h₁ <;> try (cases h₁; done)
    split at h₂ <;> try (cases h₂; done)
    simp only [Outcome.ok.injEq, Prod.mk.injEq] at h₁ h₂
    obtain ⟨rfl, rfl, -, -⟩ := h₁
    obtain ⟨h, rfl, -, -⟩ := h₂
    have := set_inj (by decide) hj hj h
    cases this
    rfl

theorem vyper_binary {ops : List String} {t : MutationType} (hops : ∀ s ∈ ops, ∀ s' ∈ ops, ∀ n, Vyper.nameOf s = some n →
      Vyper.nameOf s' = some n → s = s') :
    Apart (R := R) ⟨t, Vyper.binaryOpMutable ops, Vyper.binaryOpMutate env ops t⟩ := by
  intro j r₁ r₂ s₁ s₂ j' rep₁ rep₂ c₁ c₂ hmut h₁ h₂
  simp only [Vyper.binaryOpMutable, Bool.and_eq_true] at hmut
  have hj : IsObj j := by
    have := hmut.1
    simp only [Vyper.isBinary, Bool.or_eq_true] at this
    rcases this with (h | h) | h <;> exact isVyperKind_isObj (vyper_hasType.1 h)
  simp only [Vyper.binaryOpMutate] at h₁ h₂
  cases htk : takeValueForKey "op" j with
  | mk o j1 =>
    obtain ⟨ho, hj1, hf1⟩ := take_eq (by decide) hj htk
    simp only [htk] at h₁ h₂
    cases o with
    | none => cases h₁
    | some op =>
      simp only at h₁ h₂
      cases hty : getStrForKey "ast_type" op with
      | none => simp only [hty] at h₁; cases h₁
      | some ty =>
        have hop : IsObj op := textField_isObj (getStr_text (by decide) (by decide) hty)
        simp only [hty] at h₁ h₂
        cases hsy : Vyper.symbolOf ty with
        | none => simp only [hsy] at h₁; cases h₁
        | some sy =>
          simp only [hsy] at h₁ h₂
          split at h₁ <;> try (cases h₁; done)
          rename_i a ra ha
          split at h₁ <;> try (cases h₁; done)
          rename_i na hna
          split at h₂ <;> try (cases h₂; done)
          rename_i b rb hb
          split at h₂ <;> try (cases h₂; done)
          rename_i nb hnb
          simp only [Outcome.ok.injEq, Prod.mk.injEq] at h₁ h₂
          obtain ⟨rfl, rfl, -, -⟩ := h₁
          obtain ⟨h, rfl, -, -⟩ := h₂
          have h3 := set_inj (by decide) hop hop (set_inj (by decide) hj1 hj1 h)
          cases h3
          rw [hops a (chooseOther_ok ha).1 b (chooseOther_ok hb).1 _ hna hnb]

theorem solidity_if : Apart (R := R) ⟨.ifStatement, Solidity.ifMutable, Solidity.ifMutate env⟩ := by
  intro j r₁ r₂ s₁ s₂ j' rep₁ rep₂ c₁ c₂ hmut h₁ h₂
  simp only [Solidity.ifMutable, Bool.and_eq_true] at hmut
  have hj := isKind_isObj (solidity_hasType.1 hmut.1)
  have hmut2 := hmut.2
  cases htk : takeValueForKey "condition" j with
  | mk o j1 =>
    obtain ⟨ho, hj1, hf1⟩ := take_eq (by decide) hj htk
    cases o with
    | none =>
      rw [field?_eq_field, ← ho] at hmut2
      cases hmut2
    | some v =>
      have key : ∀ a b : Nat, a < 3 → b < 3 → Solidity.ifChange a j = Solidity.ifChange b j → a = b := by
        intro a b ha hb h
        have n1 : ∀ x y, Solidity.booleanLiteralNode x ≠ Solidity.unaryOpNode "!" true y := by
          intro x y e
          have := congrArg (field "nodeType") e
          unfold Solidity.unaryOpNode at this
          rw [field_setNodeForKey (by decide) _ _ (show IsObj (Json.ofFields _) from trivial), if_neg (by decide)] at this
          cases x <;> exact absurd this (by decide)
        have n2 : Solidity.booleanLiteralNode true ≠ Solidity.booleanLiteralNode false := by decide
        unfold Solidity.ifChange at h
        simp only [htk] at h
        have ha3 : a = 0 ∨ a = 1 ∨ a = 2 := by omega
        have hb3 : b = 0 ∨ b = 1 ∨ b = 2 := by omega
        rcases ha3 with rfl | rfl | rfl <;> rcases hb3 with rfl | rfl | rfl <;> simp at h ⊢
        · exact n2 (set_inj (by decide) hj hj h)
        · exact n1 _ _ (set_inj (by decide) hj hj1 h)
        · exact n2 (set_inj (by decide) hj hj h).symm
        · exact n1 _ _ (set_inj (by decide) hj hj1 h)
        · exact n1 _ _ (set_inj (by decide) hj1 hj h).symm
        · exact n1 _ _ (set_inj (by decide) hj1 hj h).symm
      simp only [Solidity.ifMutate] at h₁ h₂
      split at h₁ <;> try (cases h₁; done)
      split at h₂ <;> try (cases h₂; done)
      split at h₁ <;> try (cases h₁; done)
      split at h₂ <;> try (cases h₂; done)
      simp only [Outcome.ok.injEq, Prod.mk.injEq] at h₁ h₂
      obtain ⟨rfl, rfl, -, -⟩ := h₁
      obtain ⟨h, rfl, -, -⟩ := h₂
      have := key _ _ (Nat.mod_lt _ (by decide)) (Nat.mod_lt _ (by decide)) h
      rw [this]

theorem vyper_if : Apart (R := R) ⟨.ifStatement, Vyper.ifMutable, Vyper.ifMutate env⟩ := by
  intro j r₁ r₂ s₁ s₂ j' rep₁ rep₂ c₁ c₂ hmut h₁ h₂
  simp only [Vyper.ifMutable, Bool.and_eq_true] at hmut
  have hj := isVyperKind_isObj (vyper_hasType.1 hmut.1)
  have hmut2 := hmut.2
  cases htk : takeValueForKey "test" j with
  | mk o j1 =>
    obtain ⟨ho, hj1, hf1⟩ := take_eq (by decide) hj htk
    cases o with
    | none =>
      rw [field?_eq_field, ← ho] at hmut2
      cases hmut2
    | some v =>
      have hv : Json.field? "test" j = some v := by rw [field?_eq_field, ← ho]
      have n1 : ∀ x y, Vyper.booleanConstantNode x ≠ Vyper.unaryOpNode "Not" y := by
        intro x y e
        have := congrArg (field "ast_type") e
        unfold Vyper.unaryOpNode at this
        rw [field_setNodeForKey (by decide) _ _ (show IsObj (Json.ofFields _) from trivial), if_neg (by decide)] at this
        cases x <;> exact absurd this (by decide)
      have n2 : Vyper.booleanConstantNode true ≠ Vyper.booleanConstantNode false := by decide
      simp only [Vyper.ifMutate, hv, htk] at h₁ h₂
      have ha : (nextU64 r₁).1 % 3 < 3 := Nat.mod_lt _ (by decide)
      have hb : (nextU64 r₂).1 % 3 < 3 := Nat.mod_lt _ (by decide)
      generalize (nextU64 r₁).1 % 3 = a at h₁ ha
      generalize (nextU64 r₂).1 % 3 = b at h₂ hb
      have ha3 : a = 0 ∨ a = 1 ∨ a = 2 := by omega
      have hb3 : b = 0 ∨ b = 1 ∨ b = 2 := by omega
      rcases ha3 with rfl | rfl | rfl <;> rcases hb3 with rfl | rfl | rfl <;> simp at h₁ h₂ <;>
        obtain ⟨rfl, rfl, -, -⟩ := h₁ <;> obtain ⟨h, rfl, -, -⟩ := h₂
      · rfl
      · exact absurd (set_inj (by decide) hj hj h).symm n2
      · exact absurd (set_inj (by decide) hj1 hj h).symm (n1 _ _)
      · exact absurd (set_inj (by decide) hj hj h) n2
      · rfl
      · exact absurd (set_inj (by decide) hj1 hj h).symm (n1 _ _)
      · exact absurd (set_inj (by decide) hj hj1 h) (n1 _ _)
      · exact absurd (set_inj (by decide) hj hj1 h) (n1 _ _)
      · rfl

omit [Rand R] in
theorem solidity_operands : Apart (R := R) ⟨.swapOperatorArguments, Solidity.swapOperandsMutable, Solidity.swapOperandsMutate env⟩ := by
  intro j r₁ r₂ s₁ s₂ j' rep₁ rep₂ c₁ c₂ _ h₁ h₂
  simp only [Solidity.swapOperandsMutate] at h₁ h₂
  generalize takeValueForKey "leftExpression" j = x at h₁ h₂
  rcases x with ⟨_ | x, k⟩
  · cases h₁
  · simp only at h₁ h₂
    generalize takeValueForKey "rightExpression" k = y at h₁ h₂
    rcases y with ⟨_ | y, l⟩
    · cases h₁
    · cases h₁; cases h₂; rfl

omit [Rand R] in
theorem solidity_require : Apart (R := R) ⟨.require, Solidity.requireMutable, Solidity.requireMutate env⟩ := by
  intro j r₁ r₂ s₁ s₂ j' rep₁ rep₂ c₁ c₂ _ h₁ h₂
  simp only [Solidity.requireMutate] at h₁ h₂
  generalize Solidity.arrayField "arguments" j = x at h₁ h₂
  generalize Solidity.takeArgument 0 j = y at h₁ h₂
  rcases x with _ | _ | ⟨x, xs⟩
  · cases h₁
  · cases h₁
  · rcases y with ⟨_ | y, l⟩
    · cases h₁
    · cases h₁; cases h₂; rfl

omit [Rand R] in
theorem solidity_delegate : Apart (R := R) ⟨.elimDelegateCall, Solidity.delegateCallMutable, Solidity.delegateCallMutate⟩ := by
  intro j r₁ r₂ s₁ s₂ j' rep₁ rep₂ c₁ c₂ _ h₁ h₂
  cases h₁; cases h₂; rfl

omit [Rand R] in
theorem vyper_unary : Apart (R := R) ⟨.unaryOp, Vyper.unaryOpMutable, Vyper.unaryOpMutate env⟩ := by
  intro j r₁ r₂ s₁ s₂ j' rep₁ rep₂ c₁ c₂ _ h₁ h₂
  simp only [Vyper.unaryOpMutate] at h₁ h₂
  generalize takeValueForKey "operand" j = x at h₁ h₂
  rcases x with ⟨_ | x, k⟩
  · cases h₁
  · cases h₁; cases h₂; rfl

theorem vyper_operands : Apart (R := R) ⟨.swapOperatorArguments, Vyper.swapOperandsMutable, Vyper.swapOperandsMutate env⟩ := by
  intro j r₁ r₂ s₁ s₂ j' rep₁ rep₂ c₁ c₂ _ h₁ h₂
  have h₃ := Duplicates.vyper_operands_draws r₁ r₂ _ _ _ _ h₁
  have h₂ : Vyper.swapOperandsMutate env j r₂ = _ := h₂
  rw [h₂] at h₃
  cases h₃
  rfl

/-- A statement. -/
def statement (id : Nat) : Json := .obj [("id", .num (.int id)), ("nodeType", .str "PlaceholderStatement")]

/-- A block of two statements. -/
def block (id : Nat) : Json :=
  .obj [("id", .num (.int id)), ("nodeType", .str "Block"), ("statements", .arr [statement (id + 1), statement (id + 2)])]

/-- A Solidity tree with two blocks. -/
def tree : Json := .obj [("id", .num (.int 1)), ("nodeType", .str "SourceUnit"), ("nodes", .arr [block 2, block 5])]

/-- The world of the demonstration for that tree. -/
def world : World ListRand := { Duplicates.world with load := fun _ _ _ _ _ => .ok tree }

/-- The two written mutants and their files. -/
def both : List Ev → Option ((Option String × Json) × (Option String × Json))
  | [.tried _ _ _ _ _, .output d (.mutant a _), .tried _ _ _ _ _, .output d' (.mutant b _)] => some ((d, a), (d', b))
  | _ => none

theorem both_mem {l : List Ev} {d d' : Option String} {a b : Json} (h : both l = some ((d, a), (d', b))) :
    ∃ r r', .output d (.mutant a r) ∈ l ∧ .output d' (.mutant b r') ∈ l := by
  unfold both at h
  split at h
  · injection h with h
    injection h with h1 h2
    injection h1 with h3 h4
    injection h2 with h5 h6
    subst h3 h4 h5 h6
    exact ⟨_, _, .tail _ (.head _), .tail _ (.tail _ (.tail _ (.head _)))⟩
  · cases h

theorem of_both (g : Outcome Unit × List Ev) (hok : g.1.toOption = some ())
    (h : ((both g.2).map fun x => (decide (x.1.2 = x.2.2), decide (x.1.1 = x.2.1))) = some (true, false)) :
    ∃ (new : List Ev) (d₁ d₂ : Option String) (mutant : Json) (res₁ res₂ : MutatorResult),
      g = (.ok (), [] ++ new) ∧ .output d₁ (.mutant mutant res₁) ∈ new ∧ .output d₂ (.mutant mutant res₂) ∈ new ∧ d₁ ≠ d₂ := by
  obtain ⟨o, l⟩ := g
  have ho : o = .ok () := by
    cases o with
    | ok u => rfl
    | err e => cases hok
    | panic => cases hok
    | outOfFuel => cases hok
  subst ho
  rw [Option.map_eq_some_iff] at h
  obtain ⟨⟨⟨d, a⟩, d', b⟩, h1, h2⟩ := h
  injection h2 with h2 h3
  have h2 : a = b := of_decide_eq_true h2
  have h4 : d ≠ d' := of_decide_eq_false h3
  subst h2
  obtain ⟨r, r', h5, h6⟩ := both_mem h1
  exact ⟨l, d, d', a, r, r', rfl, h5, h6, h4⟩

end Repeats

open Repeats

variable {R : Type} [Rand R]

/-- **C98** for mutations of one node: by these algorithms, mutations with different reports are different, so the
loop, which writes no two mutants with the same report (C05), does not write one of them twice.
Missing: the other algorithms, for which it is false or depends on the tree; mutations of different nodes; and that
different nodes stay different when comments are added. -/
theorem C98_partial {env : MutEnv} {lang : Language} {t : MutationType}
    (ht : t ∈ [.arithmeticBinaryOp, .logicalBinaryOp, .bitwiseBinaryOp, .bitshiftBinaryOp, .comparisonBinaryOp, .unaryOp,
      .ifStatement, .swapOperatorArguments, .require, .elimDelegateCall]) {m : Mutator R}
    (hm : languageMutator env lang t = some m) {node node₁ node₂ : Json} (hmut : m.isMutable node = true) {r₁ r₂ s₁ s₂ : R}
    {rep₁ rep₂ : MutatorResult} {c₁ c₂ : Option Json} (h₁ : m.mutate node r₁ = .ok (node₁, rep₁, c₁, s₁))
    (h₂ : m.mutate node r₂ = .ok (node₂, rep₂, c₂, s₂)) (hne : rep₁ ≠ rep₂) : node₁ ≠ node₂ := by
  intro h
  subst h
  apply hne
  cases lang <;> cases t <;> cases hm
  all_goals first
    | exact Repeats.solidity_binary hmut h₁ h₂
    | exact Repeats.solidity_unary hmut h₁ h₂
    | exact Repeats.solidity_if hmut h₁ h₂
    | exact Repeats.solidity_operands hmut h₁ h₂
    | exact Repeats.solidity_require hmut h₁ h₂
    | exact Repeats.solidity_delegate hmut h₁ h₂
    | exact Repeats.vyper_unary hmut h₁ h₂
    | exact Repeats.vyper_if hmut h₁ h₂
    | exact Repeats.vyper_operands hmut h₁ h₂
    | (refine Repeats.vyper_binary ?_ hmut h₁ h₂
       intro s hs s' hs' n hn hn'
       have key : ∀ s ∈ arithmeticOperators ++ logicalOperators ++ bitwiseOperators ++ bitshiftOperators ++ comparisonOperators,
           ∀ s' ∈ arithmeticOperators ++ logicalOperators ++ bitwiseOperators ++ bitshiftOperators ++ comparisonOperators,
           (Vyper.nameOf s).isSome → Vyper.nameOf s = Vyper.nameOf s' → s = s' := by decide +kernel
       exact key s (by simp [hs]) s' (by simp [hs']) (by rw [hn]; rfl) (hn.trans hn'.symm))
    | (exact absurd ht (by decide))

/-- Two mutations of an increment with different reports. -/
example : ∃ (m : Mutator ListRand) (node₁ node₂ : Json) (rep₁ rep₂ : MutatorResult) (c₁ c₂ : Option Json),
    languageMutator Duplicates.plain .solidity .unaryOp = some m ∧ m.isMutable (Duplicates.increment 2) = true ∧
    m.mutate (Duplicates.increment 2) ⟨[1]⟩ = .ok (node₁, rep₁, c₁, ⟨[]⟩) ∧
    m.mutate (Duplicates.increment 2) ⟨[2]⟩ = .ok (node₂, rep₂, c₂, ⟨[]⟩) ∧ rep₁ ≠ rep₂ :=
  ⟨_, _, _, _, _, _, _, rfl, by decide, rfl, rfl, by decide⟩

/-- **C98 is false for swapped lines**: the digest covers the two places in the order in which they were drawn
(`solidity/mutators.rs:1537-1631`, `vyper/mutators.rs:1618-1715`).  In this run one mutant is written to two files. -/
theorem C98_counterexample :
    ∃ (new : List Ev) (d₁ d₂ : Option String) (mutant : Json) (res₁ res₂ : MutatorResult),
      generateMutations Repeats.world 100 (Duplicates.params .swapLines [0, 0, 0, 0, 1, 0, 1, 0]) [] = (.ok (), [] ++ new) ∧
      .output d₁ (.mutant mutant res₁) ∈ new ∧ .output d₂ (.mutant mutant res₂) ∈ new ∧ d₁ ≠ d₂ :=
  of_both _ (by decide +kernel) (by decide +kernel)

namespace Repeats

/-- A statement of a Vyper function. -/
def pass (id : Nat) : Json := .obj [("ast_type", .str "Pass"), ("node_id", .num (.int id))]

/-- A Vyper function with these statements. -/
def function (body : List Json) : Json := .obj [("ast_type", .str "FunctionDef"), ("body", .arr body), ("node_id", .num (.int 1))]

end Repeats

/-- **C98 is false for swapped lines** in Vyper too: the same mutation with different reports. -/
theorem C98_vyper_counterexample :
    ∃ (j j' : Json) (rep₁ rep₂ : MutatorResult) (c : Option Json) (r₁ r₂ s₁ s₂ : ListRand), Vyper.swapLinesMutable j = true ∧
      Vyper.swapLinesMutate Duplicates.plain j r₁ = .ok (j', rep₁, c, s₁) ∧
      Vyper.swapLinesMutate Duplicates.plain j r₂ = .ok (j', rep₂, c, s₂) ∧ rep₁ ≠ rep₂ :=
  ⟨function [pass 2, pass 3], function [pass 3, pass 2], ⟨some .swapLines, none, some 1, some "i.i1."⟩,
    ⟨some .swapLines, none, some 1, some "i1.i."⟩, _, ⟨[0, 1]⟩, ⟨[1, 0]⟩, ⟨[]⟩, ⟨[]⟩, by decide, rfl, rfl, by decide⟩

end Mutagenyx
