import Verif.Model.SolidityMutators
import Verif.Model.VyperMutators
import Verif.Proofs.Mutators

/-!
# What a mutation does is determined by the random choices in its report
-/

namespace Mutagenyx
namespace Duplicates

variable {R : Type} [Rand R] {env : MutEnv}

/-- Mutations of a node with the same report are the same. -/
def Told (mutate : Json → R → Outcome (Json × MutatorResult × Option Json × R)) : Prop :=
  ∀ {j : Json} {r₁ r₂ s₁ s₂ : R} {j₁ j₂ : Json} {rep₁ rep₂ : MutatorResult} {c₁ c₂ : Option Json},
    mutate j r₁ = .ok (j₁, rep₁, c₁, s₁) → mutate j r₂ = .ok (j₂, rep₂, c₂, s₂) →
    rep₁.randomBehaviorHash = rep₂.randomBehaviorHash → j₁ = j₂ ∧ c₁ = c₂

theorem solidity_binary (hd : ∀ a b, env.digest a = env.digest b → a = b) {ops : List String} {t : MutationType} :
    Told (R := R) (Solidity.binaryOpMutate env ops t) := by
  intro j r₁ r₂ s₁ s₂ j₁ j₂ rep₁ rep₂ c₁ c₂ h₁ h₂ h
  simp only [Solidity.binaryOpMutate] at h₁ h₂
  cases ho : j.getStrForKey "operator" with
  | none => simp only [ho] at h₁ h₂; cases h₁; cases h₂; exact ⟨rfl, rfl⟩
  | some op =>
    simp only [ho] at h₁ h₂
    split at h₁ <;> try (cases h₁; done)
    split at h₂ <;> try (cases h₂; done)
    cases h₁; cases h₂
    have := hd _ _ (Option.some.inj h)
    cases this
    exact ⟨rfl, rfl⟩

theorem solidity_unary (hd : ∀ a b, env.digest a = env.digest b → a = b) : Told (R := R) (Solidity.unaryOpMutate env) := by
  intro j r₁ r₂ s₁ s₂ j₁ j₂ rep₁ rep₂ c₁ c₂ h₁ h₂ h
  simp only [Solidity.unaryOpMutate] at h₁ h₂
  cases ho : j.getBoolForKey "prefix" with
  | none => simp only [ho] at h₁; cases h₁
  | some p =>
    simp only [ho] at h₁ h₂
    split at h₁ <;> try (cases h₁; done)
    split at h₂ <;> try (cases h₂; done)
    cases h₁; cases h₂
    have := hd _ _ (Option.some.inj h)
    cases this
    exact ⟨rfl, rfl⟩

theorem solidity_delete (hd : ∀ a b, env.digest a = env.digest b → a = b) : Told (R := R) (Solidity.deleteStatementMutate env) := by
  intro j r₁ r₂ s₁ s₂ j₁ j₂ rep₁ rep₂ c₁ c₂ h₁ h₂ h
  simp only [Solidity.deleteStatementMutate] at h₁ h₂
  generalize Json.takeValueForKey "statements" j = q at h₁ h₂
  split at h₁
  · simp only at h₂
    split at h₁ <;> try (cases h₁; done)
    split at h₂ <;> try (cases h₂; done)
    split at h₁ <;> try (cases h₁; done)
    split at h₂ <;> try (cases h₂; done)
    split at h₁ <;> try (cases h₁; done)
    split at h₂ <;> try (cases h₂; done)
    cases h₁; cases h₂
    have := hd _ _ (Option.some.inj h)
    cases this
    simp_all
  · cases h₁

theorem solidity_call (hd : ∀ a b, env.digest a = env.digest b → a = b) : Told (R := R) (Solidity.functionCallMutate env) := by
  intro j r₁ r₂ s₁ s₂ j₁ j₂ rep₁ rep₂ c₁ c₂ h₁ h₂ h
  simp only [Solidity.functionCallMutate] at h₁ h₂
  cases ha : Solidity.arrayField "arguments" j with
  | none => simp only [ha] at h₁; cases h₁
  | some args =>
    simp only [ha] at h₁ h₂
    split at h₁ <;> try (cases h₁; done)
    split at h₂ <;> try (cases h₂; done)
    split at h₁ <;> try (cases h₁; done)
    split at h₂ <;> try (cases h₂; done)
    cases h₁; cases h₂
    have := hd _ _ (Option.some.inj h)
    cases this
    simp_all

theorem solidity_if (hd : ∀ a b, env.digest a = env.digest b → a = b) : Told (R := R) (Solidity.ifMutate env) := by
  intro j r₁ r₂ s₁ s₂ j₁ j₂ rep₁ rep₂ c₁ c₂ h₁ h₂ h
  simp only [Solidity.ifMutate] at h₁ h₂
  split at h₁ <;> try (cases h₁; done)
  split at h₂ <;> try (cases h₂; done)
  split at h₁ <;> try (cases h₁; done)
  split at h₂ <;> try (cases h₂; done)
  cases h₁; cases h₂
  have := hd _ _ (Option.some.inj h)
  simp only [List.cons.injEq, HashPart.byte.injEq, and_true] at this
  simp_all

theorem solidity_operands : Told (R := R) (Solidity.swapOperandsMutate env) := by
  intro j r₁ r₂ s₁ s₂ j₁ j₂ rep₁ rep₂ c₁ c₂ h₁ h₂ _
  simp only [Solidity.swapOperandsMutate] at h₁ h₂
  split at h₁ <;> try (cases h₁; done)
  split at h₂ <;> try (cases h₂; done)
  split at h₁ <;> try (cases h₁; done)
  split at h₂ <;> try (cases h₂; done)
  cases h₁; cases h₂
  simp_all

theorem solidity_lines (hd : ∀ a b, env.digest a = env.digest b → a = b) : Told (R := R) (Solidity.swapLinesMutate env) := by
  intro j r₁ r₂ s₁ s₂ j₁ j₂ rep₁ rep₂ c₁ c₂ h₁ h₂ h
  simp only [Solidity.swapLinesMutate] at h₁ h₂
  generalize Json.takeValueForKey "statements" j = q at h₁ h₂
  split at h₁
  · simp only at h₂
    split at h₁ <;> try (cases h₁; done)
    split at h₂ <;> try (cases h₂; done)
    split at h₁ <;> try (cases h₁; done)
    split at h₂ <;> try (cases h₂; done)
    split at h₁ <;> try (cases h₁; done)
    split at h₂ <;> try (cases h₂; done)
    cases h₁; cases h₂
    have := hd _ _ (Option.some.inj h)
    cases this
    simp_all
  · cases h₁

theorem solidity_require : Told (R := R) (Solidity.requireMutate env) := by
  intro j r₁ r₂ s₁ s₂ j₁ j₂ rep₁ rep₂ c₁ c₂ h₁ h₂ _
  simp only [Solidity.requireMutate] at h₁ h₂
  split at h₁ <;> try (cases h₁; done)
  split at h₂ <;> try (cases h₂; done)
  split at h₁ <;> try (cases h₁; done)
  split at h₂ <;> try (cases h₂; done)
  cases h₁; cases h₂
  simp_all

theorem solidity_delegate : Told (R := R) Solidity.delegateCallMutate := by
  intro j r₁ r₂ s₁ s₂ j₁ j₂ rep₁ rep₂ c₁ c₂ h₁ h₂ _
  cases h₁; cases h₂
  exact ⟨rfl, rfl⟩

theorem solidity_value (t : String) {r₁ r₂ s₁ s₂ : R} {n₁ n₂ : Option Json} {ps : List HashPart}
    (h₁ : Solidity.assignmentValue t r₁ = .ok (n₁, ps, s₁)) (h₂ : Solidity.assignmentValue t r₂ = .ok (n₂, ps, s₂)) : n₁ = n₂ := by
  simp only [Solidity.assignmentValue] at h₁ h₂
  repeat' (split at h₁) <;> try (cases h₁; done)
  all_goals (repeat' (split at h₂)) <;> try (cases h₂; done)
  all_goals first
    | (cases h₁; cases h₂; rfl)
    | simp_all

theorem solidity_assignment (hd : ∀ a b, env.digest a = env.digest b → a = b) : Told (R := R) (Solidity.assignmentMutate env) := by
  intro j r₁ r₂ s₁ s₂ j₁ j₂ rep₁ rep₂ c₁ c₂ h₁ h₂ h
  simp only [Solidity.assignmentMutate] at h₁ h₂
  cases h1 : Json.field? "typeDescriptions" j with
  | none => simp only [h1] at h₁; cases h₁
  | some td =>
  simp only [h1] at h₁ h₂
  cases h2 : td.getStrForKey "typeString" with
  | none => simp only [h2] at h₁; cases h₁
  | some t =>
  simp only [h2] at h₁ h₂
  cases h3 : Json.field? "rightHandSide" j with
  | none => simp only [h3] at h₁; cases h₁
  | some rhs =>
  simp only [h3] at h₁ h₂
  cases h4 : Solidity.assignmentValue t r₁ with
  | ok a =>
    cases h5 : Solidity.assignmentValue t r₂ with
    | ok b =>
      obtain ⟨n₁, p₁, q₁⟩ := a
      obtain ⟨n₂, p₂, q₂⟩ := b
      simp only [h4, h5] at h₁ h₂
      have key : p₁ = p₂ → n₁ = n₂ := by rintro rfl; exact solidity_value t h4 h5
      have hp : p₁ = p₂ := by
        split at h₁ <;> try (cases h₁; done)
        split at h₂ <;> try (cases h₂; done)
        cases h₁; cases h₂
        exact hd _ _ (Option.some.inj h)
      cases key hp
      split at h₁ <;> try (cases h₁; done)
      split at h₂ <;> try (cases h₂; done)
      cases h₁; cases h₂
      simp_all
    | _ => simp only [h5] at h₂; cases h₂
  | _ => simp only [h4] at h₁; cases h₁

theorem unchecked_draw {fuel : Nat} {ss rest : List Json} {v : Json} {i : Nat} {r s : R}
    (h : Solidity.uncheckedDraw fuel ss r = .ok (i, v, rest, s)) : ss[i]? = some v ∧ rest = ss.eraseIdx i := by
  induction fuel generalizing r with
  | zero => cases h
  | succ fuel ih =>
    simp only [Solidity.uncheckedDraw] at h
    split at h <;> try (cases h; done)
    split at h <;> try (cases h; done)
    rename_i hv
    split at h
    · have hlt : _ < ss.length := (List.getElem?_eq_some_iff.1 hv).1
      have hb : ∀ {i : Nat} (hi : i < ss.length), ss[i]? = some v → True := fun _ _ => trivial
      rw [eraseIdx_insertIdx_self _ _ _ hlt, show ss.set _ _ = ss from by
        rw [← (List.getElem?_eq_some_iff.1 hv).2]; exact List.set_getElem_self hlt] at h
      exact ih h
    · cases h
      exact ⟨hv, rfl⟩

theorem solidity_unchecked (hd : ∀ a b, env.digest a = env.digest b → a = b) : Told (R := R) (Solidity.uncheckedBlockMutate env) := by
  intro j r₁ r₂ s₁ s₂ j₁ j₂ rep₁ rep₂ c₁ c₂ h₁ h₂ h
  simp only [Solidity.uncheckedBlockMutate] at h₁ h₂
  generalize Json.takeValueForKey "statements" j = q at h₁ h₂
  split at h₁
  · simp only at h₂
    split at h₁ <;> try (cases h₁; done)
    split at h₂ <;> try (cases h₂; done)
    rename_i e₁ _ _ _ _ _ e₂
    have k₁ := unchecked_draw e₁
    have k₂ := unchecked_draw e₂
    cases h₁; cases h₂
    have := hd _ _ (Option.some.inj h)
    cases this
    simp_all
  · cases h₁

theorem vyper_binary (hd : ∀ a b, env.digest a = env.digest b → a = b) {ops : List String} {t : MutationType} :
    Told (R := R) (Vyper.binaryOpMutate env ops t) := by
  intro j r₁ r₂ s₁ s₂ j₁ j₂ rep₁ rep₂ c₁ c₂ h₁ h₂ h
  simp only [Vyper.binaryOpMutate] at h₁ h₂
  generalize Json.takeValueForKey "op" j = q at h₁ h₂
  split at h₁
  · simp only at h₂
    split at h₁ <;> try (cases h₁; done)
    split at h₂ <;> try (cases h₂; done)
    split at h₁ <;> try (cases h₁; done)
    split at h₂ <;> try (cases h₂; done)
    split at h₁ <;> try (cases h₁; done)
    split at h₂ <;> try (cases h₂; done)
    split at h₁ <;> try (cases h₁; done)
    split at h₂ <;> try (cases h₂; done)
    cases h₁; cases h₂
    have := hd _ _ (Option.some.inj h)
    cases this
    simp_all
  · cases h₁

theorem vyper_value_of {r s : R} {n : Json} {ps : List HashPart} (h : Vyper.assignmentValue env r = .ok (n, ps, s)) :
    (∃ v, ps = [.byte 0, .int v] ∧ n = Vyper.integerConstantNode env v) ∨ (∃ v, ps = [.byte 1, .int v] ∧ n = Vyper.integerConstantNode env v) ∨
    (∃ v : Nat, ps = [.byte 2, .index v] ∧ n = Vyper.booleanConstantNode (decide (v = 1))) ∨
    ∃ v, ps = [.byte 3, .text v] ∧ n = Vyper.floatConstantNode v := by
  simp only [Vyper.assignmentValue] at h
  split at h
  · split at h <;> cases h
    exact .inl ⟨_, rfl, rfl⟩
  · split at h
    · split at h <;> cases h
      exact .inr (.inl ⟨_, rfl, rfl⟩)
    · split at h
      · cases h
        exact .inr (.inr (.inl ⟨_, rfl, rfl⟩))
      · cases h
        exact .inr (.inr (.inr ⟨_, rfl, rfl⟩))

theorem vyper_value {r₁ r₂ s₁ s₂ : R} {n₁ n₂ : Json} {ps : List HashPart}
    (h₁ : Vyper.assignmentValue env r₁ = .ok (n₁, ps, s₁)) (h₂ : Vyper.assignmentValue env r₂ = .ok (n₂, ps, s₂)) : n₁ = n₂ := by
  rcases vyper_value_of h₁ with ⟨v, rfl, rfl⟩ | ⟨v, rfl, rfl⟩ | ⟨v, rfl, rfl⟩ | ⟨v, rfl, rfl⟩ <;>
    rcases vyper_value_of h₂ with ⟨w, h, rfl⟩ | ⟨w, h, rfl⟩ | ⟨w, h, rfl⟩ | ⟨w, h, rfl⟩ <;> cases h <;> rfl

theorem vyper_assignment (hd : ∀ a b, env.digest a = env.digest b → a = b) : Told (R := R) (Vyper.assignmentMutate env) := by
  intro j r₁ r₂ s₁ s₂ j₁ j₂ rep₁ rep₂ c₁ c₂ h₁ h₂ h
  simp only [Vyper.assignmentMutate] at h₁ h₂
  cases h3 : Json.field? "value" j with
  | none => simp only [h3] at h₁; cases h₁
  | some rhs =>
  simp only [h3] at h₁ h₂
  cases h4 : Vyper.assignmentValue env r₁ with
  | ok a =>
    cases h5 : Vyper.assignmentValue env r₂ with
    | ok b =>
      obtain ⟨n₁, p₁, q₁⟩ := a
      obtain ⟨n₂, p₂, q₂⟩ := b
      simp only [h4, h5] at h₁ h₂
      have key : p₁ = p₂ → n₁ = n₂ := by rintro rfl; exact vyper_value h4 h5
      have hp : p₁ = p₂ := by
        split at h₁ <;> try (cases h₁; done)
        split at h₂ <;> try (cases h₂; done)
        cases h₁; cases h₂
        exact hd _ _ (Option.some.inj h)
      cases key hp
      split at h₁ <;> try (cases h₁; done)
      split at h₂ <;> try (cases h₂; done)
      cases h₁; cases h₂
      simp_all
    | _ => simp only [h5] at h₂; cases h₂
  | _ => simp only [h4] at h₁; cases h₁

theorem vyper_call (hd : ∀ a b, env.digest a = env.digest b → a = b) : Told (R := R) (Vyper.functionCallMutate env) := by
  intro j r₁ r₂ s₁ s₂ j₁ j₂ rep₁ rep₂ c₁ c₂ h₁ h₂ h
  simp only [Vyper.functionCallMutate] at h₁ h₂
  cases ha : Vyper.arrayField "args" j with
  | none => simp only [ha] at h₁; cases h₁
  | some args =>
    simp only [ha] at h₁ h₂
    split at h₁ <;> try (cases h₁; done)
    split at h₂ <;> try (cases h₂; done)
    split at h₁ <;> try (cases h₁; done)
    split at h₂ <;> try (cases h₂; done)
    cases h₁; cases h₂
    have := hd _ _ (Option.some.inj h)
    cases this
    simp_all

theorem vyper_if (hd : ∀ a b, env.digest a = env.digest b → a = b) : Told (R := R) (Vyper.ifMutate env) := by
  intro j r₁ r₂ s₁ s₂ j₁ j₂ rep₁ rep₂ c₁ c₂ h₁ h₂ h
  simp only [Vyper.ifMutate] at h₁ h₂
  cases hf : Json.field? "test" j with
  | none => simp only [hf] at h₁; cases h₁
  | some c =>
    simp only [hf] at h₁ h₂
    generalize (nextU64 r₁).1 % 3 = a at h₁
    generalize (nextU64 r₂).1 % 3 = b at h₂
    generalize Json.takeValueForKey "test" j = q at h₁ h₂
    have hab : a = b := by
      have key : rep₁.randomBehaviorHash = some (env.digest [.index a]) ∧ rep₂.randomBehaviorHash = some (env.digest [.index b]) := by
        constructor
        · repeat' (split at h₁)
          all_goals (cases h₁; rfl)
        · repeat' (split at h₂)
          all_goals (cases h₂; rfl)
      rw [key.1, key.2] at h
      have := hd _ _ (Option.some.inj h)
      simpa using this
    subst hab
    split at h₁
    · rename_i ha
      rw [if_pos ha] at h₂
      cases h₁; cases h₂; exact ⟨rfl, rfl⟩
    · rename_i ha
      rw [if_neg ha] at h₂
      split at h₁
      · rename_i ha
        rw [if_pos ha] at h₂
        cases h₁; cases h₂; exact ⟨rfl, rfl⟩
      · rename_i ha
        rw [if_neg ha] at h₂
        split at h₁
        · simp only at h₂
          cases h₁; cases h₂; exact ⟨rfl, rfl⟩
        · simp only at h₂
          cases h₁; cases h₂; exact ⟨rfl, rfl⟩

/-- The exchange of operands does not depend on random numbers. -/
theorem vyper_operands_draws {j : Json} (r s : R) (j' : Json) (rep : MutatorResult) (c : Option Json) (r' : R)
    (h : Vyper.swapOperandsMutate env j r = .ok (j', rep, c, r')) : Vyper.swapOperandsMutate env j s = .ok (j', rep, c, s) := by
  unfold Vyper.swapOperandsMutate at h ⊢
  generalize j.getStrForKey "ast_type" = x at h ⊢
  cases x with
  | none => cases h
  | some t =>
    simp only at h ⊢
    generalize Vyper.swapSides j = y at h ⊢
    generalize Json.takeValueForKey "values" j = z at h ⊢
    split at h
    · rename_i ht
      rw [if_pos ht]
      rcases y with ⟨y, _ | ⟨l, q⟩⟩ <;> cases h <;> rfl
    · rename_i ht
      rw [if_neg ht]
      split at h
      · rename_i ht
        rw [if_pos ht]
        rcases z with ⟨_ | z, k⟩
        · cases h; rfl
        · rcases z with _ | _ | _ | _ | (_ | ⟨a, _ | ⟨b, l⟩⟩) | _ <;> first | (cases h; done) | (cases h; rfl)
      · rename_i ht
        rw [if_neg ht]
        cases h; rfl

theorem vyper_operands : Told (R := R) (Vyper.swapOperandsMutate env) := by
  intro j r₁ r₂ s₁ s₂ j₁ j₂ rep₁ rep₂ c₁ c₂ h₁ h₂ _
  have h₁ := vyper_operands_draws r₁ r₂ _ _ _ _ h₁
  rw [h₂] at h₁
  cases h₁
  exact ⟨rfl, rfl⟩

theorem vyper_lines (hd : ∀ a b, env.digest a = env.digest b → a = b) : Told (R := R) (Vyper.swapLinesMutate env) := by
  intro j r₁ r₂ s₁ s₂ j₁ j₂ rep₁ rep₂ c₁ c₂ h₁ h₂ h
  simp only [Vyper.swapLinesMutate] at h₁ h₂
  generalize Json.takeValueForKey "body" j = q at h₁ h₂
  split at h₁
  · simp only at h₂
    split at h₁ <;> try (cases h₁; done)
    split at h₂ <;> try (cases h₂; done)
    split at h₁ <;> try (cases h₁; done)
    split at h₂ <;> try (cases h₂; done)
    split at h₁ <;> try (cases h₁; done)
    split at h₂ <;> try (cases h₂; done)
    cases h₁; cases h₂
    have := hd _ _ (Option.some.inj h)
    cases this
    simp_all
  · cases h₁

theorem vyper_unary : Told (R := R) (Vyper.unaryOpMutate env) := by
  intro j r₁ r₂ s₁ s₂ j₁ j₂ rep₁ rep₂ c₁ c₂ h₁ h₂ _
  simp only [Vyper.unaryOpMutate] at h₁ h₂
  split at h₁ <;> try (cases h₁; done)
  split at h₂ <;> try (cases h₂; done)
  cases h₁; cases h₂
  simp_all

theorem vyper_draw {args : List Json} {r₁ r₂ s₁ s₂ : R} {x₁ x₂ : Option (Nat × Nat)} {ps : List HashPart}
    (h₁ : Vyper.swapArgumentsDraw env args r₁ = .ok (x₁, ps, s₁)) (h₂ : Vyper.swapArgumentsDraw env args r₂ = .ok (x₂, ps, s₂)) :
    x₁ = x₂ := by
  simp only [Vyper.swapArgumentsDraw] at h₁ h₂
  split at h₁
  · rename_i ha
    rw [if_pos ha] at h₂
    cases h₁; cases h₂; rfl
  · rename_i ha
    rw [if_neg ha] at h₂
    split at h₁
    · rename_i ha
      rw [if_pos ha] at h₂
      split at h₁ <;> try (cases h₁; done)
      split at h₂ <;> try (cases h₂; done)
      split at h₁ <;> try (cases h₁; done)
      split at h₂ <;> try (cases h₂; done)
      cases h₁; cases h₂; rfl
    · rename_i ha
      rw [if_neg ha] at h₂
      cases h₁; cases h₂; rfl

theorem vyper_arguments (hd : ∀ a b, env.digest a = env.digest b → a = b) : Told (R := R) (Vyper.swapArgumentsMutate env) := by
  intro j r₁ r₂ s₁ s₂ j₁ j₂ rep₁ rep₂ c₁ c₂ h₁ h₂ h
  simp only [Vyper.swapArgumentsMutate] at h₁ h₂
  generalize Json.takeValueForKey "args" j = q at h₁ h₂
  split at h₁
  · rename_i args j1
    simp only at h₂
    cases h4 : Vyper.swapArgumentsDraw env args r₁ with
    | ok a =>
      cases h5 : Vyper.swapArgumentsDraw env args r₂ with
      | ok b =>
        obtain ⟨n₁, p₁, q₁⟩ := a
        obtain ⟨n₂, p₂, q₂⟩ := b
        simp only [h4, h5] at h₁ h₂
        have key : p₁ = p₂ → n₁ = n₂ := by rintro rfl; exact vyper_draw h4 h5
        have hp : p₁ = p₂ := by
          have k₁ : rep₁.randomBehaviorHash = some (env.digest p₁) := by
            repeat' (split at h₁)
            all_goals first | (cases h₁; done) | (simp_all; done) | (cases h₁; simp_all [Vyper.result])
          have k₂ : rep₂.randomBehaviorHash = some (env.digest p₂) := by
            repeat' (split at h₂)
            all_goals first | (cases h₂; done) | (simp_all; done) | (cases h₂; simp_all [Vyper.result])
          rw [k₁, k₂] at h
          exact hd _ _ (Option.some.inj h)
        cases key hp
        repeat' (split at h₁) <;> try (cases h₁; done)
        all_goals (repeat' (split at h₂)) <;> try (cases h₂; done)
        all_goals cases h₁; cases h₂; simp_all
      | _ => simp only [h5] at h₂; cases h₂
    | _ => simp only [h4] at h₁; cases h₁
  · cases h₁

theorem vyper_replacement {j : Json} {r₁ r₂ s₁ s₂ : R} {n₁ n₂ : List Json} {ps : List HashPart}
    (h₁ : Vyper.replacementStatement env j r₁ = .ok (n₁, ps, s₁)) (h₂ : Vyper.replacementStatement env j r₂ = .ok (n₂, ps, s₂)) :
    n₁ = n₂ := by
  unfold Vyper.replacementStatement at h₁ h₂
  generalize Json.field? "returns" j = x at h₁ h₂
  cases x with
  | none => cases h₁; cases h₂; rfl
  | some v =>
  simp only at h₁ h₂
  generalize v.getStrForKey "ast_type" = x at h₁ h₂
  cases x with
  | none => cases h₁; cases h₂; rfl
  | some t =>
  simp only at h₁ h₂
  by_cases ht : t = "Name"
  · rw [if_pos ht] at h₁ h₂
    generalize v.getStrForKey "id" = x at h₁ h₂
    cases x with
    | none => cases h₁; cases h₂; rfl
    | some id =>
    simp only at h₁ h₂
    generalize takeBytes 3 id = x at h₁ h₂
    cases x with
    | none => cases h₁
    | some p =>
    simp only at h₁ h₂
    by_cases hp : p = "boo"
    · rw [if_pos hp] at h₁ h₂
      generalize (nextU64 r₁).1 % 2 = a at h₁
      generalize (nextU64 r₂).1 % 2 = b at h₂
      cases h₁; cases h₂; rfl
    · rw [if_neg hp] at h₁ h₂
      by_cases hp : p = "uin"
      · rw [if_pos hp] at h₁ h₂
        generalize (nextU64 r₁).1 % 10 = a at h₁
        generalize (nextU64 r₂).1 % 10 = b at h₂
        cases h₁; cases h₂; rfl
      · rw [if_neg hp] at h₁ h₂
        by_cases hp : p = "int"
        · rw [if_pos hp] at h₁ h₂
          generalize (nextU64 r₁).1 &&& 20 = a at h₁
          generalize (nextU64 r₂).1 &&& 20 = b at h₂
          injection h₁ with h₁
          injection h₂ with h₂
          have e₁ := congrArg (fun x => x.2.1) h₁
          have e₂ := congrArg (fun x => x.2.1) h₂
          simp only at e₁ e₂
          rw [← e₂] at e₁
          have : (a : Int) = b := by simpa using e₁
          cases Int.ofNat.inj this
          exact (congrArg (fun x => x.1) h₁).symm.trans (congrArg (fun x => x.1) h₂)
        · rw [if_neg hp] at h₁ h₂
          by_cases hp : p = "str"
          · rw [if_pos hp] at h₁ h₂
            cases h₁; cases h₂; rfl
          · rw [if_neg hp] at h₁; cases h₁
  · rw [if_neg ht] at h₁ h₂
    by_cases hp : t = "Pass"
    · rw [if_pos hp] at h₁ h₂
      cases h₁; cases h₂; rfl
    · rw [if_neg hp] at h₁ h₂
      by_cases hp : t = "Tuple" ∨ t = "List"
      · rw [if_pos hp] at h₁ h₂
        generalize Vyper.arrayField "elements" v = x at h₁ h₂
        cases x <;> cases h₁ <;> cases h₂ <;> rfl
      · rw [if_neg hp] at h₁ h₂
        cases h₁; cases h₂; rfl

theorem vyper_delete (hd : ∀ a b, env.digest a = env.digest b → a = b) : Told (R := R) (Vyper.deleteStatementMutate env) := by
  intro j r₁ r₂ s₁ s₂ j₁ j₂ rep₁ rep₂ c₁ c₂ h₁ h₂ h
  simp only [Vyper.deleteStatementMutate] at h₁ h₂
  generalize Json.takeValueForKey "body" j = q at h₁ h₂
  split at h₁
  · rename_i ss k
    simp only at h₂
    split at h₁ <;> try (cases h₁; done)
    split at h₂ <;> try (cases h₂; done)
    split at h₁ <;> try (cases h₁; done)
    split at h₂ <;> try (cases h₂; done)
    rename_i i₁ q₁ _ _ i₂ q₂ _ _ v₁ hv₁ _ v₂ hv₂
    split at h₁ <;> try (cases h₁; done)
    split at h₂ <;> try (cases h₂; done)
    rename_i m₁ p₁ t₁ e₁ _ m₂ p₂ t₂ e₂
    cases h₁; cases h₂
    have := hd _ _ (Option.some.inj h)
    obtain ⟨hi, rfl⟩ := List.cons.inj this
    cases hi
    rw [hv₁] at hv₂
    cases hv₂
    have hm : m₁ = m₂ := by
      split at e₁
      · rename_i hl
        rw [if_pos hl] at e₂
        exact vyper_replacement e₁ e₂
      · rename_i hl
        rw [if_neg hl] at e₂
        cases e₁; cases e₂; rfl
    rw [hm]
    exact ⟨rfl, rfl⟩
  · cases h₁

end Duplicates
end Mutagenyx
