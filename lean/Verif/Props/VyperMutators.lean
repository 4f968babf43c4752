import Verif.Props.SolidityMutators

/-!
# Vyper mutations of calls, statements, literals and assignments (C32-C38)
-/

namespace Mutagenyx
open Json

variable {R : Type} [Rand R]

/-- Setting two positions to each other's elements. -/
theorem exchanged_set {xs : List Json} {i k : Nat} {a b : Json} (hik : i ≠ k)
    (ha : xs[i]? = some a) (hb : xs[k]? = some b) : Exchanged i k xs ((xs.set i b).set k a) := by
  have hi : i < xs.length := (List.getElem?_eq_some_iff.1 ha).1
  have hk : k < xs.length := (List.getElem?_eq_some_iff.1 hb).1
  refine ⟨hik, hi, hk, by simp, ?_, ?_, fun m h1 h2 => ?_⟩
  · rw [List.getElem?_set, if_neg (Ne.symm hik), List.getElem?_set, if_pos rfl, if_pos hi, hb]
  · rw [List.getElem?_set, if_pos rfl, if_pos (by simpa using hk), ha]
  · rw [List.getElem?_set, if_neg (Ne.symm h2), List.getElem?_set, if_neg (Ne.symm h1)]

theorem swapArgumentsDraw_ok {env : MutEnv} {args : List Json} {r r' : R} {o : Option (Nat × Nat)}
    {ps : List HashPart} (hl : args.length ≥ 2)
    (h : Vyper.swapArgumentsDraw env args r = .ok (o, ps, r')) :
    ∃ i k, o = some (i, k) ∧ i ≠ k ∧ i < args.length ∧ k < args.length := by
  unfold Vyper.swapArgumentsDraw at h
  split at h
  · simp only [Outcome.ok.injEq, Prod.mk.injEq] at h
    exact ⟨0, 1, h.1.symm, by decide, by omega, by omega⟩
  · split at h
    · split at h
      · rename_i i1 r1 hd
        split at h
        · rename_i i2 r2 hd2
          simp only [Outcome.ok.injEq, Prod.mk.injEq] at h
          have h2 := drawUntil_ok hd2
          simp only [bne_iff_ne, ne_eq] at h2
          exact ⟨i1, i2, h.1.symm, fun e => h2.2 e.symm, drawIndex_ok hd, h2.1⟩
        all_goals cases h
      all_goals cases h
    · omega

/-- Two arguments are exchanged and nothing else changes.  Missing: that they have the same type, which
the Vyper mutator does not look at (`C32_vyper_types_counterexample`). -/
theorem C32_vyper_partial {env : MutEnv} {m : Mutator R}
    (hm : Vyper.mutatorFor env .swapFunctionArguments = some m) {j j' : Json} {r r' : R}
    {res : MutatorResult} {c : Option Json} (hmut : m.isMutable j = true)
    (h : m.mutate j r = .ok (j', res, c, r')) :
    IsVyperKind "Call" j ∧
    (∃ args args' i k, j.field "args" = some (.arr args) ∧ j'.field "args" = some (.arr args') ∧
      Exchanged i k args args') ∧
    OnlyField "args" j j' ∧ res.mutatedNodeId = vyperId j := by
  cases hm
  simp only [Vyper.swapArgumentsMutable, Bool.and_eq_true] at hmut
  have hk := vyper_hasType.1 hmut.1
  have hj := isVyperKind_isObj hk
  have hmut2 := hmut.2
  simp only [Vyper.swapArgumentsMutate] at h
  cases htk : takeValueForKey "args" j with
  | mk o j1 =>
    obtain ⟨ho, hj1, _⟩ := take_eq (by decide) hj htk
    rw [htk] at h
    split at h
    · rename_i args j2 heq
      obtain ⟨rfl, rfl⟩ := Prod.mk.inj heq
      rw [vyper_arrayField_iff.2 ho.symm] at hmut2
      have hl : args.length ≥ 2 := by simpa using hmut2
      split at h
      · rename_i i1 i2 ps r1 hd
        obtain ⟨i, k, he, hik, hi, hk'⟩ := swapArgumentsDraw_ok hl hd
        simp only [Option.some.injEq, Prod.mk.injEq] at he
        obtain ⟨rfl, rfl⟩ := he
        split at h
        · rename_i a1 a2 ha1 ha2
          simp only [Outcome.ok.injEq, Prod.mk.injEq] at h
          obtain ⟨rfl, rfl, _, _⟩ := h
          have hset := onlyField_take_set (k := "args") (by decide)
            (.arr ((args.set i1 a2).set i2 a1)) hj htk
          exact ⟨hk, ⟨args, _, i1, i2, ho.symm, hset.2, exchanged_set hik ha1 ha2⟩, hset.1,
            vyperId_onlyField (by decide) hset.1⟩
        · cases h
      · rename_i ps r1 hd
        obtain ⟨i, k, he, _⟩ := swapArgumentsDraw_ok hl hd
        cases he
      all_goals cases h
    · cases h

open DemoNodes Vy in
example : run (Vyper.mutatorFor env .swapFunctionArguments) (call [name 1 "a", name 2 "b", name 3 "c"]) [2, 2, 0] =
    some (true, some (call [name 3 "c", name 2 "b", name 1 "a"])) := by decide +kernel

/-- Arguments of different types are exchanged: an integer and a string. -/
theorem C32_vyper_types_counterexample : ∃ (j j' : Json) (m : Mutator ListRand) (r r' : ListRand)
    (res : MutatorResult) (c : Option Json) (a b : Json),
    Vyper.mutatorFor DemoNodes.env .swapFunctionArguments = some m ∧
    m.isMutable j = true ∧ m.mutate j r = .ok (j', res, c, r') ∧
    j.field "args" = some (.arr [a, b]) ∧ j'.field "args" = some (.arr [b, a]) ∧
    IsVyperKind "Int" a ∧ IsVyperKind "Str" b :=
  ⟨DemoNodes.Vy.call [DemoNodes.Vy.int 1 5, DemoNodes.Vy.str 2 "x"], _, _, ⟨[]⟩, _, _, _,
    DemoNodes.Vy.int 1 5, DemoNodes.Vy.str 2 "x", rfl, by decide +kernel, rfl, rfl, rfl, rfl, rfl⟩

/-- Two statements at different positions are exchanged, neither a return; nothing else changes. -/
theorem C33_vyper {env : MutEnv} {m : Mutator R}
    (hm : Vyper.mutatorFor env .swapLines = some m) {j j' : Json} {r r' : R}
    {res : MutatorResult} {c : Option Json} (hmut : m.isMutable j = true)
    (h : m.mutate j r = .ok (j', res, c, r')) :
    (∃ ss ss' i k a b, j.field "body" = some (.arr ss) ∧ j'.field "body" = some (.arr ss') ∧
      Exchanged i k ss ss' ∧ ss[i]? = some a ∧ ss[k]? = some b ∧ ¬ IsVyperKind "Return" a ∧
      ¬ IsVyperKind "Return" b) ∧
    OnlyField "body" j j' ∧ res.mutatedNodeId = vyperId j := by
  cases hm
  simp only [Vyper.swapLinesMutable, Bool.and_eq_true, Bool.or_eq_true] at hmut
  have hj : IsObj j := by
    rcases hmut.1 with (h | h) | h <;> exact isVyperKind_isObj (vyper_hasType.1 h)
  simp only [Vyper.swapLinesMutate] at h
  have hnot : ∀ (ss : List Json) i, Vyper.notOfType "Return" ss i = true →
      ∃ a, ss[i]? = some a ∧ ¬ IsVyperKind "Return" a := by
    intro ss i hi
    unfold Vyper.notOfType at hi
    cases ha : ss[i]? with
    | none => simp [ha] at hi
    | some a =>
      refine ⟨a, rfl, fun hc => ?_⟩
      rw [ha] at hi
      simp [vyper_hasType.2 hc] at hi
  cases htk : takeValueForKey "body" j with
  | mk o j1 =>
    obtain ⟨ho, hj1, _⟩ := take_eq (by decide) hj htk
    rw [htk] at h
    split at h
    · rename_i ss j2 heq
      obtain ⟨rfl, rfl⟩ := Prod.mk.inj heq
      split at h
      · rename_i first r1 hd1
        split at h
        · rename_i second r2 hd2
          split at h
          · cases h
          · rename_i larger smaller ss' hex
            simp only [Outcome.ok.injEq, Prod.mk.injEq] at h
            obtain ⟨rfl, rfl, _, _⟩ := h
            have hg2 := (drawUntil_ok hd2).2
            simp only [Bool.and_eq_true, bne_iff_ne, ne_eq] at hg2
            obtain ⟨a, ha, hna⟩ := hnot ss first (drawUntil_ok hd1).2
            obtain ⟨b, hb, hnb⟩ := hnot ss second hg2.2
            have hset := onlyField_take_set (k := "body") (by decide) (.arr ss') hj htk
            exact ⟨⟨ss, ss', first, second, a, b, ho.symm, hset.2,
              (exchange_eq (fun e => hg2.1 e.symm) hex).1, ha, hb, hna, hnb⟩, hset.1,
              vyperId_onlyField (by decide) hset.1⟩
        all_goals cases h
      all_goals cases h
    · cases h

open DemoNodes Vy in
example : run (Vyper.mutatorFor env .swapLines) (func [stmt 1, stmt 2, ret] .null) [2, 1, 1, 0] =
    some (true, some (func [stmt 2, stmt 1, ret] .null)) := by decide +kernel

/-- What may be appended to a body whose only statement was deleted. -/
theorem replacementStatement_ok {env : MutEnv} {j : Json} {r r' : R} {more : List Json} {ps : List HashPart}
    (h : Vyper.replacementStatement env j r = .ok (more, ps, r')) :
    more = [] ∨ ∃ x, more = [x] ∧ (IsVyperKind "Pass" x ∨ IsVyperKind "Return" x) := by
  have hp : IsVyperKind "Pass" Vyper.passNode := rfl
  have hr : ∀ v, IsVyperKind "Return" (Vyper.returnNode v) := fun _ => rfl
  have one : ∀ x ps' (r'' : R), (IsVyperKind "Pass" x ∨ IsVyperKind "Return" x) →
      Outcome.ok ([x], ps', r'') = Outcome.ok (more, ps, r') →
      more = [] ∨ ∃ x, more = [x] ∧ (IsVyperKind "Pass" x ∨ IsVyperKind "Return" x) := by
    intro x ps' r'' hx he
    simp only [Outcome.ok.injEq, Prod.mk.injEq] at he
    exact Or.inr ⟨x, he.1.symm, hx⟩
  have none : ∀ ps' (r'' : R), Outcome.ok (([] : List Json), ps', r'') = Outcome.ok (more, ps, r') →
      more = [] ∨ ∃ x, more = [x] ∧ (IsVyperKind "Pass" x ∨ IsVyperKind "Return" x) := by
    intro ps' r'' he
    simp only [Outcome.ok.injEq, Prod.mk.injEq] at he
    exact Or.inl he.1.symm
  unfold Vyper.replacementStatement at h
  split at h
  · exact one _ _ _ (Or.inl hp) h
  · split at h
    · exact one _ _ _ (Or.inl hp) h
    · split at h
      · split at h
        · exact none _ _ h
        · split at h
          · cases h
          · simp only at h
            split at h
            · exact one _ _ _ (Or.inr (hr _)) h
            · split at h
              · exact one _ _ _ (Or.inr (hr _)) h
              · split at h
                · exact one _ _ _ (Or.inr (hr _)) h
                · split at h
                  · exact one _ _ _ (Or.inr (hr _)) h
                  · cases h
      · split at h
        · exact none _ _ h
        · split at h
          · split at h
            · exact one _ _ _ (Or.inr (hr _)) h
            · exact none _ _ h
          · exact none _ _ h

/-- One statement is turned into a comment that holds it; the other statements and all other fields stay.
Only when it was the only statement, at most one `pass` or `return` is appended, so that the body is not
empty.  Without the comments the body is the old one without that statement, plus that replacement. -/
theorem C34_vyper {env : MutEnv} {m : Mutator R}
    (hm : Vyper.mutatorFor env .deleteStatement = some m) {j j' : Json} {r r' : R}
    {res : MutatorResult} {c : Option Json} (hmut : m.isMutable j = true)
    (h : m.mutate j r = .ok (j', res, c, r')) :
    (∃ ss ss' more i v w, j.field "body" = some (.arr ss) ∧ j'.field "body" = some (.arr (ss' ++ more)) ∧
      ReplacedAt i w ss ss' ∧ ss[i]? = some v ∧ IsVyperKind "Comment" w ∧ w.field "value" = some v ∧
      res.mutatedNodeId = vyperId v ∧
      (2 ≤ ss.length → more = []) ∧
      (more = [] ∨ ∃ x, more = [x] ∧ (IsVyperKind "Pass" x ∨ IsVyperKind "Return" x)) ∧
      ∀ p : Json → Bool, (∀ x, p x = false ↔ IsVyperKind "Comment" x) →
        (∀ x ∈ ss, ¬ IsVyperKind "Comment" x) → ss'.filter p = ss.eraseIdx i) ∧
    OnlyField "body" j j' := by
  cases hm
  simp only [Vyper.deleteStatementMutable, Bool.and_eq_true, Bool.or_eq_true] at hmut
  have hj : IsObj j := by
    rcases hmut.1 with ((h | h) | h) | h <;> exact isVyperKind_isObj (vyper_hasType.1 h)
  simp only [Vyper.deleteStatementMutate] at h
  cases htk : takeValueForKey "body" j with
  | mk o j1 =>
    obtain ⟨ho, hj1, _⟩ := take_eq (by decide) hj htk
    rw [htk] at h
    split at h
    · rename_i ss j2 heq
      obtain ⟨rfl, rfl⟩ := Prod.mk.inj heq
      split at h
      · rename_i i r1 hd
        split at h
        · cases h
        · rename_i v hv
          have hlt : i < ss.length := (List.getElem?_eq_some_iff.1 hv).1
          rw [eraseIdx_insertIdx_self _ _ _ hlt] at h
          have hrep : ReplacedAt i (Vyper.commentNodeFromNode v) ss (ss.set i (Vyper.commentNodeFromNode v)) :=
            replacedAt_set hlt
          have hw := vyper_commentNodeFromNode_spec v
          simp only [List.length_set] at h
          split at h
          · rename_i more ps r2 hx
            simp only [Outcome.ok.injEq, Prod.mk.injEq] at h
            obtain ⟨rfl, rfl, _, _⟩ := h
            have hset := onlyField_take_set (k := "body") (by decide)
              (.arr (ss.set i (Vyper.commentNodeFromNode v) ++ more)) hj htk
            have hmore : (2 ≤ ss.length → more = []) ∧
                (more = [] ∨ ∃ x, more = [x] ∧ (IsVyperKind "Pass" x ∨ IsVyperKind "Return" x)) := by
              by_cases h1 : ss.length = 1
              · rw [if_pos h1] at hx
                exact ⟨fun h2 => by omega, replacementStatement_ok hx⟩
              · rw [if_neg h1] at hx
                simp only [Outcome.ok.injEq, Prod.mk.injEq] at hx
                exact ⟨fun _ => hx.1.symm, Or.inl hx.1.symm⟩
            refine ⟨⟨ss, _, more, i, v, _, ho.symm, hset.2, hrep, hv, hw.1, hw.2, rfl, hmore.1, hmore.2,
              fun p hp hno => ?_⟩, hset.1⟩
            refine filter_replaced hrep ((hp _).2 hw.1) (fun x hx => ?_)
            cases hpx : p x with
            | true => rfl
            | false => exact absurd ((hp x).1 hpx) (hno x hx)
          all_goals cases h
      all_goals cases h
    · cases h

open DemoNodes Vy in
example : run (Vyper.mutatorFor env .deleteStatement) (func [ret] (name 3 "uint256")) [0, 17] =
    some (true, some (func [Vyper.commentNodeFromNode ret, Vyper.returnNode (int 9999999 7)] (name 3 "uint256"))) := by decide +kernel

/-- The condition becomes `True`, `False` or the negation of the old condition; nothing else changes. -/
theorem C35_vyper {env : MutEnv} {m : Mutator R}
    (hm : Vyper.mutatorFor env .ifStatement = some m) {j j' : Json} {r r' : R}
    {res : MutatorResult} {c : Option Json} (hmut : m.isMutable j = true)
    (h : m.mutate j r = .ok (j', res, c, r')) :
    IsVyperKind "If" j ∧
    (∃ old new, j.field "test" = some old ∧ j'.field "test" = some new ∧
      (IsVyperBool true new ∨ IsVyperBool false new ∨ IsVyperNegation old new)) ∧
    OnlyField "test" j j' ∧ j'.field "body" = j.field "body" ∧ j'.field "orelse" = j.field "orelse" ∧
    res.mutatedNodeId = vyperId j := by
  cases hm
  simp only [Vyper.ifMutable, Bool.and_eq_true] at hmut
  have hk := vyper_hasType.1 hmut.1
  have hj := isVyperKind_isObj hk
  simp only [Vyper.ifMutate, field?_eq_field] at h
  cases hc : field "test" j with
  | none => simp [hc] at h
  | some old =>
    rw [hc] at h
    simp only at h
    have fin : ∀ new j1, OnlyField "test" j j1 → field "test" j1 = some new →
        (IsVyperBool true new ∨ IsVyperBool false new ∨ IsVyperNegation old new) →
        IsVyperKind "If" j ∧
        (∃ old' new, some old = some old' ∧ j1.field "test" = some new ∧
          (IsVyperBool true new ∨ IsVyperBool false new ∨ IsVyperNegation old' new)) ∧
        OnlyField "test" j j1 ∧ j1.field "body" = j.field "body" ∧ j1.field "orelse" = j.field "orelse" ∧
        Vyper.nodeId j1 = vyperId j := by
      intro new j1 hof h1 h2
      exact ⟨hk, ⟨old, new, rfl, h1, h2⟩, hof, hof.2.2 _ (by decide), hof.2.2 _ (by decide),
        vyperId_onlyField (by decide) hof⟩
    split at h
    · simp only [Outcome.ok.injEq, Prod.mk.injEq] at h
      obtain ⟨rfl, rfl, _, _⟩ := h
      exact fin _ _ (onlyField_set (by decide) _ hj)
        (by rw [field_setNodeForKey (by decide) _ _ hj, if_pos rfl]) (Or.inl (isVyperBool_mk true))
    · split at h
      · simp only [Outcome.ok.injEq, Prod.mk.injEq] at h
        obtain ⟨rfl, rfl, _, _⟩ := h
        exact fin _ _ (onlyField_set (by decide) _ hj)
          (by rw [field_setNodeForKey (by decide) _ _ hj, if_pos rfl]) (Or.inr (Or.inl (isVyperBool_mk false)))
      · cases htk : takeValueForKey "test" j with
        | mk o j1 =>
          obtain ⟨ho, _, _⟩ := take_eq (by decide) hj htk
          rw [hc] at ho
          subst ho
          simp only [htk, Outcome.ok.injEq, Prod.mk.injEq] at h
          obtain ⟨rfl, rfl, _, _⟩ := h
          have hset := onlyField_take_set (k := "test") (by decide) (Vyper.unaryOpNode "Not" old) hj htk
          exact fin _ _ hset.1 hset.2 (Or.inr (Or.inr (isVyperNegation_mk old)))

open DemoNodes Vy in
example : run (Vyper.mutatorFor env .ifStatement) (ifNode (name 2 "b")) [2] =
    some (true, some (ifNode (Vyper.unaryOpNode "Not" (name 2 "b")))) := by decide +kernel

/-- Only the value of the literal changes; for a value in the range of `i64` the new value is the old one
plus or minus one or (for every third value of the first draw) the 64-bit number drawn next.  Missing: that
number may be the old one, and a value outside the range may stay as it is (`C36_vyper_unchanged_counterexample`). -/
theorem C36_vyper_partial {env : MutEnv} {m : Mutator R}
    (hm : Vyper.mutatorFor env .integer = some m) {j j' : Json} {r r' : R}
    {res : MutatorResult} {c : Option Json} (hmut : m.isMutable j = true)
    (h : m.mutate j r = .ok (j', res, c, r')) :
    IsVyperKind "Int" j ∧ OnlyField "value" j j' ∧ res.mutatedNodeId = vyperId j ∧
    ∀ i : Int, j.field "value" = some (.num (.int i)) → -(2 ^ 63) ≤ i → i < 2 ^ 63 →
      ∃ k : Int, j'.field "value" = some (.num (.int k)) ∧ -(2 ^ 63) ≤ k ∧ k < 2 ^ 63 ∧
        ((nextU64 r).1 % 3 ≠ 2 → k ≠ i ∧ ((k = i + 1 ∨ k = i - 1) ∨ (env.overflowChecks = false ∧
            ((i = 2 ^ 63 - 1 ∧ k = -(2 ^ 63)) ∨ (i = -(2 ^ 63) ∧ k = 2 ^ 63 - 1))))) ∧
        ((nextU64 r).1 % 3 = 2 → k % 2 ^ 64 = (nextU64 (nextU64 r).2).1) := by
  cases hm
  have hk := vyper_hasType.1 hmut
  have hj := isVyperKind_isObj hk
  simp only [Vyper.integerMutate, field?_eq_field] at h
  have key : ∀ v : Json, OnlyField "value" j (setNodeForKey "value" v j) ∧
      field "value" (setNodeForKey "value" v j) = some v := fun v =>
    ⟨onlyField_set (by decide) _ hj, by rw [field_setNodeForKey (by decide) _ _ hj, if_pos rfl]⟩
  split at h
  · rename_i hch
    simp only [Outcome.ok.injEq, Prod.mk.injEq] at h
    obtain ⟨rfl, rfl, _, _⟩ := h
    have hlt : (nextU64 (nextU64 r).2).1 < 2 ^ 64 := Rand.below_lt _ _ (by decide)
    refine ⟨hk, (key _).1, vyperId_onlyField (by decide) (key _).1, fun i _ _ _ => ⟨_, (key _).2, ?_⟩⟩
    generalize (nextU64 (nextU64 r).2).1 = n at hlt
    have : (-(2 ^ 63 : Int) ≤ u64AsI64 n ∧ u64AsI64 n < 2 ^ 63) ∧ u64AsI64 n % 2 ^ 64 = n := by
      unfold u64AsI64
      simp only
      split <;> omega
    exact ⟨this.1.1, this.1.2, fun hne => absurd hch hne, fun _ => this.2⟩
  · rename_i hch
    split at h
    · rename_i hnone
      simp only [Outcome.ok.injEq, Prod.mk.injEq] at h
      obtain ⟨rfl, rfl, _, _⟩ := h
      refine ⟨hk, ⟨hj, hj, fun _ _ => rfl⟩, rfl, fun i hi h1 h2 => ?_⟩
      rw [hi] at hnone
      simp [asI64, h1, h2] at hnone
      omega
    · rename_i i0 hi0
      split at h
      · cases h
      · rename_i k hk'
        simp only [Outcome.ok.injEq, Prod.mk.injEq] at h
        obtain ⟨rfl, rfl, _, _⟩ := h
        refine ⟨hk, (key _).1, vyperId_onlyField (by decide) (key _).1, fun i hi h1 h2 => ⟨k, (key _).2, ?_⟩⟩
        have hii : i0 = i := by
          rw [hi] at hi0
          simp only [Option.bind_some, asI64] at hi0
          split at hi0
          · exact (Option.some.inj hi0).symm
          · cases hi0
        subst hii
        generalize hd : (if (nextU64 r).1 % 3 = 0 then (1 : Int) else -1) = d at hk'
        have hd' : d = 1 ∨ d = -1 := by
          rw [← hd]; split <;> simp
        obtain ⟨hr, hne, hc⟩ := addI64_spec hd' h1 h2 hk'
        exact ⟨hr.1, hr.2, fun _ => ⟨hne, hc⟩, fun he => absurd he hch⟩

open DemoNodes Vy in
example : run (Vyper.mutatorFor env .integer) (int 1 7) [1] =
    some (true, some (int 1 6)) := by decide +kernel

/-- An integer outside the range of `i64` is left as it is. -/
theorem C36_vyper_unchanged_counterexample : ∃ (j j' : Json) (m : Mutator ListRand) (r r' : ListRand)
    (res : MutatorResult) (c : Option Json), Vyper.mutatorFor DemoNodes.env .integer = some m ∧
    m.isMutable j = true ∧ m.mutate j r = .ok (j', res, c, r') ∧
    j.field "value" = some (.num (.int (2 ^ 63))) ∧ j' = j :=
  ⟨DemoNodes.Vy.int 1 (2 ^ 63), DemoNodes.Vy.int 1 (2 ^ 63), _, ⟨[0]⟩, _, _, _, rfl,
    by decide +kernel, rfl, rfl, rfl⟩

/-- Only the assigned value changes; it becomes an integer constant, `True`/`False` or a decimal.  Missing:
that it fits the type of the target, which the Vyper mutator does not look at
(`C37_vyper_type_counterexample`). -/
theorem C37_vyper_partial {env : MutEnv} {m : Mutator R}
    (hm : Vyper.mutatorFor env .assignment = some m) {j j' : Json} {r r' : R}
    {res : MutatorResult} {c : Option Json} (hmut : m.isMutable j = true)
    (h : m.mutate j r = .ok (j', res, c, r')) :
    IsVyperKind "Assign" j ∧ OnlyField "value" j j' ∧ res.mutatedNodeId = vyperId j ∧
    ∃ new, j'.field "value" = some new ∧
      (IsVyperKind "Int" new ∨ (∃ b, IsVyperBool b new) ∨ IsVyperKind "Decimal" new) ∧
      ∀ i : Int, IsVyperKind "Int" new → new.field "value" = some (.num (.int i)) →
        -(2 ^ 127) ≤ i ∧ i < 2 ^ 128 := by
  cases hm
  have hk := vyper_hasType.1 hmut
  have hj := isVyperKind_isObj hk
  simp only [Vyper.assignmentMutate, field?_eq_field] at h
  split at h
  · cases h
  · split at h
    · rename_i new ps r1 hv
      have hf : field "value" (setNodeForKey "value" new j) = some new := by
        rw [field_setNodeForKey (by decide) _ _ hj, if_pos rfl]
      have hof : OnlyField "value" j (setNodeForKey "value" new j) := onlyField_set (by decide) _ hj
      simp only [hf, Outcome.ok.injEq, Prod.mk.injEq] at h
      obtain ⟨rfl, rfl, _, _⟩ := h
      refine ⟨hk, hof, vyperId_onlyField (by decide) hof, new, hf, ?_⟩
      have hint : ∀ v : Int, -(2 ^ 127) ≤ v → v < 2 ^ 128 → new = Vyper.integerConstantNode env v →
          (IsVyperKind "Int" new ∨ (∃ b, IsVyperBool b new) ∨ IsVyperKind "Decimal" new) ∧
          ∀ i : Int, IsVyperKind "Int" new → new.field "value" = some (.num (.int i)) →
            -(2 ^ 127) ≤ i ∧ i < 2 ^ 128 := by
        rintro v h1 h2 rfl
        have hkd : IsVyperKind "Int" (Vyper.integerConstantNode env v) := by
          unfold IsVyperKind TextField Vyper.integerConstantNode
          simp [field_ofFields, lastField]
        refine ⟨Or.inl hkd, fun i _ hi => ?_⟩
        have e : field "value" (Vyper.integerConstantNode env v) = some (Vyper.parsedInt env v) := by
          unfold Vyper.integerConstantNode
          simp [field_ofFields, lastField]
        rw [e] at hi
        unfold Vyper.parsedInt at hi
        split at hi
        · simp only [Option.some.injEq, Vyper.jint, Json.num.injEq, JNum.int.injEq] at hi
          subst hi
          exact ⟨h1, h2⟩
        · simp at hi
      unfold Vyper.assignmentValue at hv
      simp only at hv
      split at hv
      · split at hv
        · rename_i v r2 hg
          simp only [Outcome.ok.injEq, Prod.mk.injEq] at hv
          have := genRange_ok hg
          exact hint v (by omega) (by omega) hv.1.symm
        all_goals cases hv
      · split at hv
        · split at hv
          · rename_i v r2 hg
            simp only [Outcome.ok.injEq, Prod.mk.injEq] at hv
            have := genRange_ok hg
            exact hint v (by omega) (by omega) hv.1.symm
          all_goals cases hv
        · split at hv
          · simp only [Outcome.ok.injEq, Prod.mk.injEq] at hv
            obtain ⟨rfl, _⟩ := hv
            refine ⟨Or.inr (Or.inl ⟨_, isVyperBool_mk _⟩), fun i hi => ?_⟩
            have := isVyperKind_unique hi (isVyperBool_mk _).1
            simp at this
          · simp only [Outcome.ok.injEq, Prod.mk.injEq] at hv
            obtain ⟨rfl, _⟩ := hv
            have hkd : ∀ t, IsVyperKind "Decimal" (Vyper.floatConstantNode t) := by
              intro t
              unfold IsVyperKind TextField Vyper.floatConstantNode
              simp [field_ofFields, lastField]
            refine ⟨Or.inr (Or.inr (hkd _)), fun i hi => ?_⟩
            have := isVyperKind_unique hi (hkd _)
            simp at this
    all_goals cases h

open DemoNodes Vy in
example : run (Vyper.mutatorFor env .assignment) (assign (name 1 "a") (int 2 3)) [2, 1] =
    some (true, some (assign (name 1 "a") (Vyper.booleanConstantNode true))) := by decide +kernel

/-- The new value need not fit the type of the target: an integer is replaced by `True`, and an integer
outside the range of 64 bits is stored as a float. -/
theorem C37_vyper_type_counterexample :
    (∃ (j j' : Json) (m : Mutator ListRand) (r r' : ListRand) (res : MutatorResult) (c : Option Json)
      (old new : Json), Vyper.mutatorFor DemoNodes.env .assignment = some m ∧
      m.isMutable j = true ∧ m.mutate j r = .ok (j', res, c, r') ∧
      j.field "value" = some old ∧ IsVyperKind "Int" old ∧ j'.field "value" = some new ∧
      IsVyperBool true new) ∧
    (∃ (j j' : Json) (m : Mutator ListRand) (r r' : ListRand) (res : MutatorResult) (c : Option Json)
      (new : Json) (f : String), Vyper.mutatorFor DemoNodes.env .assignment = some m ∧
      m.isMutable j = true ∧ m.mutate j r = .ok (j', res, c, r') ∧ j'.field "value" = some new ∧
      IsVyperKind "Int" new ∧ new.field "value" = some (.num (.flt f))) :=
  let j := DemoNodes.Vy.assign (DemoNodes.Vy.name 1 "a") (DemoNodes.Vy.int 2 3)
  let new : Json := .obj [("ast_type", .str "Int"), ("node_id", .num (.int 9999999)),
    ("value", .num (.flt "18446744073709551616.0"))]
  have h : DemoNodes.run (Vyper.mutatorFor DemoNodes.env .assignment) j [1, 2 ^ 64] =
      some (true, some (DemoNodes.Vy.assign (DemoNodes.Vy.name 1 "a") new)) := by decide +kernel
  ⟨⟨j, _, _, ⟨[2, 1]⟩, _, _, _, _, _, rfl, by decide +kernel, rfl, rfl, rfl, rfl, isVyperBool_mk true⟩,
   let ⟨m, res, c, r', h1, h2, h3⟩ := DemoNodes.run_ok h
   ⟨j, _, m, _, r', res, c, new, _, h1, h2, h3, rfl, rfl, rfl⟩⟩

/-- A call is replaced by one of its own arguments, unchanged. -/
theorem C38_vyper {env : MutEnv} {m : Mutator R}
    (hm : Vyper.mutatorFor env .functionCall = some m) {j j' : Json} {r r' : R}
    {res : MutatorResult} {c : Option Json} (hmut : m.isMutable j = true)
    (h : m.mutate j r = .ok (j', res, c, r')) :
    IsVyperKind "Call" j ∧ (∃ args, j.field "args" = some (.arr args) ∧ j' ∈ args) ∧
    res.mutatedNodeId = vyperId j' := by
  cases hm
  simp only [Vyper.functionCallMutable, Bool.and_eq_true] at hmut
  have hk := vyper_hasType.1 hmut.1
  simp only [Vyper.functionCallMutate] at h
  cases ha : Vyper.arrayField "args" j with
  | none => simp [ha] at h
  | some args =>
    simp only [ha] at h
    split at h
    · rename_i i r1 hd
      split at h
      · cases h
      · rename_i v hv
        simp only [Outcome.ok.injEq, Prod.mk.injEq] at h
        obtain ⟨rfl, rfl, _, _⟩ := h
        refine ⟨hk, ⟨args, vyper_arrayField_iff.1 ha, List.mem_of_getElem? hv⟩, ?_⟩
        show (if v.asObj.isSome then vyperId v else none) = vyperId v
        split
        · rfl
        · rename_i ho
          unfold vyperId getIntForKey
          cases hg : get? "node_id" v with
          | none => rfl
          | some w =>
            obtain ⟨kvs, rfl⟩ := isObj_iff.1 (isObj_of_get? (by decide) (by decide) hg)
            exact absurd rfl ho
    all_goals cases h

open DemoNodes Vy in
example : run (Vyper.mutatorFor env .functionCall) (call [name 1 "a", int 2 3]) [1] =
    some (true, some (int 2 3)) := by decide +kernel

end Mutagenyx
