import Verif.Spec.Replacement
import Verif.Spec.DemoNodes
import Verif.Props.Ends
import Verif.Props.VyperMutators

/-!
# What takes the place of the only statement of a Vyper function (property C73)
-/

namespace Mutagenyx

open Json

variable {R : Type} [Rand R]

/-- What the mutator makes of a node with one statement. -/
theorem deleteOnly {env : MutEnv} {m : Mutator R} (hm : Vyper.mutatorFor env .deleteStatement = some m) {j s : Json} {r : R}
    (hmut : m.isMutable j = true) (hs : j.field "body" = some (.arr [s])) :
    ∃ j1 r1, (∀ k, k ≠ "body" → j1.field k = j.field k) ∧
      ∀ more ps r2, Vyper.replacementStatement env j1 r1 = .ok (more, ps, r2) →
        ∃ j' res c, m.mutate j r = .ok (j', res, c, r2) ∧ BodyBecomes s more j' ∧ OnlyField "body" j j' := by
  cases hm
  simp only [Vyper.deleteStatementMutable, Bool.and_eq_true, Bool.or_eq_true] at hmut
  have hj : IsObj j := by
    rcases hmut.1 with ((h | h) | h) | h <;> exact isVyperKind_isObj (vyper_hasType.1 h)
  cases htk : takeValueForKey "body" j with
  | mk o j1 =>
    obtain ⟨ho, _, hf1⟩ := take_eq (by decide) hj htk
    rw [hs] at ho
    subst ho
    refine ⟨j1, (nextU64 r).2, fun k hk => ?_, fun more ps r2 he => ?_⟩
    · rw [hf1 k, if_neg (fun h => hk h.1.symm)]
    · have hset := onlyField_take_set (k := "body") (by decide) (.arr ([Vyper.commentNodeFromNode s] ++ more)) hj htk
      have hw := vyper_commentNodeFromNode_spec s
      have key : Vyper.deleteStatementMutate env j r = .ok (setNodeForKey "body" (.arr ([Vyper.commentNodeFromNode s] ++ more)) j1,
          Vyper.result .deleteStatement (Vyper.nodeId s) (some (env.digest (.index 0 :: ps))),
          some (Vyper.commentNode "DeleteStatement Mutator: commented out the following line."), r2) := by
        simp only [Vyper.deleteStatementMutate, htk]
        rw [drawIndex_isOk (by simp)]
        simp only [List.length_singleton, Nat.mod_one, List.getElem?_cons_zero, List.eraseIdx_cons_zero, List.insertIdx_zero,
          he, if_true]
      exact ⟨_, _, _, key, ⟨_, hset.2, hw.1, hw.2⟩, hset.1⟩

theorem isIntBetween_mk {env : MutEnv} {lo hi v : Int} (h1 : lo ≤ v) (h2 : v ≤ hi) (hl : -100 ≤ lo) (hh : hi ≤ 100) :
    IsIntBetween lo hi (Vyper.integerConstantNode env v) := by
  refine ⟨?_, v, ?_, h1, h2⟩
  · unfold IsVyperKind TextField Vyper.integerConstantNode
    simp [field_ofFields, lastField]
  · have e : field "value" (Vyper.integerConstantNode env v) = some (Vyper.parsedInt env v) := by
      unfold Vyper.integerConstantNode
      simp [field_ofFields, lastField]
    rw [e]
    unfold Vyper.parsedInt
    rw [if_pos (by constructor <;> omega)]
    rfl

/-- **C73.** When the only statement of a Vyper function is deleted, the body holds the statement as a comment, and a
statement that fits the declared result takes its place: `pass` without result, `return True` or `return False` for
`bool`, a number from 0 to 9 for unsigned and from -10 to 10 for signed integers, which every such type has.  For a tuple
as many values are returned as it has.  Nothing but the body is changed.
Missing: the values in tuples and results of all other types, for which there are counterexamples. -/
theorem C73_partial {env : MutEnv} {m : Mutator R} (hm : Vyper.mutatorFor env .deleteStatement = some m) {j s : Json} {r : R}
    (hmut : m.isMutable j = true) (hs : j.field "body" = some (.arr [s])) :
    let Becomes (new : Json → Prop) : Prop := ∃ j' res c r' x, m.mutate j r = .ok (j', res, c, r') ∧
      BodyBecomes s [x] j' ∧ new x ∧ OnlyField "body" j j'
    (NoResult j → Becomes (IsVyperKind "Pass")) ∧
    (ResultNamed "bool" j → Becomes (Returns IsBool)) ∧
    (∀ bits, ResultNamed ("uint" ++ bits) j → Becomes (Returns (IsIntBetween 0 9))) ∧
    (∀ bits, ResultNamed ("int" ++ bits) j → Becomes (Returns (IsIntBetween (-10) 10))) ∧
    (∀ ret es, j.field "returns" = some ret → IsVyperKind "Tuple" ret → ret.field "elements" = some (.arr es) →
      Becomes (Returns (IsTupleOf es.length))) := by
  intro Becomes
  obtain ⟨j1, r1, hf, hrun⟩ := deleteOnly (r := r) hm hmut hs
  have done : ∀ {new : Json → Prop} (x ps r2), Vyper.replacementStatement env j1 r1 = .ok ([x], ps, r2) → new x →
      Becomes new := by
    intro new x ps r2 h hx
    obtain ⟨j', res, c, h1, h2, h3⟩ := hrun _ _ _ h
    exact ⟨j', res, c, _, x, h1, h2, hx, h3⟩
  have hret : j1.field "returns" = j.field "returns" := hf _ (by decide)
  have named : ∀ id ret, j.field "returns" = some ret → IsVyperKind "Name" ret → TextField "id" ret id →
      Vyper.replacementStatement env j1 r1 = match takeBytes 3 id with
          | none => .panic
          | some p =>
            if p = "boo" then
              .ok ([Vyper.returnNode (Vyper.booleanConstantNode (decide ((nextU64 r1).1 % 2 = 1)))],
                [.index ((nextU64 r1).1 % 2)], (nextU64 r1).2)
            else if p = "uin" then
              .ok ([Vyper.returnNode (Vyper.integerConstantNode env ((nextU64 r1).1 % 10 : Nat))],
                [.index ((nextU64 r1).1 % 10)], (nextU64 r1).2)
            else if p = "int" then
              .ok ([Vyper.returnNode (Vyper.integerConstantNode env (((nextU64 r1).1 &&& 20 : Nat) - 10))],
                [.int ((nextU64 r1).1 &&& 20 : Nat)], (nextU64 r1).2)
            else if p = "str" then
              .ok ([Vyper.returnNode (Vyper.stringNode Vyper.loremIpsum)], [.text Vyper.loremIpsum], r1)
            else .err .unrecognizedLanguageType := by
    intro id ret h1 h2 h3
    unfold Vyper.replacementStatement
    rw [field?_eq_field, hret, h1]
    simp only [getStr_of_text (by decide) h2, getStr_of_text (by decide) h3, if_true]
    rfl
  refine ⟨fun h => ?_, fun h => ?_, fun bits h => ?_, fun bits h => ?_, fun ret es h1 h2 h3 => ?_⟩
  · refine done Vyper.passNode [] r1 ?_ rfl
    unfold Vyper.replacementStatement
    rw [field?_eq_field, hret]
    rcases h with h | h <;> rw [h] <;> rfl
  · obtain ⟨ret, h1, h2, h3⟩ := h
    refine done (Vyper.returnNode (Vyper.booleanConstantNode (decide ((nextU64 r1).1 % 2 = 1)))) [.index ((nextU64 r1).1 % 2)]
      (nextU64 r1).2 ((named _ _ h1 h2 h3).trans ?_) ?_
    · rw [show ("bool" : String) = "boo" ++ "l" by decide, takeBytes3 (by simp)]
      rfl
    · exact ⟨rfl, _, rfl, (isVyperBool_mk _).1, _, (isVyperBool_mk _).2⟩
  · obtain ⟨ret, h1, h2, h3⟩ := h
    refine done (Vyper.returnNode (Vyper.integerConstantNode env ((nextU64 r1).1 % 10 : Nat))) [.index ((nextU64 r1).1 % 10)]
      (nextU64 r1).2 ((named _ _ h1 h2 h3).trans ?_) ?_
    · rw [show ("uint" : String) = "uin" ++ "t" by decide, String.append_assoc, takeBytes3 (by simp)]
      rfl
    · have hlt : (nextU64 r1).1 % 10 < 10 := Nat.mod_lt _ (by decide)
      exact ⟨rfl, _, rfl, isIntBetween_mk (by omega) (by omega) (by decide) (by decide)⟩
  · obtain ⟨ret, h1, h2, h3⟩ := h
    refine done (Vyper.returnNode (Vyper.integerConstantNode env (((nextU64 r1).1 &&& 20 : Nat) - 10)))
      [.int ((nextU64 r1).1 &&& 20 : Nat)] (nextU64 r1).2 ((named _ _ h1 h2 h3).trans ?_) ?_
    · rw [takeBytes3 (by simp)]
      rfl
    · have hle : (nextU64 r1).1 &&& 20 ≤ 20 := Nat.and_le_right
      exact ⟨rfl, _, rfl, isIntBetween_mk (by omega) (by omega) (by decide) (by decide)⟩
  · refine done (Vyper.returnNode (Vyper.listLikeNode es.length "Tuple")) [] r1 ?_ ⟨rfl, _, rfl, rfl, _, rfl, by simp⟩
    unfold Vyper.replacementStatement
    rw [field?_eq_field, hret, h1]
    simp only [getStr_of_text (by decide) h2, vyper_arrayField_iff.2 h3]
    rfl

open DemoNodes Vy in
example : ∃ m, Vyper.mutatorFor (R := ListRand) env .deleteStatement = some m ∧ m.isMutable (func [ret] (name 3 "uint256")) = true ∧
    ResultNamed ("uint" ++ "256") (func [ret] (name 3 "uint256")) :=
  ⟨_, rfl, by decide +kernel, _, rfl, rfl, rfl⟩

namespace Replacement

open DemoNodes Vy

/-- The type `String[10]`. -/
def subscriptType : Json :=
  .obj [("ast_type", .str "Subscript"), ("node_id", id' 20), ("slice", int 21 10), ("value", name 22 "String")]

/-- The type `(bool, uint256)`. -/
def tupleType : Json :=
  .obj [("ast_type", .str "Tuple"), ("elements", .arr [name 23 "bool", name 24 "uint256"]), ("node_id", id' 25)]

/-- **C73: counterexample.** For a result of type `String[10]` nothing takes the place of the statement: the body is
only a comment. -/
theorem C73_subscript_counterexample :
    run (Vyper.mutatorFor env .deleteStatement) (func [ret] subscriptType) [0] =
      some (true, some (func [Vyper.commentNodeFromNode ret] subscriptType)) := by decide +kernel

/-- **C73: counterexample.** For a tuple, `None` is returned for each element, whatever its type. -/
theorem C73_tuple_counterexample :
    ∃ x none, run (Vyper.mutatorFor env .deleteStatement) (func [ret] tupleType) [0] =
        some (true, some (func [Vyper.commentNodeFromNode ret, x] tupleType)) ∧
      x = Vyper.returnNode (.obj [("ast_type", .str "Tuple"), ("elements", .arr [none, none]), ("node_id", id' 9999991)]) ∧
      none = .obj [("ast_type", .str "NameConstant"), ("node_id", id' 9999992), ("value", .null)] :=
  ⟨_, _, by decide +kernel, rfl, rfl⟩

/-- **C73: counterexample.** For `address`, `bytes32` and `decimal` the mutator fails, and for a type whose name has less
than three letters it crashes, although it said that it could mutate the function. -/
theorem C73_name_counterexample :
    (∀ t ∈ ["address", "bytes32", "decimal"],
      mutable (Vyper.mutatorFor env .deleteStatement) (func [ret] (name 3 t)) = true ∧
      errs (mutate (Vyper.mutatorFor env .deleteStatement) (func [ret] (name 3 t)) [0, 0]) = true) ∧
    mutable (Vyper.mutatorFor env .deleteStatement) (func [ret] (name 3 "P2")) = true ∧
    panics (mutate (Vyper.mutatorFor env .deleteStatement) (func [ret] (name 3 "P2")) [0, 0]) = true := by decide +kernel

end Replacement
end Mutagenyx
