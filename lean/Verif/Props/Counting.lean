import Verif.Model.CountRng
import Verif.Props.Visitor
import Verif.Spec.DemoNodes

/-!
# Counting consumes no randomness (C42)
-/

namespace Mutagenyx
open Json
variable {R : Type}

theorem traverseList_pair {S : Type} {v : Visitor S} {w : Visitor (S × R)} (xs : List Json)
    (ih : ∀ c ∈ xs, ∀ s r, traverse w c (s, r) = ((traverse v c s).1, ((traverse v c s).2, r))) :
    ∀ s r, traverseList w xs (s, r) = ((traverseList v xs s).1, ((traverseList v xs s).2, r)) := by
  induction xs with
  | nil => intro s r; rfl
  | cons x xs ihx =>
    intro s r
    simp only [traverseList]
    rw [ih x (by simp) s r]
    simp only
    split
    · rfl
    · exact ihx (fun c hc => ih c (by simp [hc])) _ _

/-- A visitor that carries a second state around without touching it. -/
theorem traverse_pair {S : Type} (v : Visitor S) (w : Visitor (S × R))
    (hEnter : ∀ j s r, w.onEnter j (s, r) = (v.onEnter j s, r))
    (hPerm : ∀ j s r, w.havePermission j (s, r) = v.havePermission j s)
    (hVisit : ∀ j s r, w.visit j (s, r) = ((v.visit j s).1, ((v.visit j s).2, r)))
    (hChildren : ∀ j s r, w.visitChildren j (s, r) = v.visitChildren j s)
    (hStart : ∀ j s r, w.onStart j (s, r) = (v.onStart j s, r))
    (hEnd : ∀ j s r, w.onEnd j (s, r) = (v.onEnd j s, r))
    (hExit : ∀ j s r, w.onExit j (s, r) = (v.onExit j s, r)) (j : Json) :
    ∀ s r, traverse w j (s, r) = ((traverse v j s).1, ((traverse v j s).2, r)) := by
  induction j using induct with
  | h j ih =>
    intro s r
    rw [traverse_eq, traverse_eq]
    simp only [hEnter, hPerm, hVisit, hChildren]
    split
    · split
      · simp only [hExit]
      · split
        · simp only [hStart, traverseList_pair _ ih, hEnd, hExit]
        · simp only [hExit]
    · simp only [hExit]

theorem countNodeRng_eq (ms : List (Mutator R)) (j : Json) (t : CountTable) (r : R) :
    countNodeRng (ms.map Mutator.toTest) j t r = (countNode ms j t, r) := by
  unfold countNodeRng countNode
  induction ms generalizing t with
  | nil => rfl
  | cons m ms ih =>
    simp only [List.map_cons, List.foldl_cons]
    exact ih _

/-- **C42.** Counting returns the random state it was given, and its table does not depend on it. -/
theorem C42_counting_keeps_random_state (cx : LangCtx) (ps : Permissions) (ms : List (Mutator R)) (ast : Json)
    (r : R) :
    countMutableNodesRng cx ps (ms.map Mutator.toTest) ast r = (countMutableNodes cx ps ms ast, r) := by
  unfold countMutableNodesRng countMutableNodes
  rw [traverse_pair (counterVisitor cx ps ms) (counterVisitorRng cx ps (ms.map Mutator.toTest))]
  · intros; rfl
  · intros; rfl
  · intro j s r
    simp only [counterVisitorRng, counterVisitor, countNodeRng_eq]
    split <;> rfl
  · intros; rfl
  · intro j s r
    simp only [counterVisitorRng, counterVisitor]
    split <;> rfl
  · intro j s r
    simp only [counterVisitorRng, counterVisitor]
    split <;> rfl
  · intros; rfl

/-- **C42**, with the consequence for mutating: there is one list of candidate positions such that counting
with any random state reports its length, gives back the state, and a later request with number `index`
and any random state is served at the `index`-th of them. -/
theorem C42_candidates_independent_of_random_state (cx : LangCtx) (ps : Permissions) (ms : List (Mutator R))
    (hn : (ms.map (·.implements)).Nodup) (m : Mutator R) (hm : m ∈ ms) (ast : Json) :
    ∃ cands : List Pos, ∀ r₁ : R,
      (countMutableNodesRng cx ps (ms.map Mutator.toTest) ast r₁).1.get? m.implements = entry cands.length ∧
      (countMutableNodesRng cx ps (ms.map Mutator.toTest) ast r₁).2 = r₁ ∧
      ∀ (index : Nat) (r₂ : R),
        (∀ p, cands[index]? = some p → ServedAt m ast r₂ p (runMaker cx ps m index ast r₂)) ∧
        (cands.length ≤ index → NotServed ast r₂ (runMaker cx ps m index ast r₂)) := by
  obtain ⟨cands, _, hc, hs⟩ := C08_count_and_mutate_agree cx ps ms hn m hm ast
  refine ⟨cands, fun r₁ => ?_⟩
  rw [C42_counting_keeps_random_state]
  exact ⟨hc, rfl, hs⟩

open DemoNodes Sol in
/-- Counting in a block with a real mutator. -/
example : ((Solidity.mutatorFor env .integer).map fun m =>
    countMutableNodesRng solidityCtx (functionPermissions []) [m.toTest]
      (block [number 1 "5", stmt 2, number 3 "7"]) (⟨[4, 5]⟩ : ListRand)) =
    some ([(.integer, 2)], ⟨[4, 5]⟩) := by decide +kernel

/-- The counter of this file can tell a test that draws from one that does not. -/
example : countMutableNodesRng solidityCtx (functionPermissions [])
    [⟨.integer, fun _ r => let d := nextU64 r; (decide (d.1 = 4), d.2)⟩] (.str "x") (⟨[4, 5]⟩ : ListRand) =
    ([(.integer, 1)], ⟨[5]⟩) := by decide +kernel

end Mutagenyx
