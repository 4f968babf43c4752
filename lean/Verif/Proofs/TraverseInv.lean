import Verif.Proofs.Tree

/-! Invariants of traversals. -/

namespace Mutagenyx
open Json
variable {S : Type}

theorem traverseList_inv (v : Visitor S) (I : S → Prop) (xs : List Json)
    (ih : ∀ c ∈ xs, ∀ s, I s → I (traverse v c s).2) : ∀ s, I s → I (traverseList v xs s).2 := by
  induction xs with
  | nil => intro s h; exact h
  | cons x xs ihx =>
    intro s h
    simp only [traverseList]
    have h1 := ih x (by simp) s h
    split
    · exact h1
    · exact ihx (fun c hc => ih c (by simp [hc])) _ h1

/-- A predicate on the visitor state that every callback preserves is preserved by the traversal. -/
theorem traverse_inv (v : Visitor S) (I : S → Prop) (hEnter : ∀ j s, I s → I (v.onEnter j s))
    (hVisit : ∀ j s, I s → I (v.visit j s).2) (hStart : ∀ j s, I s → I (v.onStart j s))
    (hEnd : ∀ j s, I s → I (v.onEnd j s)) (hExit : ∀ j s, I s → I (v.onExit j s)) (j : Json) :
    ∀ s, I s → I (traverse v j s).2 := by
  induction j using induct with
  | h j ih =>
    intro s h
    rw [traverse_eq]
    simp only
    split
    · split
      · exact hExit _ _ (hVisit _ _ (hEnter _ _ h))
      · split
        · exact hExit _ _ (hEnd _ _ (traverseList_inv v I _ ih _ (hStart _ _ (hVisit _ _ (hEnter _ _ h)))))
        · exact hExit _ _ (hVisit _ _ (hEnter _ _ h))
    · exact hExit _ _ (hEnter _ _ h)

end Mutagenyx
