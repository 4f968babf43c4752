import Verif.Proofs.Tree
import Verif.Spec.Candidates

/-! Replacing a subtree changes nothing else. -/

namespace Mutagenyx
open Json

theorem shape_setChildren (j : Json) (cs : List Json) (h : cs.length = j.children.length) :
    shape (setChildren j cs) = shape j := by
  cases j with
  | obj kvs =>
    simp only [children, List.length_map] at h
    simp only [setChildren, shape, Json.obj.injEq]
    apply List.ext_getElem
    · simp [h]
    · intro i h1 h2; simp
  | _ => rfl

/-- Off the path to `p` and not below `p`, nothing changes. -/
theorem nodeAt_replaceAt_off (p : Pos) : ∀ (q : Pos) (n j : Json), ¬ p <+: q → ¬ q <+: p →
    nodeAt q (replaceAt p n j) = nodeAt q j := by
  induction p with
  | nil => intro q n j h; exact absurd List.nil_prefix h
  | cons i p ih =>
    intro q n j h h'
    cases q with
    | nil => exact absurd List.nil_prefix h'
    | cons k q =>
      simp only [replaceAt]
      split
      · rename_i c hc
        have hlen := List.length_set (as := j.children) (i := i) (a := replaceAt p n c)
        simp only [nodeAt]
        rw [children_setChildren _ _ hlen]
        by_cases hik : i = k
        · subst hik
          have hi : i < j.children.length := by
            rw [List.getElem?_eq_some_iff] at hc; exact hc.1
          rw [List.getElem?_set_self hi, hc]
          simp only
          apply ih
          · intro hp; exact h (by simpa using hp)
          · intro hp; exact h' (by simpa using hp)
        · rw [List.getElem?_set_ne hik]
      · rfl

/-- On the path to `p` only the children change. -/
theorem nodeAt_replaceAt_on (p : Pos) : ∀ (q : Pos) (n j m : Json), q <+: p → q ≠ p →
    nodeAt q j = some m → ∃ m', nodeAt q (replaceAt p n j) = some m' ∧ shape m' = shape m ∧
      m'.children.length = m.children.length := by
  induction p with
  | nil => intro q n j m h h'; exact absurd (List.prefix_nil.1 h) h'
  | cons i p ih =>
    intro q n j m h h' hm
    simp only [replaceAt]
    cases q with
    | nil =>
      simp only [nodeAt, Option.some.injEq] at hm
      subst hm
      split
      · refine ⟨_, rfl, shape_setChildren _ _ (by simp), ?_⟩
        rw [children_setChildren _ _ (by simp)]; simp
      · exact ⟨_, rfl, rfl, rfl⟩
    | cons k q =>
      obtain ⟨rfl, hq⟩ := List.cons_prefix_cons.1 h
      simp only [nodeAt] at hm
      cases hc : j.children[k]? with
      | none => rw [hc] at hm; exact absurd hm (by simp)
      | some c =>
        rw [hc] at hm
        simp only at hm ⊢
        obtain ⟨m', h1, h2⟩ := ih q n c m hq (by intro e; exact h' (by rw [e])) hm
        refine ⟨m', ?_, h2⟩
        simp only [nodeAt]
        rw [children_setChildren _ _ (by simp)]
        have hi : k < j.children.length := by
          rw [List.getElem?_eq_some_iff] at hc; exact hc.1
        rw [List.getElem?_set_self hi]
        exact h1

end Mutagenyx
