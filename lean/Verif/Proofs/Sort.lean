import Verif.Model.Common

/-! Sorting by a key. -/

namespace Mutagenyx
namespace MutationType

variable {α κ : Type} [LT κ] [DecidableRel (α := κ) (· < ·)]

theorem insertBy_perm (key : α → κ) (a : α) (l : List α) : (insertBy key a l).Perm (a :: l) := by
  induction l with
  | nil => exact List.Perm.refl _
  | cons b bs ih =>
    simp only [insertBy]
    split
    · exact (List.Perm.cons b ih).trans (List.Perm.swap a b bs)
    · exact List.Perm.refl _

theorem sortBy_perm (key : α → κ) (l : List α) : (sortBy key l).Perm l := by
  induction l with
  | nil => exact List.Perm.refl _
  | cons a as ih => exact (insertBy_perm key a _).trans (List.Perm.cons a ih)

theorem insertBy_sorted (key : α → κ) (htrans : ∀ x y z : κ, x < y → y < z → x < z)
    (htri : ∀ a b : α, ¬ key a < key b → key b < key a ∨ a = b) (a : α) (l : List α)
    (h : l.Pairwise (fun x y => key x < key y)) (hnot : a ∉ l) :
    (insertBy key a l).Pairwise (fun x y => key x < key y) := by
  induction l with
  | nil => simp [insertBy]
  | cons b bs ih =>
    obtain ⟨h1, h2⟩ := List.pairwise_cons.1 h
    simp only [insertBy]
    split
    · rename_i hlt
      refine List.pairwise_cons.2 ⟨?_, ih h2 (fun hm => hnot (by simp [hm]))⟩
      intro x hx
      rcases List.mem_cons.1 ((insertBy_perm key a bs).mem_iff.1 hx) with rfl | hx
      · exact hlt
      · exact h1 x hx
    · rename_i hlt
      have hab : key a < key b := by
        rcases htri b a hlt with h | h
        · exact h
        · exact absurd h.symm (fun e => hnot (by simp [e]))
      refine List.pairwise_cons.2 ⟨?_, h⟩
      intro x hx
      rcases List.mem_cons.1 hx with rfl | hx
      · exact hab
      · exact htrans _ _ _ hab (h1 x hx)

theorem sortBy_sorted (key : α → κ) (htrans : ∀ x y z : κ, x < y → y < z → x < z)
    (htri : ∀ a b : α, ¬ key a < key b → key b < key a ∨ a = b) (l : List α) (h : l.Nodup) :
    (sortBy key l).Pairwise (fun x y => key x < key y) := by
  induction l with
  | nil => simp [sortBy]
  | cons a as ih =>
    obtain ⟨h1, h2⟩ := List.nodup_cons.1 h
    exact insertBy_sorted key htrans htri a _ (ih h2)
      (fun hm => h1 ((sortBy_perm key as).mem_iff.1 hm))

/-- Two strictly sorted lists with the same elements are equal. -/
theorem sorted_unique (key : α → κ) (hirr : ∀ x : κ, ¬ x < x)
    (htrans : ∀ x y z : κ, x < y → y < z → x < z) (l₁ l₂ : List α)
    (h₁ : l₁.Pairwise (fun x y => key x < key y)) (h₂ : l₂.Pairwise (fun x y => key x < key y))
    (hp : ∀ a, a ∈ l₁ ↔ a ∈ l₂) : l₁ = l₂ := by
  induction l₁ generalizing l₂ with
  | nil =>
    cases l₂ with
    | nil => rfl
    | cons b bs => exact absurd ((hp b).2 (by simp)) (by simp)
  | cons a as ih =>
    cases l₂ with
    | nil => exact absurd ((hp a).1 (by simp)) (by simp)
    | cons b bs =>
      obtain ⟨h1, h1'⟩ := List.pairwise_cons.1 h₁
      obtain ⟨h2, h2'⟩ := List.pairwise_cons.1 h₂
      have hab : a = b := by
        rcases List.mem_cons.1 ((hp a).1 (by simp)) with h | h
        · exact h
        · rcases List.mem_cons.1 ((hp b).2 (by simp)) with h' | h'
          · exact h'.symm
          · exact absurd (htrans _ _ _ (h1 b h') (h2 a h)) (hirr _)
      subst hab
      congr 1
      apply ih bs h1' h2'
      intro x
      constructor
      · intro hx
        rcases List.mem_cons.1 ((hp x).1 (by simp [hx])) with rfl | h
        · exact absurd (h1 x hx) (hirr _)
        · exact h
      · intro hx
        rcases List.mem_cons.1 ((hp x).2 (by simp [hx])) with rfl | h
        · exact absurd (h2 x hx) (hirr _)
        · exact h

theorem sortBy_eq_of_perm (key : α → κ) (hirr : ∀ x : κ, ¬ x < x)
    (htrans : ∀ x y z : κ, x < y → y < z → x < z)
    (htri : ∀ a b : α, ¬ key a < key b → key b < key a ∨ a = b) {l₁ l₂ : List α} (h : l₁.Nodup)
    (hp : l₁.Perm l₂) : sortBy key l₁ = sortBy key l₂ :=
  sorted_unique key hirr htrans _ _ (sortBy_sorted key htrans htri l₁ h)
    (sortBy_sorted key htrans htri l₂ (hp.nodup h))
    (fun a => ((sortBy_perm key l₁).mem_iff).trans (hp.mem_iff.trans (sortBy_perm key l₂).mem_iff.symm))

theorem rank_inj (a b : MutationType) (h : rank a = rank b) : a = b := by
  cases a <;> cases b <;> first | rfl | (exact absurd h (by decide))

theorem toStr_inj (a b : MutationType) (h : toStr a = toStr b) : a = b := by
  cases a <;> cases b <;> first | rfl | (exact absurd h (by decide))

theorem sortRank_eq_of_perm {l₁ l₂ : List MutationType} (h : l₁.Nodup) (hp : l₁.Perm l₂) :
    sortBy rank l₁ = sortBy rank l₂ :=
  sortBy_eq_of_perm rank (fun x => Nat.lt_irrefl x) (fun _ _ _ => Nat.lt_trans)
    (fun a b hn => by
      rcases Nat.lt_trichotomy (rank a) (rank b) with h | h | h
      · exact absurd h hn
      · exact Or.inr (rank_inj a b h)
      · exact Or.inl h) h hp

theorem sortStr_eq_of_perm {l₁ l₂ : List MutationType} (h : l₁.Nodup) (hp : l₁.Perm l₂) :
    sortBy toStr l₁ = sortBy toStr l₂ :=
  sortBy_eq_of_perm toStr (fun x => String.lt_irrefl x) (fun _ _ _ => String.lt_trans)
    (fun a b hn => by
      rcases Std.lt_trichotomy (toStr a) (toStr b) with h | h | h
      · exact absurd h hn
      · exact Or.inr (toStr_inj a b h)
      · exact Or.inl h) h hp

end MutationType
end Mutagenyx
