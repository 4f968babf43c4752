import Verif.Model.System
import Verif.Spec.Paths
import Verif.Proofs.Path

/-!
# Lemmas on names and extensions of files
-/

namespace Mutagenyx
namespace Path

open Json

/-- Before the last slash and after it. -/
theorem slash_cases (p : List Char) : '/' ∉ p ∨ ∃ l b, p = l ++ '/' :: b ∧ '/' ∉ b := by
  induction p with
  | nil => simp
  | cons c p ih =>
    rcases ih with h | ⟨l, b, rfl, hb⟩
    · by_cases hc : c = '/'
      · exact Or.inr ⟨[], p, by simp [hc], h⟩
      · exact Or.inl (by simp [h, Ne.symm hc])
    · exact Or.inr ⟨c :: l, b, rfl, hb⟩

theorem no_slash {b : List Char} (h : '/' ∉ b) : ∀ c ∈ b, c ≠ '/' := fun c hc e => h (e ▸ hc)

theorem lastNormal_split (l b : List Char) (hb : '/' ∉ b) :
    lastNormal (splitSlash (l ++ '/' :: b)).reverse =
      if b = [] ∨ b = ['.'] then lastNormal (splitSlash l).reverse else some b := by
  rw [splitSlash_append l b (no_slash hb), List.reverse_append]
  rfl

theorem lastNormal_plain (b : List Char) (hb : '/' ∉ b) :
    lastNormal (splitSlash b).reverse = if b = [] ∨ b = ['.'] then none else some b := by
  rw [splitSlash_plain b (no_slash hb)]
  rfl

theorem lastNormal_of {p c : List Char} (h : LastComponent p c) : lastNormal (splitSlash p).reverse = some c := by
  obtain ⟨pre, suf, rfl, h1, h2, h3, h4, h5⟩ := h
  induction h2 with
  | nil =>
    rw [List.append_nil]
    rcases h1 with rfl | ⟨l, rfl⟩
    · rw [List.nil_append, lastNormal_plain c h5, if_neg (by simp [h3, h4])]
    · rw [List.append_assoc, List.singleton_append, lastNormal_split l c h5, if_neg (by simp [h3, h4])]
  | @slash t _ ih => rw [← List.append_assoc, lastNormal_split _ [] (by simp), if_pos (Or.inl rfl), ih]
  | @dot t _ ih => rw [← List.append_assoc, lastNormal_split _ ['.'] (by simp), if_pos (Or.inr rfl), ih]

theorem lastComponent_of (n : Nat) : (p c : List Char) → p.length ≤ n → lastNormal (splitSlash p).reverse = some c →
    LastComponent p c := by
  induction n with
  | zero =>
    intro p c hn h
    have : p = [] := List.eq_nil_of_length_eq_zero (by omega)
    subst this
    cases h
  | succ n ih =>
    intro p c hn h
    rcases slash_cases p with hp | ⟨l, b, rfl, hb⟩
    · rw [lastNormal_plain p hp] at h
      split at h
      · cases h
      · rename_i h1
        cases h
        exact ⟨[], [], by simp, Or.inl rfl, .nil, fun e => h1 (Or.inl e), fun e => h1 (Or.inr e), hp⟩
    · rw [lastNormal_split l b hb] at h
      split at h
      · rename_i h1
        obtain ⟨pre, suf, rfl, h2, h3, h4⟩ := ih l c (by simp at hn; omega) h
        rcases h1 with rfl | rfl
        · exact ⟨pre, suf ++ ['/'], by simp, h2, .slash h3, h4⟩
        · exact ⟨pre, suf ++ ['/', '.'], by simp, h2, .dot h3, h4⟩
      · rename_i h1
        cases h
        exact ⟨l ++ ['/'], [], by simp, Or.inr ⟨l, rfl⟩, .nil, fun e => h1 (Or.inl e), fun e => h1 (Or.inr e), hb⟩

theorem lastNormal_iff {p c : List Char} : lastNormal (splitSlash p).reverse = some c ↔ LastComponent p c :=
  ⟨lastComponent_of p.length p c (Nat.le_refl _), lastNormal_of⟩

theorem splitLastDot_none {c : List Char} (h : '.' ∉ c) : splitLastDot c = none := by
  induction c with
  | nil => rfl
  | cons x c ih =>
    simp only [List.mem_cons, not_or] at h
    simp only [splitLastDot, ih h.2, if_neg (Ne.symm h.1)]

theorem splitLastDot_of (a : List Char) {b : List Char} (h : '.' ∉ b) : splitLastDot (a ++ '.' :: b) = some (a, b) := by
  induction a with
  | nil => simp [splitLastDot, splitLastDot_none h]
  | cons x a ih => simp only [List.cons_append, splitLastDot, ih]

theorem dot_cases (c : List Char) : '.' ∉ c ∨ ∃ a b, c = a ++ '.' :: b ∧ '.' ∉ b := by
  induction c with
  | nil => simp
  | cons x c ih =>
    rcases ih with h | ⟨l, b, rfl, hb⟩
    · by_cases hc : x = '.'
      · exact Or.inr ⟨[], c, by simp [hc], h⟩
      · exact Or.inl (by simp [h, Ne.symm hc])
    · exact Or.inr ⟨x :: l, b, rfl, hb⟩

theorem splitLastDot_iff (c a b : List Char) : splitLastDot c = some (a, b) ↔ c = a ++ '.' :: b ∧ '.' ∉ b := by
  constructor
  · intro h
    rcases dot_cases c with hc | ⟨a', b', rfl, hb⟩
    · rw [splitLastDot_none hc] at h
      cases h
    · rw [splitLastDot_of a' hb] at h
      cases h
      exact ⟨rfl, hb⟩
  · rintro ⟨rfl, h⟩
    exact splitLastDot_of a h

theorem extension_iff {p e : String} (he : '.' ∉ e.toList) (hne : e.toList ≠ []) : extension p = some e ↔ HasExtension p e := by
  unfold extension fileName HasExtension
  constructor
  · intro h
    cases hc : lastNormal (splitSlash p.toList).reverse with
    | none => simp [hc] at h
    | some c =>
      simp only [hc] at h
      by_cases hdd : c = ['.', '.']
      · simp [hdd] at h
      · simp only [if_neg hdd, String.toList_ofList] at h
        cases hs : splitLastDot c with
        | none => simp [hs] at h
        | some q =>
          obtain ⟨a, b⟩ := q
          simp only [hs] at h
          split at h
          · cases h
          · rename_i ha
            obtain ⟨h1, _⟩ := (splitLastDot_iff c a b).1 hs
            have hb : b = e.toList := by rw [← Option.some.inj h, String.toList_ofList]
            subst hb h1
            exact ⟨a, lastNormal_iff.1 hc, ha⟩
  · rintro ⟨stem, h1, h2⟩
    rw [lastNormal_iff.2 h1]
    have hdd : ¬ stem ++ '.' :: e.toList = ['.', '.'] := by
      intro h
      have := congrArg List.length h
      have h3 := List.length_pos_iff.2 h2
      have h4 := List.length_pos_iff.2 hne
      simp at this
      omega
    simp only [if_neg hdd, String.toList_ofList, splitLastDot_of stem he, if_neg h2, String.ofList_toList]

end Path
end Mutagenyx
