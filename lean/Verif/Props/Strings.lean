import Verif.Model.Strings

/-!
# Removing a pattern from a text (property C52)
-/

namespace Mutagenyx
namespace Text

/-! ## What the statements talk about

Occurrence of a pattern is `List.IsInfix` (`pat <:+: t`), shortening is `List.Sublist`. -/

/-- Every run of spaces becomes a single space; everything else stays. -/
def collapse : List Char → List Char
  | [] => []
  | [c] => [c]
  | c :: d :: cs => if c = ' ' ∧ d = ' ' then collapse (d :: cs) else c :: collapse (d :: cs)

/-! ## Lemmas -/

theorem find_none_iff (pat t : List Char) : find pat t = none ↔ ¬ pat <:+: t := by
  induction t with
  | nil =>
    unfold find
    split
    · simp_all
    · simp_all [List.infix_nil]
  | cons c cs ih =>
    unfold find
    split
    · rename_i h
      have := List.isPrefixOf_iff_prefix.1 h
      simp [this.isInfix]
    · rename_i h
      rw [List.isPrefixOf_iff_prefix] at h
      simp [List.infix_cons_iff, h, ih]

theorem find_some (pat t : List Char) (i : Nat) (h : find pat t = some i) :
    i ≤ t.length ∧ pat <+: t.drop i := by
  induction t generalizing i with
  | nil =>
    unfold find at h
    split at h
    · simp_all
    · cases h
  | cons c cs ih =>
    unfold find at h
    split at h
    · rename_i hp
      cases h
      exact ⟨Nat.zero_le _, by simpa using List.isPrefixOf_iff_prefix.1 hp⟩
    · cases hf : find pat cs with
      | none => simp [hf] at h
      | some j =>
        simp [hf] at h
        subst h
        have := ih j hf
        exact ⟨by simp; omega, by simpa using this.2⟩

theorem find_lt {pat t : List Char} {i : Nat} (hp : pat ≠ []) (h : find pat t = some i) : i < t.length := by
  obtain ⟨h1, h2⟩ := find_some pat t i h
  apply Nat.lt_of_not_le
  intro hle
  rw [List.drop_eq_nil_of_le hle] at h2
  exact hp (List.prefix_nil.1 h2)

theorem removeAllFuel_spec (pat : List Char) (hp : pat ≠ []) (fuel : Nat) (t : List Char)
    (hf : t.length < fuel) :
    ∃ r, removeAllFuel pat fuel t = .ok r ∧ ¬ pat <:+: r ∧ r.Sublist t ∧ (¬ pat <:+: t → r = t) := by
  induction fuel generalizing t with
  | zero => omega
  | succ n ih =>
    unfold removeAllFuel
    cases h : find pat t with
    | none =>
      have := (find_none_iff pat t).1 h
      exact ⟨t, rfl, this, List.Sublist.refl _, fun _ => rfl⟩
    | some i =>
      have hi := find_lt hp h
      simp only [hi, if_true]
      have hl : (t.eraseIdx i).length < n := by
        rw [List.length_eraseIdx]; simp [hi]; omega
      obtain ⟨r, h1, h2, h3, _⟩ := ih _ hl
      refine ⟨r, h1, h2, h3.trans (List.eraseIdx_sublist _ _), fun hn => ?_⟩
      rw [(find_none_iff pat t).2 hn] at h
      cases h

/-- Two spaces: removing the first of them is a step of collapsing. -/
theorem collapse_erase (t : List Char) (i : Nat) (h : find [' ', ' '] t = some i) :
    collapse (t.eraseIdx i) = collapse t := by
  induction t generalizing i with
  | nil => simp [find] at h
  | cons c cs ih =>
    unfold find at h
    split at h
    · rename_i hp
      cases h
      cases cs with
      | nil => simp [List.isPrefixOf] at hp
      | cons d ds =>
        simp [List.isPrefixOf] at hp
        obtain ⟨rfl, rfl⟩ := hp
        simp [collapse]
    · rename_i hp
      cases hf : find [' ', ' '] cs with
      | none => simp [hf] at h
      | some j =>
        simp [hf] at h
        subst h
        have ih' := ih j hf
        cases cs with
        | nil => simp [find] at hf
        | cons d ds =>
          have hcd : ¬ (c = ' ' ∧ d = ' ') := by
            rintro ⟨rfl, rfl⟩
            simp [List.isPrefixOf] at hp
          cases j with
          | zero =>
            have h2 := (find_some _ _ _ hf).2
            simp at h2
            cases ds with
            | nil => simp at h2
            | cons e es =>
              simp at h2
              obtain ⟨rfl, rfl⟩ := h2
              have hc : c ≠ ' ' := fun hc => hcd ⟨hc, rfl⟩
              simp [collapse, hc]
          | succ k =>
            simp only [List.eraseIdx_cons_succ] at ih' ⊢
            rw [collapse, if_neg hcd, collapse, if_neg hcd, ih']

theorem collapse_of_none (t : List Char) (h : ¬ [' ', ' '] <:+: t) : collapse t = t := by
  induction t with
  | nil => rfl
  | cons c cs ih =>
    cases cs with
    | nil => rfl
    | cons d ds =>
      rw [List.infix_cons_iff] at h
      have hcd : ¬ (c = ' ' ∧ d = ' ') := by
        rintro ⟨rfl, rfl⟩
        exact h (Or.inl (by simp))
      rw [collapse, if_neg hcd, ih (fun hh => h (Or.inr hh))]

theorem removeAllFuel_collapse (fuel : Nat) (t : List Char) (hf : t.length < fuel) :
    removeAllFuel [' ', ' '] fuel t = .ok (collapse t) := by
  induction fuel generalizing t with
  | zero => omega
  | succ n ih =>
    unfold removeAllFuel
    cases h : find [' ', ' '] t with
    | none => rw [collapse_of_none t ((find_none_iff _ t).1 h)]
    | some i =>
      have hi := find_lt (by simp) h
      simp only [hi, if_true]
      rw [ih _ (by rw [List.length_eraseIdx]; simp [hi]; omega), collapse_erase t i h]

/-! ## Property C52 -/

/-- **C52, in part.** For every non-empty pattern, the removal ends, the result has no occurrence of the
pattern, only removes characters (the rest stays in order), and leaves a text without occurrence alone.
What is missing: the removed characters need not belong to an occurrence of the original text, and the
occurrences are not removed as a whole; see the counterexamples. -/
theorem C52_remove_all_partial (pat t : List Char) (hp : pat ≠ []) :
    ∃ r, removeAll pat t = .ok r ∧ ¬ pat <:+: r ∧ r.Sublist t ∧ (¬ pat <:+: t → r = t) :=
  removeAllFuel_spec pat hp _ t (Nat.lt_succ_self _)

example : removeAll "ab".toList "xaby".toList = .ok "xby".toList := by decide +kernel

/-- **C52, for the pattern the printer uses.** Removing double spaces turns every run of spaces into one
space, and changes nothing else. -/
theorem C52_double_spaces (t : List Char) : removeAll [' ', ' '] t = .ok (collapse t) :=
  removeAllFuel_collapse _ t (Nat.lt_succ_self _)

example : collapse " a   b  c ".toList = " a b c ".toList := by decide

/-- **C52 fails: an occurrence is not removed as a whole**, the `b` of the pattern remains. -/
theorem C52_occurrence_counterexample :
    ¬ ∀ (pat before after r : List Char), ¬ pat <:+: (before ++ after) →
      removeAll pat (before ++ pat ++ after) = .ok r → r = before ++ after := by
  intro h
  have h1 : removeAll "ab".toList ("x".toList ++ "ab".toList ++ "y".toList) = .ok "xby".toList := by
    decide +kernel
  exact absurd (h _ _ _ _ ((find_none_iff _ _).1 (by decide +kernel)) h1) (by decide)

/-- **C52 fails: text outside the occurrences is removed**, here the `a` in front of the only occurrence. -/
theorem C52_outside_counterexample :
    removeAll "ab".toList "aab".toList = .ok "b".toList := by decide +kernel

theorem removeAllFuel_empty_pattern (fuel : Nat) (t : List Char) (h : t.length < fuel) :
    removeAllFuel [] fuel t = .panic := by
  induction fuel generalizing t with
  | zero => omega
  | succ n ih =>
    cases t with
    | nil => simp [removeAllFuel, find]
    | cons c cs =>
      simp only [removeAllFuel, find, List.isPrefixOf, if_true, List.length_cons, Nat.zero_lt_succ,
        List.eraseIdx_cons_zero]
      exact ih cs (by simp at h; omega)

/-- **C52 fails: with an empty pattern** the whole text is removed and then the program crashes. -/
theorem C52_empty_pattern_counterexample (t : List Char) : removeAll [] t = .panic :=
  removeAllFuel_empty_pattern _ t (Nat.lt_succ_self _)

end Text
end Mutagenyx
