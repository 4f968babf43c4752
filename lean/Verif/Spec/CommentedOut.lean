import Verif.Props.Printer

/-!
# What it means that a text is inside comments
-/

namespace Mutagenyx

/-- Every line of the text is blank up to the mark that makes the rest of the line a comment. -/
def Commented (mark : String) (text : List Char) : Prop :=
  ∀ l ∈ Printer.lines text, ∃ n rest, l = List.replicate n ' ' ++ (mark.toList ++ rest)

/-- `Commented` as a test, for examples. -/
def isCommented (mark : String) (text : List Char) : Bool :=
  (Printer.lines text).all fun l => mark.toList.isPrefixOf (l.dropWhile (· = ' '))

example : isCommented "//" "// a\n   // b".toList = true ∧ isCommented "//" "// a\n b".toList = false := by decide

theorem commented_iff {mark : String} (hm : ∀ cs, mark.toList ≠ ' ' :: cs) (hne : mark.toList ≠ []) (text : List Char) :
    Commented mark text ↔ isCommented mark text = true := by
  have key : ∀ l : List Char, (∃ n rest, l = List.replicate n ' ' ++ (mark.toList ++ rest)) ↔
      mark.toList <+: l.dropWhile (fun c => decide (c = ' ')) := by
    intro l
    constructor
    · rintro ⟨n, rest, rfl⟩
      refine ⟨rest, ?_⟩
      induction n with
      | zero =>
        cases hk : mark.toList with
        | nil => exact absurd hk hne
        | cons c cs =>
          have : c ≠ ' ' := fun hc => hm cs (by rw [hk, hc])
          simp [this]
      | succ n ih => simpa [List.replicate_succ] using ih
    · rintro ⟨rest, h⟩
      induction l with
      | nil => simp at h; exact absurd h.1 (by simpa using hne)
      | cons c cs ih =>
        by_cases hc : c = ' '
        · subst hc
          obtain ⟨n, r, hr⟩ := ih (by simpa using h)
          exact ⟨n + 1, r, by rw [hr, List.replicate_succ]; rfl⟩
        · refine ⟨0, rest, ?_⟩
          simp [hc] at h
          simp [h]
  simp only [Commented, isCommented, List.all_eq_true, List.isPrefixOf_iff_prefix]
  exact ⟨fun h l hl => (key l).1 (h l hl), fun h l hl => (key l).2 (h l hl)⟩

end Mutagenyx
