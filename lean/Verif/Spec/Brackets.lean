import Verif.Model.Json

/-!
# Line breaks inside brackets

In Vyper, as in Python, a line break ends the statement unless it is inside brackets.  Texts with string literals or
comments are not considered.
-/

namespace Mutagenyx
namespace Brackets

/-- How a character changes the number of open brackets. -/
def step (c : Char) : Int :=
  if c = '(' ∨ c = '[' ∨ c = '{' then 1 else if c = ')' ∨ c = ']' ∨ c = '}' then -1 else 0

/-- The number of brackets that are open at the end of the text. -/
def open_ : List Char → Int
  | [] => 0
  | c :: cs => step c + open_ cs

/-- At each line break some bracket is open: the text is one logical line. -/
def OneStatement (text : List Char) : Prop := ∀ a b, text = a ++ '\n' :: b → 0 < open_ a

/-- `OneStatement` as a test; `n` brackets are open before the text. -/
def isOneStatement (n : Int) : List Char → Bool
  | [] => true
  | c :: cs => (!(c == '\n') || decide (0 < n)) && isOneStatement (n + step c) cs

theorem isOneStatement_iff (n : Int) (text : List Char) :
    isOneStatement n text = true ↔ ∀ a b, text = a ++ '\n' :: b → 0 < n + open_ a := by
  induction text generalizing n with
  | nil => simp [isOneStatement]
  | cons c cs ih =>
    simp only [isOneStatement, Bool.and_eq_true, Bool.or_eq_true, Bool.not_eq_true', beq_eq_false_iff_ne,
      decide_eq_true_eq, ih]
    constructor
    · rintro ⟨h1, h2⟩ a b h
      cases a with
      | nil =>
        cases h
        simp only [open_]
        rcases h1 with h1 | h1
        · exact absurd rfl h1
        · omega
      | cons d a =>
        cases h
        have := h2 a b rfl
        simp only [open_]
        omega
    · intro h
      refine ⟨?_, fun a b hh => ?_⟩
      · by_cases hc : c = '\n'
        · subst hc
          have := h [] cs rfl
          simp only [open_] at this
          exact Or.inr (by omega)
        · exact Or.inl hc
      · have := h (c :: a) b (by rw [hh]; rfl)
        simp only [open_] at this
        omega

theorem oneStatement_iff (text : List Char) : OneStatement text ↔ isOneStatement 0 text = true := by
  rw [isOneStatement_iff]
  simp [OneStatement]

theorem open_append (a b : List Char) : open_ (a ++ b) = open_ a + open_ b := by
  induction a with
  | nil => simp [open_]
  | cons c a ih => simp only [List.cons_append, open_, ih]; omega

end Brackets
end Mutagenyx
