import Verif.Model.Common

/-!
# Names and extensions of files

Stated without the functions of the model.
-/

namespace Mutagenyx

/-- What may follow the last component of a path without being one: slashes and components `.`. -/
inductive Trailing : List Char → Prop
  | nil : Trailing []
  | slash {t : List Char} : Trailing t → Trailing (t ++ ['/'])
  | dot {t : List Char} : Trailing t → Trailing (t ++ ['/', '.'])

/-- The last component of the path is `c`. -/
def LastComponent (p c : List Char) : Prop :=
  ∃ pre suf, p = pre ++ c ++ suf ∧ (pre = [] ∨ ∃ l, pre = l ++ ['/']) ∧ Trailing suf ∧ c ≠ [] ∧ c ≠ ['.'] ∧ '/' ∉ c

/-- The file has the extension `e`: its name is a name that is not empty, a dot, and `e`. -/
def HasExtension (p e : String) : Prop :=
  ∃ stem, LastComponent p.toList (stem ++ '.' :: e.toList) ∧ stem ≠ []

/-- Names of programs end in `.sol` or `.vy`. -/
def suffixOf : Language → String
  | .solidity => "sol"
  | .vyper => "vy"

end Mutagenyx
