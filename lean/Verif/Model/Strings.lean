import Verif.Model.Common

/-!
# `mutagenyx_lib/src/string.rs`

Text is a list of characters.
-/

namespace Mutagenyx
namespace Text

/-- `str::find`: where the pattern first occurs (counted in characters, where Rust counts bytes). -/
def find (pat : List Char) : List Char → Option Nat
  | [] => if pat = [] then some 0 else none
  | c :: cs => if pat.isPrefixOf (c :: cs) then some 0 else (find pat cs).map (· + 1)

/-- Models `remove_all` (`string.rs:14-26`) for at most the given number of iterations: as long as the
pattern occurs, the **first character** of its first occurrence is removed.  `String::remove` crashes at
the end of the text. -/
def removeAllFuel (pat : List Char) : Nat → List Char → Outcome (List Char)
  | 0, _ => .outOfFuel
  | fuel + 1, t => match find pat t with
    | none => .ok t
    | some i => if i < t.length then removeAllFuel pat fuel (t.eraseIdx i) else .panic

/-- Models `remove_all` (`string.rs:14-26`); each iteration removes a character, so this many are enough. -/
def removeAll (pat t : List Char) : Outcome (List Char) := removeAllFuel pat (t.length + 1) t

end Text
end Mutagenyx
