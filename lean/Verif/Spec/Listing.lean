import Verif.Model.AlgorithmsInfo
import Verif.Proofs.Flow

/-!
# What the `algorithms` command is expected to write

Names are padded to 22 columns, one more than the longest name has; texts start there.
-/

namespace Mutagenyx
namespace AlgorithmsInfo
open Printer (words)

/-- The left margin of texts. -/
def margin : List Char := List.replicate 22 ' '

/-- `text` is `s` spread over lines behind the margin, all of them shorter than the terminal is wide: the words
are kept in order and nothing but blanks is added. -/
def Filled (cols : Nat) (s text : List Char) : Prop :=
  ∃ piece pieces, text = piece ++ (pieces.map fun c => '\n' :: margin ++ c).flatten ∧
    (piece :: pieces).flatMap words = words s ∧ (∀ c ∈ piece :: pieces, '\n' ∉ c ∧ 22 + utf8Len c < cols)

/-- A name, filled up to the margin. -/
def padded (t : MutationType) : List Char :=
  t.toStr.toList ++ List.replicate (22 - t.toStr.toList.length) ' '

/-- The entries, one below the other, with `gap` before the next one; the last ends the line. -/
def Entries (entry : MutationType → List Char → Prop) (gap : List Char) : List MutationType → List Char → Prop
  | [], out => out = []
  | [t], out => ∃ text, entry t text ∧ out = text ++ ['\n']
  | t :: ts, out => ∃ text rest, entry t text ∧ Entries entry gap ts rest ∧ out = text ++ gap ++ rest

/-- An entry of the short list. -/
def ListEntry (cols : Nat) (t : MutationType) (out : List Char) : Prop :=
  ∃ text, Filled cols t.description.summary text ∧ out = padded t ++ text

/-- A part of a description below the first: an empty line, possibly an underlined heading and an empty line, and
the text; nothing if there is no text. -/
def Section (cols : Nat) (heading s out : List Char) : Prop :=
  (s = [] ∧ out = []) ∨
  (s ≠ [] ∧ ∃ text, Filled cols s text ∧ out = ['\n', '\n'] ++ margin ++
    (if heading = [] then []
     else heading ++ '\n' :: margin ++ List.replicate heading.length '-' ++ ['\n', '\n'] ++ margin) ++ text)

/-- The operators of a description, as a text. -/
def operatorsText (d : Description) : List Char :=
  if d.operators = [] then [] else debugList d.operators

/-- An entry of the long list. -/
def DescribeEntry (cols : Nat) (t : MutationType) (out : List Char) : Prop :=
  ∃ first details operators examples, Filled cols t.description.summary first ∧
    Section cols [] t.description.extraDetails details ∧
    Section cols (chars! "Operators:") (operatorsText t.description) operators ∧
    Section cols (chars! "Examples:") t.description.examples examples ∧
    out = padded t ++ first ++ details ++ operators ++ examples

end AlgorithmsInfo
end Mutagenyx
