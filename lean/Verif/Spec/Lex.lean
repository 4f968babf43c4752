import Verif.Model.Json

/-!
# Splitting a text into tokens

A token is as long as possible: it goes on as long as the next character can continue it.  Blanks and
newlines separate tokens.  Comments are read like tokens and left out.
-/

namespace Mutagenyx
namespace Lex

/-- A character between tokens. -/
def blank (c : Char) : Bool := c == ' ' || c == '\n'

/-- How a language is split into tokens: `joins` tells whether a character continues what has been read so far of
a token, and `comment` whether what has been read is a comment. -/
structure Lexer where
  joins : List Char → Char → Bool
  comment : List Char → Bool

/-- What has been read, if it is a token. -/
def emit (L : Lexer) (cur : List Char) : List String :=
  if cur = [] ∨ L.comment cur = true then [] else [String.ofList cur]

/-- The tokens of a text that continues after `cur`. -/
def tokens (L : Lexer) : List Char → List Char → List String
  | [], cur => emit L cur
  | c :: cs, cur =>
    if cur ≠ [] ∧ L.joins cur c = true then tokens L cs (cur ++ [c])
    else emit L cur ++ (if blank c then tokens L cs [] else tokens L cs [c])

end Lex
end Mutagenyx
