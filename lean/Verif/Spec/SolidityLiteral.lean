import Verif.Spec.Lex

/-!
# What Solidity string literals denote

Written from the grammar of the language, without reference to the printer.  A literal denotes a sequence of
bytes.  Between the quotes of `"…"` stand printable ASCII characters other than `"` and `\`, and escape sequences:
`\\`, `\'`, `\"`, `\n`, `\r`, `\t`, `\x` with two hexadecimal digits (a byte), `\u` with four hexadecimal digits (the
UTF-8 encoding of a code point), and until version 0.7 (`old`) `\b`, `\f`, `\v`.  Between the quotes of `unicode"…"`
all characters except line breaks are allowed too.
-/

namespace Mutagenyx
namespace SolLiteral

/-- The value of a hexadecimal digit. -/
def hexValue (c : Char) : Option Nat :=
  if c.isDigit then some (c.toNat - 48)
  else if 'a' ≤ c ∧ c ≤ 'f' then some (c.toNat - 87)
  else if 'A' ≤ c ∧ c ≤ 'F' then some (c.toNat - 55)
  else none

/-- The value of hexadecimal digits. -/
def hexValues (cs : List Char) : Option Nat :=
  cs.foldl (fun v c => match v, hexValue c with
    | some v, some d => some (16 * v + d)
    | _, _ => none) (some 0)

/-- Escape sequences of one character. -/
def escape (old : Bool) (c : Char) : Option UInt8 :=
  if c = '\\' then some 92
  else if c = '\'' then some 39
  else if c = '"' then some 34
  else if c = 'n' then some 10
  else if c = 'r' then some 13
  else if c = 't' then some 9
  else if c = 'b' ∧ old = true then some 8
  else if c = 'f' ∧ old = true then some 12
  else if c = 'v' ∧ old = true then some 11
  else none

/-- The bytes of a code point. -/
def codePoint (n : Nat) : Option (List UInt8) :=
  if n.isValidChar then some (String.utf8EncodeChar (Char.ofNat n)) else none

/-- A character that stands for itself. -/
def plain (unicode : Bool) (c : Char) : Bool :=
  if unicode then c ≠ '\n' && c ≠ '\r' else decide (32 ≤ c.toNat ∧ c.toNat ≤ 126)

/-- The bytes denoted by what stands after the opening quote, up to the closing quote, which must be the end. -/
def readBody (old unicode : Bool) : List Char → Option (List UInt8)
  | [] => none
  | c :: cs =>
    if c = '"' then if cs = [] then some [] else none
    else if c = '\\' then match cs with
      | [] => none
      | e :: cs => match escape old e with
        | some b => (readBody old unicode cs).map (b :: ·)
        | none =>
          if e = 'x' then match cs with
            | a :: b :: cs => match hexValues [a, b] with
              | some n => (readBody old unicode cs).map (UInt8.ofNat n :: ·)
              | none => none
            | _ => none
          else if e = 'u' then match cs with
            | a :: b :: c :: d :: cs => match (hexValues [a, b, c, d]).bind codePoint with
              | some bs => (readBody old unicode cs).map (bs ++ ·)
              | none => none
            | _ => none
          else none
    else if plain unicode c then (readBody old unicode cs).map (String.utf8EncodeChar c ++ ·)
    else none

/-- The bytes denoted by a text that is a string literal, after white space. -/
def read (old : Bool) (text : List Char) : Option (List UInt8) :=
  match text.dropWhile Lex.blank with
  | '"' :: cs => readBody old false cs
  | 'u' :: 'n' :: 'i' :: 'c' :: 'o' :: 'd' :: 'e' :: '"' :: cs => readBody old true cs
  | _ => none

/-- The bytes of a string value. -/
def bytes (value : List Char) : List UInt8 := value.flatMap String.utf8EncodeChar

example : SolLiteral.read false "\"a\\n\\x41\\u00e9 z\"".toList = some [97, 10, 65, 0xc3, 0xa9, 32, 122] := by decide +kernel
example : SolLiteral.read false "\"\\b\"".toList = none ∧ SolLiteral.read true "\"\\b\"".toList = some [8] := by decide +kernel
example : SolLiteral.read false "\"a\"b\"".toList = none ∧ SolLiteral.read false "\"\\x4\"".toList = none := by decide +kernel
example : SolLiteral.read false "\"é\"".toList = none ∧
    SolLiteral.read false "unicode\"é\"".toList = some [0xc3, 0xa9] := by decide +kernel

/-- The characters for which the printer has a notation that is read as intended: printable ASCII characters other than
`"` and `\`, tab, newline, carriage return, the other control characters from 16 on, until version 0.7 backspace,
vertical tab and form feed, and the code points of four hexadecimal digits. -/
def safe (old : Bool) (c : Char) : Bool :=
  (decide (32 ≤ c.toNat ∧ c.toNat ≤ 126) && c ≠ '"' && c ≠ '\\') ||
  (c.toNat = 9 || c.toNat = 10 || c.toNat = 13) ||
  (old && (c.toNat = 8 || c.toNat = 11 || c.toNat = 12)) ||
  decide (16 ≤ c.toNat ∧ c.toNat ≤ 31) ||
  decide (0x1000 ≤ c.toNat ∧ c.toNat ≤ 0xffff)

end SolLiteral
end Mutagenyx
