import Verif.Spec.SolidityLiteral

/-!
# Vyper literals

The values of string and bytes literals on one line, as Python reads them, which Vyper uses for that.  Between the quotation marks a
backslash starts an escape sequence; one that is not known stands for itself.  Literals between three quotation marks are not
considered.
-/

namespace Mutagenyx
namespace VyLiteral

/-- Escape sequences of one character. -/
def escape (c : Char) : Option (List Nat) :=
  if c = '\n' then some []
  else if c = '\\' then some [92]
  else if c = '\'' then some [39]
  else if c = '"' then some [34]
  else if c = 'a' then some [7]
  else if c = 'b' then some [8]
  else if c = 'f' then some [12]
  else if c = 'n' then some [10]
  else if c = 'r' then some [13]
  else if c = 't' then some [9]
  else if c = 'v' then some [11]
  else none

/-- The value of an octal digit. -/
def octal (c : Char) : Option Nat := if '0' ≤ c ∧ c ≤ '7' then some (c.toNat - 48) else none

/-- The value of up to three octal digits and what stands behind them. -/
def octals (d : Nat) : List Char → Nat × List Char
  | a :: b :: cs => match octal a, octal b with
    | some x, some y => (64 * d + 8 * x + y, cs)
    | some x, none => (8 * d + x, b :: cs)
    | none, _ => (d, a :: b :: cs)
  | [a] => match octal a with
    | some x => (8 * d + x, [])
    | none => (d, [a])
  | [] => (d, [])

/-- The characters, or bytes, denoted by what stands behind the opening quotation mark `q`, up to the closing one, which must be the
end. -/
def readBody (q : Char) (bytes : Bool) : Nat → List Char → Option (List Nat)
  | 0, _ => none
  | _ + 1, [] => none
  | f + 1, c :: cs =>
    if c = q then if cs = [] then some [] else none
    else if c = '\n' ∨ c = '\r' then none
    else if c = '\\' then match cs with
      | [] => none
      | e :: cs => match escape e, octal e with
        | some v, _ => (readBody q bytes f cs).map (v ++ ·)
        | none, some d =>
          if bytes ∧ 256 ≤ (octals d cs).1 then none else (readBody q bytes f (octals d cs).2).map ((octals d cs).1 :: ·)
        | none, none =>
          if e = 'x' then match SolLiteral.hexValues (cs.take 2) with
            | some n => if cs.length < 2 then none else (readBody q bytes f (cs.drop 2)).map (n :: ·)
            | none => none
          else if e = 'u' ∧ bytes = false then match SolLiteral.hexValues (cs.take 4) with
            | some n => if cs.length < 4 then none else (readBody q bytes f (cs.drop 4)).map (n :: ·)
            | none => none
          else if e = 'U' ∧ bytes = false then match SolLiteral.hexValues (cs.take 8) with
            | some n => if cs.length < 8 then none else (readBody q bytes f (cs.drop 8)).map (n :: ·)
            | none => none
          else if e = 'N' ∧ bytes = false then none
          else if e = '\r' ∨ bytes ∧ 128 ≤ e.toNat then none
          else (readBody q bytes f cs).map (fun v => 92 :: e.toNat :: v)
    else if bytes ∧ 128 ≤ c.toNat then none
    else (readBody q bytes f cs).map (c.toNat :: ·)

/-- The code points denoted by a text that is a string literal, after white space. -/
def readString (text : List Char) : Option (List Nat) :=
  match text.dropWhile Lex.blank with
  | '"' :: cs => readBody '"' false (cs.length + 1) cs
  | '\'' :: cs => readBody '\'' false (cs.length + 1) cs
  | _ => none

/-- The bytes denoted by a text that is a bytes literal, after white space. -/
def readBytes (text : List Char) : Option (List Nat) :=
  match text.dropWhile Lex.blank with
  | 'b' :: '"' :: cs => readBody '"' true (cs.length + 1) cs
  | 'b' :: '\'' :: cs => readBody '\'' true (cs.length + 1) cs
  | _ => none

/-- A character that a backslash stands before without starting an escape sequence. -/
def unknown (c : Char) : Bool := (escape c).isNone && (octal c).isNone && !['x', 'u', 'U', 'N', '\r'].contains c

/-- A text that stands for itself between the quotation marks `"`: there is none of them and no line break in it, and no escape
sequence. -/
def harmless : List Char → Bool
  | [] => true
  | [c] => c ≠ '"' && c ≠ '\n' && c ≠ '\r' && c ≠ '\\'
  | c :: e :: cs => if c = '\\' then unknown e && harmless cs else c ≠ '"' && c ≠ '\n' && c ≠ '\r' && harmless (e :: cs)

/-- The bytes that hexadecimal digits stand for, two for each byte. -/
def hexBytes : List Char → Option (List Nat)
  | [] => some []
  | [_] => none
  | a :: b :: cs => match SolLiteral.hexValues [a, b], hexBytes cs with
    | some n, some ns => some (n :: ns)
    | _, _ => none

example : readString "\"a\\n\\x41\\u00e9\\q 'é\\101\\7z\"".toList = some [97, 10, 65, 0xe9, 92, 113, 32, 39, 0xe9, 65, 7, 122] := by
  decide +kernel
example : readString "'it\\'s \"'".toList = some [105, 116, 39, 115, 32, 34] ∧ readString "\"a\"b\"".toList = none ∧
    readString "\"a\nb\"".toList = none ∧ readString "\"a\\\"".toList = none := by decide +kernel
example : readBytes "b'\\x00\\xfFa\\u0041'".toList = some [0, 255, 97, 92, 117, 48, 48, 52, 49] ∧ readBytes "b'\\x0'".toList = none ∧
    readBytes "b'é'".toList = none ∧ readBytes "'a'".toList = none := by decide +kernel
example : hexBytes "00fF41".toList = some [0, 255, 65] ∧ hexBytes "0".toList = none ∧ hexBytes "0g".toList = none := by decide +kernel

example : harmless "it's 1\\q".toList = true ∧ harmless "a\"".toList = false ∧ harmless "a\\n".toList = false ∧
    harmless "a\\".toList = false ∧ harmless "\n".toList = false := by decide +kernel

end VyLiteral
end Mutagenyx
