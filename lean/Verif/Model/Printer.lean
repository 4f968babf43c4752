import Verif.Model.Strings

/-!
# The token printer: `mutagenyx_lib/src/pretty_printer.rs`

The stream is part of the state, as the characters written so far; writing to it never fails (the helper
functions of `pretty_printer.rs:439-578` only log failures).  Counters are natural numbers: they stay far
below the limits of `usize`.
-/

namespace Mutagenyx

/-- `str::len`: the number of bytes. -/
def utf8Len (cs : List Char) : Nat := (cs.map Char.utf8Size).sum

/-- Models `PrettyPrinter` (`pretty_printer.rs:10-18`) and the stream it writes to.  The newline is the
one of Unix. -/
structure Printer where
  row : Nat
  column : Nat
  tabWidth : Nat
  pageWidth : Nat
  indent : Nat
  maxIndent : Nat
  out : List Char := []
  deriving DecidableEq, Repr

namespace Printer

/-- Models `new` (`pretty_printer.rs:29-47`).  The maximal indentation is computed in floating point,
`(page / tab - 1.0) as usize`; that is the truncated value below for all widths under `2^52`, and the
saturating cast gives the largest `usize` for a tab width of zero. -/
def new (tab page : Nat) : Printer where
  row := 1
  column := 1
  tabWidth := tab
  pageWidth := page
  indent := 0
  maxIndent := if tab = 0 then (if page = 0 then 0 else 2 ^ 64 - 1) else page / tab - 1

/-- Models `increase_indent` (`pretty_printer.rs:52-58`). -/
def increaseIndent (p : Printer) : Printer :=
  if p.indent ≥ p.maxIndent then { p with indent := p.maxIndent } else { p with indent := p.indent + 1 }

/-- Models `increase_indent_by` (`pretty_printer.rs:68-74`). -/
def increaseIndentBy (n : Nat) (p : Printer) : Printer :=
  if p.indent + n ≤ p.maxIndent then { p with indent := p.indent + n } else { p with indent := p.maxIndent }

/-- Models `decrease_indent` (`pretty_printer.rs:79-84`). -/
def decreaseIndent (p : Printer) : Printer :=
  if p.indent = 0 then p else { p with indent := p.indent - 1 }

/-- Models `decrease_indent_by` (`pretty_printer.rs:95-101`). -/
def decreaseIndentBy (n : Nat) (p : Printer) : Printer :=
  if n > p.indent then { p with indent := 0 } else { p with indent := p.indent - n }

/-- Models `indent_length` (`pretty_printer.rs:104-106`). -/
def indentLength (p : Printer) : Nat := p.indent * p.tabWidth

/-- Models `indent_string` and `space_string_for_length` (`pretty_printer.rs:113-128`). -/
def indentString (p : Printer) : List Char := List.replicate p.indentLength ' '

/-- Models `write_basic_string` (`pretty_printer.rs:426-436`). -/
def basic (s : List Char) (p : Printer) : Printer :=
  { p with out := p.out ++ s, column := p.column + utf8Len s }

/-- Models `write_indent` (`pretty_printer.rs:135-141`). -/
def writeIndent (p : Printer) : Printer :=
  if p.indentString.isEmpty then p else p.basic p.indentString

/-- Models `write_newline` (`pretty_printer.rs:148-155`). -/
def writeNewline (p : Printer) : Printer :=
  { p with out := p.out ++ ['\n'], row := p.row + 1, column := 1 }

/-- Models `write_space` (`pretty_printer.rs:162-169`). -/
def writeSpace (p : Printer) : Printer :=
  let p := if p.column = p.pageWidth then p.writeNewline.writeIndent else p
  p.basic [' ']

/-- Models `write_spaces` (`pretty_printer.rs:171-180`). -/
def writeSpaces : Nat → Printer → Printer
  | 0, p => p
  | n + 1, p => writeSpaces n p.writeSpace

/-- Models `write_token` (`pretty_printer.rs:188-217`).  `page_width - column` underflows only for a page
of width zero, where the truncated difference leads to the same choice as the wrapped one. -/
def writeToken (t : List Char) (p : Printer) : Printer :=
  let p := if p.column > p.pageWidth then p.writeNewline else p
  if utf8Len t > p.pageWidth then
    if p.column > p.indentLength then (p.writeNewline.writeIndent).basic t else p.basic t
  else
    let p := if utf8Len t > p.pageWidth - p.column then p.writeNewline.writeIndent else p
    p.basic t

/-- Models `write_tokens` (`pretty_printer.rs:226-236`). -/
def writeTokens (t : List Char) : Nat → Printer → Printer
  | 0, p => p
  | n + 1, p => writeTokens t n (p.writeToken t)

/-- Models `write_string` (`pretty_printer.rs:254-258`). -/
def writeString (s : List Char) (p : Printer) : Printer := p.writeToken ('"' :: s ++ ['"'])

/-- Models `write_triple_string` (`pretty_printer.rs:276-284`). -/
def writeTripleString (s : List Char) (p : Printer) : Printer :=
  p.writeToken (['"', '"', '"'] ++ s ++ ['"', '"', '"'])

/-- Models `reset` (`pretty_printer.rs:414-418`). -/
def reset (p : Printer) : Printer := { p with row := 0, column := 0, indent := 0 }

/-! ### Flowable text -/

/-- The bytes of a text: the first byte of a character stands for it, further bytes are `none`.  The code
only compares bytes with a space and cuts between bytes, for which this is all that matters. -/
def cells : List Char → List (Option Char)
  | [] => []
  | c :: cs => some c :: (List.replicate (c.utf8Size - 1) none ++ cells cs)

/-- The characters that begin in the bytes. -/
def chars (bs : List (Option Char)) : List Char := bs.filterMap id

/-- State of the scan for the last word that starts in the space left. -/
structure Scan where
  start : Nat := 0
  space : Bool := false

/-- The loop of `pretty_printer.rs:356-367` over the bytes from number `i` on. -/
def scanWords : List (Option Char) → Nat → Scan → Scan
  | [], _, s => s
  | b :: bs, i, s =>
    if b = some ' ' then scanWords bs (i + 1) { s with space := true }
    else scanWords bs (i + 1) { start := if s.space then i else s.start, space := false }

/-- `t[..i]` and `t[i..]`; cutting inside a character is a crash. -/
def cut (i : Nat) (bs : List (Option Char)) : Outcome (List (Option Char) × List (Option Char)) :=
  if bs[i]? = some none then .panic else .ok (bs.take i, bs.drop i)

/-- Where the text is broken (`pretty_printer.rs:349-393`): first part and rest. -/
def breakText (left : Nat) (bs : List (Option Char)) : Outcome (List (Option Char) × List (Option Char)) :=
  let at_ := if bs[left]? = some (some ' ') then left else (scanWords (bs.take left) 0 {}).start
  match cut at_ bs with
  | .ok (first, rest) => .ok (first, if bs[at_]? = some (some ' ') then rest.drop 1 else rest)
  | .err e => .err e
  | .panic => .panic
  | .outOfFuel => .outOfFuel

/-- Newlines become spaces, double spaces single ones (`pretty_printer.rs:325-332`). -/
def flowText (s : List Char) : Outcome (List Char) :=
  Text.removeAll [' ', ' '] (s.map fun c => if c = '\n' then ' ' else c)

/-- Models `write_flowable_text` (`pretty_printer.rs:313-411`); the first argument bounds the depth of the
recursion.  `checks` says whether arithmetic overflow crashes (debug builds) or wraps around, in which case
the difference is larger than any text. -/
def writeFlowable (checks : Bool) : Nat → List Char → List Char → Printer → Outcome Printer
  | 0, _, _, _ => .outOfFuel
  | fuel + 1, s, next, p =>
    match flowText s with
    | .err e => .err e
    | .panic => .panic
    | .outOfFuel => .outOfFuel
    | .ok t =>
      if p.column > p.pageWidth then if checks then .panic else .ok (p.basic t)
      else
        let left := p.pageWidth - p.column
        if utf8Len t > left then
          if left = 0 then
            writeFlowable checks fuel t next ((p.writeNewline.writeIndent).writeToken next)
          else match breakText left (cells t) with
            | .err e => .err e
            | .panic => .panic
            | .outOfFuel => .outOfFuel
            | .ok (first, rest) =>
              let p := if first.isEmpty then p else p.basic (chars first)
              let p := (p.writeNewline.writeIndent).writeToken next
              if rest.isEmpty then .ok p else writeFlowable checks fuel (chars rest) next p
        else .ok (p.basic t)

end Printer
end Mutagenyx
