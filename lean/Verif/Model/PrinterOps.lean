import Verif.Model.Printer

/-!
# Sequences of calls on the printer

The node printers never look at the state of the printer: what they do is to make a sequence of calls.
Such a sequence is data here, so that it can be talked about and executed.
-/

namespace Mutagenyx

/-- One call on the printer (`pretty_printer.rs:49-418`, through the functions of
`pretty_printer.rs:439-578`). -/
inductive Op where
  | token (t : List Char)
  | tokens (t : List Char) (n : Nat)
  | string (s : List Char)
  | triple (s : List Char)
  | space
  | spaces (n : Nat)
  | newline
  | indent
  | incr
  | incrBy (n : Nat)
  | decr
  | decrBy (n : Nat)
  | flow (s next : List Char)
  /-- Not a call: the node printer crashes here (or, with `outOfFuel`, does not end). -/
  | stop (hang : Bool)
  deriving DecidableEq, Repr

namespace Printer

/-- `write_flowable_text`; the bound suffices whenever the call ends at all (`Props/Flow.lean`). -/
def writeFlow (checks : Bool) (s next : List Char) (p : Printer) : Outcome Printer :=
  writeFlowable checks (utf8Len s + 3) s next p

/-- One call. -/
def exec (checks : Bool) (op : Op) (p : Printer) : Outcome Printer :=
  match op with
  | .token t => .ok (p.writeToken t)
  | .tokens t n => .ok (writeTokens t n p)
  | .string s => .ok (p.writeString s)
  | .triple s => .ok (p.writeTripleString s)
  | .space => .ok p.writeSpace
  | .spaces n => .ok (writeSpaces n p)
  | .newline => .ok p.writeNewline
  | .indent => .ok p.writeIndent
  | .incr => .ok p.increaseIndent
  | .incrBy n => .ok (p.increaseIndentBy n)
  | .decr => .ok p.decreaseIndent
  | .decrBy n => .ok (p.decreaseIndentBy n)
  | .flow s next => p.writeFlow checks s next
  | .stop hang => if hang then .outOfFuel else .panic

/-- A sequence of calls. -/
def run (checks : Bool) : List Op → Printer → Outcome Printer
  | [], p => .ok p
  | op :: ops, p => match exec checks op p with
    | .ok p' => run checks ops p'
    | .err e => .err e
    | .panic => .panic
    | .outOfFuel => .outOfFuel

end Printer
end Mutagenyx
