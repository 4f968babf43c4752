import Verif.Model.Common

/-!
# What the mutators of both languages share

Text conversions, random loops, the digest of the random choices, and the parameters that stand for
code outside this model.
-/

namespace Mutagenyx

variable {R : Type}

/-- One `hasher.update(..)` call: the bytes of a text, one byte, the bytes of a `usize`, the bytes of
a 128-bit (or 8-bit) integer. -/
inductive HashPart where
  | text (s : String)
  | byte (b : Nat)
  | index (i : Nat)
  | int (i : Int)
  deriving DecidableEq, Repr, Inhabited

/-- What the mutators use from elsewhere.
* `pp` is `pretty_print_node` (`solidity/mutators.rs:221-230`, `vyper/mutators.rs`), used for comment
  texts and for some digests only; it never reaches the mutated node.
* `digest` is sha256 in hexadecimal of the updates made; simplified to a function of the list of
  updates instead of their concatenated bytes.
* `groupOrder` is the order in which the hash map of argument groups is iterated.
* `floatOfInt` is the text of the float serde_json reads for an integer text outside the range of
  `u64`/`i64`; `floatText` is the text of the random float of the Vyper assignment mutator, as a
  function of the number drawn for it.
* `overflowChecks` says whether integer overflow crashes (debug build) or wraps (release build).
* `fuel` bounds the loops that draw again until the draw is acceptable; in the Rust code they are
  unbounded. -/
structure MutEnv where
  pp : Json → String
  digest : List HashPart → String
  groupOrder : List (String × List (Nat × Json)) → List (String × List (Nat × Json))
  groupOrder_perm : ∀ l, (groupOrder l).Perm l
  floatOfInt : Int → String
  floatText : Nat → String
  overflowChecks : Bool
  fuel : Nat

/-! ### Text conversions of the Rust standard library -/

/-- The two parts of a string at a byte offset, as characters; `none` when the offset is past the end
or not on a character boundary (`&s[..n]` and `&s[n..]` panic then). -/
def splitAtByte : List Char → Nat → Option (List Char × List Char)
  | cs, 0 => some ([], cs)
  | [], _ + 1 => none
  | c :: cs, n + 1 =>
    if c.utf8Size ≤ n + 1 then
      match splitAtByte cs (n + 1 - c.utf8Size) with
      | some (a, b) => some (c :: a, b)
      | none => none
    else none

/-- `&s[..n]`. -/
def takeBytes (n : Nat) (s : String) : Option String :=
  (splitAtByte s.toList n).map fun p => String.ofList p.1

/-- `&s[n..]`. -/
def dropBytes (n : Nat) (s : String) : Option String :=
  (splitAtByte s.toList n).map fun p => String.ofList p.2

/-- `s.len()`. -/
def byteLen (s : String) : Nat := (s.toList.map Char.utf8Size).sum

/-- A non-empty run of decimal digits. -/
def parseDigits : List Char → Option Nat
  | [] => none
  | cs => Json.digitsVal cs 0

/-- `str::parse::<u32>`: an optional `+`, then decimal digits, in range. -/
def parseU32 (s : String) : Option Nat :=
  let r := match s.toList with
    | '+' :: cs => parseDigits cs
    | cs => parseDigits cs
  r.filter (· < 2 ^ 32)

/-- `str::parse::<i64>`: an optional sign, then decimal digits, in range. -/
def parseI64 (s : String) : Option Int :=
  let r : Option Int := match s.toList with
    | '+' :: cs => (parseDigits cs).map Int.ofNat
    | '-' :: cs => (parseDigits cs).map fun n : Nat => -(n : Int)
    | cs => (parseDigits cs).map Int.ofNat
  r.filter fun i => -(2 ^ 63 : Int) ≤ i ∧ i < 2 ^ 63

/-- `i + d` in `i64`: `none` stands for the overflow crash. -/
def addI64 (checks : Bool) (i d : Int) : Option Int :=
  let s := i + d
  if -(2 ^ 63 : Int) ≤ s ∧ s < 2 ^ 63 then some s
  else if checks then none
  else some (if s < -(2 ^ 63 : Int) then s + 2 ^ 64 else s - 2 ^ 64)

/-- Hexadecimal digit of a number below 16. -/
def hexDigit (n : Nat) : Char :=
  ("0123456789abcdef".toList)[n]?.getD '0'

/-- `hex::encode` of the bytes of an ASCII text (used for decimal numbers and `true`/`false` only). -/
def hexEncode (s : String) : String :=
  String.ofList (s.toList.flatMap fun c => [hexDigit (c.toNat / 16), hexDigit (c.toNat % 16)])

/-- `to_string` of an integer. -/
def intText (i : Int) : String :=
  match i with
  | .ofNat n => Nat.repr n
  | .negSucc n => "-" ++ Nat.repr (n + 1)

/-- The object a JSON text with these entries is parsed to (`new_json_node`, `json.rs:62-67`): a later
entry with the same key wins, keys are kept sorted. -/
def Json.ofFields (kvs : List (String × Json)) : Json :=
  .obj (kvs.foldl (fun acc kv => Json.objInsert kv.1 kv.2 acc) [])

/-! ### Random draws -/

/-- `rand.gen_range(lo, hi)` of rand 0.7.3: half open, crashes when empty. -/
def genRange [Rand R] (lo hi : Int) (r : R) : Outcome (Int × R) :=
  if lo < hi then
    let d := Rand.below (hi - lo).toNat r
    .ok (lo + d.1, d.2)
  else .panic

/-- `(rand.next_u64() % len as u64) as usize`; crashes for an empty list. -/
def drawIndex [Rand R] (len : Nat) (r : R) : Outcome (Nat × R) :=
  if len = 0 then .panic
  else let d := nextU64 r; .ok (d.1 % len, d.2)

/-- `loop { index = rand.next_u64() % len; if bad(index) { continue } break }`. -/
def drawUntil [Rand R] (good : Nat → Bool) (len : Nat) : Nat → R → Outcome (Nat × R)
  | 0, _ => .outOfFuel
  | fuel + 1, r => match drawIndex len r with
    | .ok (i, r') => if good i then .ok (i, r') else drawUntil good len fuel r'
    | .err e => .err e
    | .panic => .panic
    | .outOfFuel => .outOfFuel

/-- `let mut c = ops.choose(rand)?; while original == c { c = ops.choose(rand)?; }`. -/
def chooseOther [Rand R] (ops : List String) (original : String) : Nat → R → Outcome (String × R)
  | 0, _ => .outOfFuel
  | fuel + 1, r => match choose ops r with
    | (some o, r') => if o = original then chooseOther ops original fuel r' else .ok (o, r')
    | (none, _) => .err .randomOperationFailure

/-! ### Exchanging two statements -/

/-- The exchange of two list elements as both `SwapLines` mutators write it: remove the one at the larger
index, remove the one at the smaller index, insert each at the other's place
(`solidity/mutators.rs:1587-1606`, `vyper/mutators.rs:1670-1685`).  Returns the element of the larger
index, the one of the smaller index and the new list; `none` stands for an index out of range (crash). -/
def exchange (first second : Nat) (ss : List Json) : Option (Json × Json × List Json) :=
  let larger := if first ≥ second then first else second
  let smaller := if first ≥ second then second else first
  match ss[larger]? with
  | none => none
  | some largerNode => match (ss.eraseIdx larger)[smaller]? with
    | none => none
    | some smallerNode =>
      let ss1 := (ss.eraseIdx larger).eraseIdx smaller
      some (largerNode, smallerNode, (ss1.insertIdx smaller largerNode).insertIdx larger smallerNode)

end Mutagenyx
