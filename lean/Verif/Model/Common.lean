import Verif.Model.Json

/-!
# Algorithms, languages, errors, results, randomness
-/

namespace Mutagenyx

/-- Models `GenericMutation` (`mutation.rs:17-192`), `SolidityMutation` (`mutation.rs:196-219`) and
`MutationType` (`mutation.rs:223-229`) as one flat enumeration in declaration order. -/
inductive MutationType where
  | arithmeticBinaryOp
  | logicalBinaryOp
  | bitwiseBinaryOp
  | bitshiftBinaryOp
  | comparisonBinaryOp
  | assignment
  | deleteStatement
  | functionCall
  | ifStatement
  | integer
  | swapFunctionArguments
  | swapOperatorArguments
  | swapLines
  | unaryOp
  | require
  | uncheckedBlock
  | elimDelegateCall
  deriving DecidableEq, Repr, Inhabited

namespace MutationType

/-- Position in the derived `Ord` (`mutation.rs:16,195,222`): generic algorithms in declaration
order, then the Solidity ones. -/
def rank : MutationType → Nat
  | arithmeticBinaryOp => 0
  | logicalBinaryOp => 1
  | bitwiseBinaryOp => 2
  | bitshiftBinaryOp => 3
  | comparisonBinaryOp => 4
  | assignment => 5
  | deleteStatement => 6
  | functionCall => 7
  | ifStatement => 8
  | integer => 9
  | swapFunctionArguments => 10
  | swapOperatorArguments => 11
  | swapLines => 12
  | unaryOp => 13
  | require => 14
  | uncheckedBlock => 15
  | elimDelegateCall => 16

/-- `MutationType::Solidity(_)` (`mutation.rs:227-228`). -/
def isSolidity : MutationType → Bool
  | require => true
  | uncheckedBlock => true
  | elimDelegateCall => true
  | _ => false

/-- Models `FromStr for MutationType` (`mutation.rs:232-265`); `none` is the error. -/
def ofString? (s : String) : Option MutationType :=
  if s = "ArithmeticBinaryOp" then some arithmeticBinaryOp
  else if s = "LogicalBinaryOp" then some logicalBinaryOp
  else if s = "BitwiseBinaryOp" then some bitwiseBinaryOp
  else if s = "BitshiftBinaryOp" then some bitshiftBinaryOp
  else if s = "ComparisonBinaryOp" then some comparisonBinaryOp
  else if s = "Assignment" then some assignment
  else if s = "DeleteStatement" then some deleteStatement
  else if s = "FunctionCall" then some functionCall
  else if s = "IfStatement" then some ifStatement
  else if s = "Integer" then some integer
  else if s = "SwapFunctionArguments" then some swapFunctionArguments
  else if s = "SwapOperatorArguments" then some swapOperatorArguments
  else if s = "SwapLines" then some swapLines
  else if s = "UnaryOp" then some unaryOp
  else if s = "Require" then some require
  else if s = "UncheckedBlock" then some uncheckedBlock
  else if s = "ElimDelegateCall" then some elimDelegateCall
  else none

/-- Models `Display for MutationType` (`mutation.rs:267-295`). -/
def toStr : MutationType → String
  | arithmeticBinaryOp => "ArithmeticBinaryOp"
  | logicalBinaryOp => "LogicalBinaryOp"
  | bitwiseBinaryOp => "BitwiseBinaryOp"
  | bitshiftBinaryOp => "BitshiftBinaryOp"
  | comparisonBinaryOp => "ComparisonBinaryOp"
  | assignment => "Assignment"
  | deleteStatement => "DeleteStatement"
  | functionCall => "FunctionCall"
  | ifStatement => "IfStatement"
  | integer => "Integer"
  | swapFunctionArguments => "SwapFunctionArguments"
  | swapOperatorArguments => "SwapOperatorArguments"
  | swapLines => "SwapLines"
  | unaryOp => "UnaryOp"
  | require => "Require"
  | uncheckedBlock => "UncheckedBlock"
  | elimDelegateCall => "ElimDelegateCall"

/-- The keys of `all_algorithm_descriptions` in order of insertion (`mutation.rs:329-539`). -/
def described : List MutationType :=
  [arithmeticBinaryOp, logicalBinaryOp, bitwiseBinaryOp, bitshiftBinaryOp, comparisonBinaryOp,
   assignment, deleteStatement, functionCall, ifStatement, integer, swapFunctionArguments,
   swapOperatorArguments, swapLines, unaryOp, require, uncheckedBlock, elimDelegateCall]

/-- Insertion into a list sorted by a key. -/
def insertBy {α κ : Type} [LT κ] [DecidableRel (α := κ) (· < ·)] (key : α → κ) (a : α) : List α → List α
  | [] => [a]
  | b :: bs => if key b < key a then b :: insertBy key a bs else a :: b :: bs

/-- `slice::sort` / `sort_unstable_by` by a key.  Any correct sort gives this result when keys are
distinct. -/
def sortBy {α κ : Type} [LT κ] [DecidableRel (α := κ) (· < ·)] (key : α → κ) : List α → List α
  | [] => []
  | a :: as => insertBy key a (sortBy key as)

/-- Models `get_all_mutation_algorithms` (`mutation.rs:298-314`); `order` is the iteration order of
the hash map of descriptions. -/
def getAll (order : List MutationType) : List MutationType := sortBy toStr order

/-- Models `get_mutation_types_from_strings` (`mutagenyx/src/mutation_generator.rs:34-39`). -/
def fromStrings (names : List String) : List MutationType := names.filterMap ofString?

end MutationType

/-- Models `Language` (`language.rs:9-20`). -/
inductive Language where
  | solidity
  | vyper
  deriving DecidableEq, Repr, Inhabited

namespace Language
/-- Models `FromStr for Language` (`language.rs:22-32`). -/
def ofString? (s : String) : Option Language :=
  if s = "Solidity" then some solidity else if s = "Vyper" then some vyper else none
/-- Models `Display for Language` (`language.rs:34-43`). -/
def toStr : Language → String
  | solidity => "Solidity"
  | vyper => "Vyper"
end Language

/-- Models the part of `MutagenyxError` (`error.rs:11-105`) that the modelled code can produce.
Simplified: the payloads that only feed the error text are dropped, except where they matter. -/
inductive Err where
  | io
  | json
  | incorrectJSONNodeType
  | unrecognizedJSON
  | noMutableNode
  | malformedNode (what element : String)
  | unableToGenerateNode
  | languageNotSupported
  | languageNotRecognized
  | astTypeNotSupported
  | mutationAlgorithmNotSupported
  | configFileNotSupported
  | configFileBadExtension
  | configFileMissingRequiredKey (keys : List String)
  | configFileUnsupportedLanguage
  | randomOperationFailure
  | unrecognizedLanguageType
  | sourceDoesNotCompile
  | compilerNoVersion
  deriving DecidableEq, Repr, Inhabited

/-- How a piece of code can end: a value, an error value (`Result::Err`), a crash of the process
(`panic!`, `unwrap` on `None`, overflow in a checked operation, out-of-range index) or not yet, after
the given amount of loop iterations (`outOfFuel`). -/
inductive Outcome (α : Type) where
  | ok (a : α)
  | err (e : Err)
  | panic
  | outOfFuel
  deriving DecidableEq, Repr, Inhabited

namespace Outcome
/-- Sequencing (`?` on `Result`; crashes and endless loops propagate as well). -/
def bind {α β : Type} : Outcome α → (α → Outcome β) → Outcome β
  | ok a, f => f a
  | err e, _ => err e
  | panic, _ => panic
  | outOfFuel, _ => outOfFuel
instance : Monad Outcome where
  pure := ok
  bind := bind
/-- The value, if the code ended normally. -/
def toOption {α : Type} : Outcome α → Option α
  | ok a => some a
  | _ => none
@[simp] theorem bind_ok {α β : Type} (a : α) (f : α → Outcome β) : (ok a >>= f) = f a := rfl
@[simp] theorem bind_err {α β : Type} (e : Err) (f : α → Outcome β) : (err e >>= f) = err e := rfl
@[simp] theorem bind_panic {α β : Type} (f : α → Outcome β) : (panic >>= f) = panic := rfl
@[simp] theorem bind_outOfFuel {α β : Type} (f : α → Outcome β) : (outOfFuel >>= f) = outOfFuel := rfl
@[simp] theorem pure_eq {α : Type} (a : α) : (pure a : Outcome α) = ok a := rfl
end Outcome

/-- Models `MutatorResult` (`mutator_result.rs:7-19`), with its derived equality. -/
structure MutatorResult where
  mutationType : Option MutationType := none
  index : Option Nat := none
  mutatedNodeId : Option Nat := none
  randomBehaviorHash : Option String := none
  deriving DecidableEq, Repr, Inhabited

/-- A source of randomness with state `R`: stands for `Pcg64` (rand_pcg 0.2.1) with the sampling
functions of rand 0.7.3.  `below n` is a draw from `0 .. n-1`; `gen_range(lo, hi)` is `lo + below (hi - lo)`,
`next_u64` is `below (2^64)`, `SliceRandom::choose` draws an index `below len`.
Nothing is assumed about the distribution. -/
class Rand (R : Type) where
  below : Nat → R → Nat × R
  below_lt : ∀ n r, 0 < n → (below n r).1 < n

/-- `RngCore::next_u64`. -/
def nextU64 {R : Type} [Rand R] (r : R) : Nat × R := Rand.below (2 ^ 64) r

/-- `SliceRandom::choose` (rand 0.7.3): `None` on an empty slice without drawing. -/
def choose {R α : Type} [Rand R] (xs : List α) (r : R) : Option α × R :=
  if xs.isEmpty then (none, r)
  else let d := Rand.below xs.length r; (xs[d.1]?, d.2)

/-- A concrete random source for examples: a list of prepared draws, 0 when it runs out. -/
structure ListRand where
  draws : List Nat
  deriving DecidableEq, Repr, Inhabited

instance : Rand ListRand where
  below n r := match r.draws with
    | [] => (0, ⟨[]⟩)
    | d :: ds => (d % n, ⟨ds⟩)
  below_lt n r h := by
    cases hd : r.draws with
    | nil => simpa [hd] using h
    | cons d ds => simpa [hd] using Nat.mod_lt _ h

/-- `i64 as u64`. -/
def i64AsU64 (i : Int) : Nat := (i % (2 ^ 64 : Int)).toNat

/-- `u64 as i64`. -/
def u64AsI64 (n : Nat) : Int :=
  let m : Int := (n : Int) % 2 ^ 64
  if m < 2 ^ 63 then m else m - 2 ^ 64

/-- The parts of a language delegate that generic code uses: the namer and the id maker. -/
structure LangCtx where
  nameOf : Json → Option String
  idOf : Json → Option Nat

/-- Models `get_namer` (`solidity/language_interface.rs:158-162`, `vyper/language_interface.rs:162-166`). -/
def jsonName (j : Json) : Option String := j.getStrForKey "name"

/-- Models the Solidity delegate's `get_node_id_maker` (`solidity/language_interface.rs:143-147`). -/
def solidityId (j : Json) : Option Nat := (j.getIntForKey "id").map i64AsU64

/-- Models the Vyper delegate's `get_node_id_maker` (`vyper/language_interface.rs:147-151`). -/
def vyperId (j : Json) : Option Nat := (j.getIntForKey "node_id").map i64AsU64

/-- The Solidity delegate's namer and id maker. -/
def solidityCtx : LangCtx := ⟨jsonName, solidityId⟩
/-- The Vyper delegate's namer and id maker. -/
def vyperCtx : LangCtx := ⟨jsonName, vyperId⟩

/-- Models a mutator object (`mutator.rs:13-47`).  `isMutable` takes no random state: no implementation
uses the one it is given.  `mutate` returns the changed node, the result, the comment node available
afterwards through `get_comment_node` and the random state. -/
structure Mutator (R : Type) where
  implements : MutationType
  isMutable : Json → Bool
  mutate : Json → R → Outcome (Json × MutatorResult × Option Json × R)

end Mutagenyx
