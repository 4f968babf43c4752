import Verif.Model.Driver

/-!
# What a mutation loop is supposed to do

Specification vocabulary for C04-C07 and C13.  A run of the mutation loop is a list of *rounds*: in each
round a mutant is made, and it is a repetition of an earlier one, rejected by the compiler, or written.
-/

namespace Mutagenyx
variable {R : Type}

/-- What became of a mutant. -/
inductive Fate where
  | duplicate
  | rejected
  | written (dest : Option String)

/-- One attempt to make a mutant: for the slot of the schedule with `left` slots left (including this
one), algorithm `t` was asked to mutate node number `index`. -/
structure Round where
  left : Nat
  t : MutationType
  index : Nat
  res : MutatorResult
  ast : Json
  fate : Fate

/-- The result, if the mutant was written. -/
def Round.writtenResult (r : Round) : Option MutatorResult :=
  match r.fate with
  | .written _ => some r.res
  | _ => none

/-- The results of the written mutants, in order. -/
def writtenResults (rounds : List Round) : List MutatorResult := rounds.filterMap Round.writtenResult

/-- The event that starts a round. -/
def Round.start (r : Round) : Ev := .tried r.left r.t r.index r.res r.ast

/-- The events of a round. -/
def Round.events (verify : Bool) (r : Round) : List Ev :=
  match r.fate with
  | .duplicate => [r.start]
  | .rejected => [r.start, .compiled r.ast false]
  | .written dest =>
    if verify then [r.start, .compiled r.ast true, .output dest (.mutant r.ast r.res)]
    else [r.start, .output dest (.mutant r.ast r.res)]

/-- The events of a list of rounds. -/
def logOf (verify : Bool) (rounds : List Round) : List Ev := rounds.flatMap (Round.events verify)

/-- `r` is a correct round after the rounds `pre`, for the schedule `todo`. -/
structure RoundOk (c : LoopCtx R) (todo : List MutationType) (pre : List Round) (r : Round) : Prop where
  /-- The algorithm is the one scheduled for the slot. -/
  slot : 0 < r.left ∧ r.left ≤ todo.length ∧ todo[todo.length - r.left]? = some r.t
  /-- The mutant comes from the mutator, asked for a node that exists if there is one. -/
  made : ∃ n rng rng', c.count r.t = some n ∧ (0 < n → r.index < n) ∧
    c.mutate r.t r.index rng = .ok (r.ast, r.res, rng')
  /-- Repetitions, and only they, are dropped unseen; the compiler decides about the others if it is
  to be asked; the mutants are numbered in the order of writing. -/
  fate : match r.fate with
    | .duplicate => r.res ∈ writtenResults pre
    | .rejected => r.res ∉ writtenResults pre ∧ c.verify = true ∧
        c.compiles (logOf c.verify pre ++ [r.start]) r.ast = .ok false
    | .written dest => r.res ∉ writtenResults pre ∧
        (c.verify = true → c.compiles (logOf c.verify pre ++ [r.start]) r.ast = .ok true) ∧
        c.emit (logOf c.verify pre ++ (r.start :: if c.verify then [.compiled r.ast true] else []))
          (writtenResults pre).length r.ast r.res = .ok dest

/-- The number of attempts for the slot with `left` slots left. -/
def attemptsFor (left : Nat) (rounds : List Round) : Nat := rounds.countP (fun r => r.left == left)

/-- Some attempt for that slot was written. -/
def SlotServed (left : Nat) (rounds : List Round) : Prop := ∃ r ∈ rounds, r.left = left ∧ r.writtenResult ≠ none

/-- The rounds `rounds` are a correct history for schedule `todo`, with slots `lo+1 ..` dealt with. -/
structure History (c : LoopCtx R) (todo : List MutationType) (lo : Nat) (rounds : List Round) : Prop where
  ok : ∀ pre r post, rounds = pre ++ r :: post → RoundOk c todo pre r
  /-- Slots are served in the order of the schedule. -/
  order : rounds.Pairwise (fun a b => b.left ≤ a.left)
  /-- After a mutant is written the next slot is on. -/
  next : rounds.Pairwise (fun a b => a.writtenResult ≠ none → b.left < a.left)
  attempts : ∀ l, attemptsFor l rounds ≤ maxAttempts
  /-- A slot is left when a mutant was written or the attempts are used up. -/
  done : ∀ l, lo < l → l ≤ todo.length → SlotServed l rounds ∨ attemptsFor l rounds = maxAttempts

/-- Events of a round that did not get to its end. -/
inductive Interrupted (verify : Bool) : List Ev → Prop
  | none : Interrupted verify []
  | tried (r : Round) : Interrupted verify [r.start]
  | compiled (r : Round) : verify = true → Interrupted verify [r.start, .compiled r.ast true]

/-- The results of the mutants in a log. -/
def mutantResults (log : List Ev) : List MutatorResult :=
  log.filterMap fun e => match e with
    | .output _ (.mutant _ r) => some r
    | _ => none

/-- Where the mutants in a log went. -/
def mutantDests (log : List Ev) : List (Option String) :=
  log.filterMap fun e => match e with
    | .output d (.mutant _ _) => some d
    | _ => none

/-- The number of mutants made for the slot with `left` slots left. -/
def triedFor (left : Nat) (log : List Ev) : Nat :=
  log.countP fun e => match e with
    | .tried l _ _ _ _ => l == left
    | _ => false

end Mutagenyx

namespace Mutagenyx

/-- According to the log a mutant was written for the slot with `left` slots left. -/
def WrittenFor (left : Nat) (log : List Ev) : Prop :=
  ∃ pre post t i res ast dest mid,
    log = pre ++ .tried left t i res ast :: (mid ++ .output dest (.mutant ast res) :: post) ∧
    (mid = [] ∨ mid = [.compiled ast true])

end Mutagenyx
