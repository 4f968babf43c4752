import Verif.Model.MutationVisitor
import Verif.Model.SolidityMutators
import Verif.Model.VyperMutators

/-!
# Counting with the crashes of the tests

Two of the tests `is_mutable_node` can crash.  `countMutableNodes` takes such a node for one that is not
mutable; here the crash is kept.
-/

namespace Mutagenyx
variable {R : Type}

/-- Where the test of a Solidity algorithm crashes: `&type_string[..3]` of a text of at least three bytes
whose third byte is not the last one of a character (`solidity/mutators.rs:543-547`). -/
def Solidity.testCrashes (t : MutationType) (j : Json) : Bool :=
  decide (t = .assignment) && hasType "Assignment" j &&
    match typeString j with
    | some s => decide (3 ≤ byteLen s) && (takeBytes 3 s).isNone
    | none => false

/-- Where the test of a Vyper algorithm crashes: `self.operator_map[&op_string]` with an operator that is
not in the map (`vyper/mutators.rs:1472`).  Not modelled: crashes of the printer, which the test of
`DeleteStatement` calls (`vyper/mutators.rs:664`). -/
def Vyper.testCrashes (t : MutationType) (j : Json) : Bool :=
  decide (t = .swapOperatorArguments) && decide (swapOperandsTest j = .panic)

/-- The loop over the mutators (`mutation_visitor.rs:216-225`); `none` is a crash. -/
def countNodeCrash (crash : MutationType → Json → Bool) (ms : List (Mutator R)) (j : Json) (t : CountTable) :
    Option CountTable :=
  ms.foldl (fun acc m => acc.bind fun t =>
    if crash m.implements j then none else some (if m.isMutable j then t.bump m.implements else t)) (some t)

/-- Models `Visitor for MutableNodesCounter` (`mutation_visitor.rs:205-247`).  The second part of the state
says that the program has crashed; the traversal stops then. -/
def counterVisitorCrash (crash : MutationType → Json → Bool) (cx : LangCtx) (ps : Permissions)
    (ms : List (Mutator R)) : Visitor (CounterState × Bool) where
  havePermission j _ := permittedToVisit cx ps j
  visit j s :=
    if s.1.skip || permittedToMutate cx ps j then
      match countNodeCrash crash ms j s.1.table with
      | some t => (false, ({ s.1 with table := t }, s.2))
      | none => (true, (s.1, true))
    else (false, s)
  onStart j s := if permittedToMutateChildren cx ps j then ({ s.1 with skip := true }, s.2) else s
  onEnd j s := if permittedToMutateChildren cx ps j then ({ s.1 with skip := false }, s.2) else s

/-- Models `count_mutable_nodes` (`json_ast_language_interface.rs:105-130`). -/
def countMutableNodesCrash (crash : MutationType → Json → Bool) (cx : LangCtx) (ps : Permissions)
    (ms : List (Mutator R)) (ast : Json) : Outcome CountTable :=
  let s := (traverse (counterVisitorCrash crash cx ps ms) ast ({}, false)).2
  if s.2 then .panic else .ok s.1.table

end Mutagenyx
