import Verif.Model.MutationVisitor

/-!
# Counting with the random generator threaded through

In Rust `count_mutable_nodes` hands the run's random generator to every test
(`json_ast_language_interface.rs:105-130`, `mutation_visitor.rs:159-225`, `mutator.rs:22`); `countMutableNodes`
leaves it out.  Here it is kept.
-/

namespace Mutagenyx
variable {R : Type}

/-- A mutator as the counter sees it: its algorithm and `is_mutable_node(&mut self, node, rand)`. -/
structure NodeTest (R : Type) where
  implements : MutationType
  test : Json → R → Bool × R

/-- The test of a mutator.  Every implementation in `solidity/mutators.rs` and `vyper/mutators.rs` names the
parameter `_rand` and does not use it. -/
def Mutator.toTest (m : Mutator R) : NodeTest R := ⟨m.implements, fun j r => (m.isMutable j, r)⟩

/-- The loop over the mutators (`mutation_visitor.rs:216-225`). -/
def countNodeRng (ts : List (NodeTest R)) (j : Json) (t : CountTable) (r : R) : CountTable × R :=
  ts.foldl (fun acc m =>
    let d := m.test j acc.2
    (if d.1 then acc.1.bump m.implements else acc.1, d.2)) (t, r)

/-- Models `Visitor for MutableNodesCounter` (`mutation_visitor.rs:205-247`) with its `rng` member. -/
def counterVisitorRng (cx : LangCtx) (ps : Permissions) (ts : List (NodeTest R)) : Visitor (CounterState × R) where
  havePermission j _ := permittedToVisit cx ps j
  visit j s :=
    if s.1.skip || permittedToMutate cx ps j then
      let d := countNodeRng ts j s.1.table s.2
      (false, ({ s.1 with table := d.1 }, d.2))
    else (false, s)
  onStart j s := if permittedToMutateChildren cx ps j then ({ s.1 with skip := true }, s.2) else s
  onEnd j s := if permittedToMutateChildren cx ps j then ({ s.1 with skip := false }, s.2) else s

/-- Models `count_mutable_nodes` (`json_ast_language_interface.rs:105-130`): the table and the random
generator afterwards. -/
def countMutableNodesRng (cx : LangCtx) (ps : Permissions) (ts : List (NodeTest R)) (ast : Json) (r : R) :
    CountTable × R :=
  let s := (traverse (counterVisitorRng cx ps ts) ast ({}, r)).2
  (s.1.table, s.2)

end Mutagenyx
