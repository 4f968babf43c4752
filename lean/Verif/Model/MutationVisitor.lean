import Verif.Model.Common
import Verif.Model.Permissions
import Verif.Model.Traverse

/-!
# `mutagenyx_lib/src/mutation_visitor.rs`
-/

namespace Mutagenyx

variable {R : Type}

/-- Models `has_permission_to_visit` (`mutation_visitor.rs:23-37`). -/
def permittedToVisit (cx : LangCtx) (ps : Permissions) (j : Json) : Bool :=
  match cx.nameOf j with
  | some n => Permissions.have? (.visit (.name (.value n .allow))) ps
  | none => Permissions.have? (.visit (.any .allow)) ps

/-- Models `has_permission_to_mutate` (`mutation_visitor.rs:46-60`). -/
def permittedToMutate (cx : LangCtx) (ps : Permissions) (j : Json) : Bool :=
  match cx.nameOf j with
  | some n => Permissions.have? (.mutate (.name (.value n .allow))) ps
  | none => Permissions.have? (.mutate (.name (.any .allow))) ps

/-- Models `has_permission_to_mutate_children` (`mutation_visitor.rs:70-84`). -/
def permittedToMutateChildren (cx : LangCtx) (ps : Permissions) (j : Json) : Bool :=
  match cx.nameOf j with
  | some n => Permissions.have? (.mutate (.children (.value n .allow))) ps
  | none => Permissions.have? (.mutate (.children (.any .allow))) ps

/-! ### PathVisitor -/

/-- Models `NodePathMap` (`mutation_visitor.rs:86-87`): a hash map from ids to paths; an entry
inserted later replaces an earlier one.  Only looked up, never iterated. -/
abbrev PathMap := List (Nat × List Nat)

/-- `HashMap::insert`. -/
def PathMap.insert (k : Nat) (v : List Nat) : PathMap → PathMap
  | [] => [(k, v)]
  | (l, w) :: rest => if l = k then (k, v) :: rest else (l, w) :: PathMap.insert k v rest

/-- `HashMap::get`. -/
def PathMap.get? (k : Nat) : PathMap → Option (List Nat)
  | [] => none
  | (l, w) :: rest => if l = k then some w else PathMap.get? k rest

/-- State of `PathVisitor` (`mutation_visitor.rs:90-105`). -/
structure PathState where
  pathMap : PathMap := []
  currentPath : List Nat := []
  deriving DecidableEq, Repr

/-- Models `Visitor for PathVisitor` (`mutation_visitor.rs:130-155`). -/
def pathVisitor (cx : LangCtx) (ps : Permissions) : Visitor PathState where
  havePermission j _ := permittedToVisit cx ps j
  visit j s := match cx.idOf j with
    | some id => (false, { s with pathMap := s.pathMap.insert id (s.currentPath ++ [id]) })
    | none => (false, s)
  onStart j s := match cx.idOf j with
    | some id => { s with currentPath := s.currentPath ++ [id] }
    | none => s
  onEnd j s := if (cx.idOf j).isSome then { s with currentPath := s.currentPath.dropLast } else s

/-- Models `calculate_node_paths` (`json_ast_language_interface.rs:282-297`). -/
def calculateNodePaths (cx : LangCtx) (ps : Permissions) (ast : Json) : PathMap :=
  (traverse (pathVisitor cx ps) ast {}).2.pathMap

/-! ### MutableNodesCounter -/

/-- The counter table: a hash map from algorithms to counts; entries with count 0 never exist. -/
abbrev CountTable := List (MutationType × Nat)

/-- Add one for an algorithm, inserting 1 when it has no entry (`mutation_visitor.rs:218-223`). -/
def CountTable.bump (t : MutationType) : CountTable → CountTable
  | [] => [(t, 1)]
  | (u, n) :: rest => if u = t then (u, n + 1) :: rest else (u, n) :: CountTable.bump t rest

/-- `HashMap::get`. -/
def CountTable.get? (t : MutationType) : CountTable → Option Nat
  | [] => none
  | (u, n) :: rest => if u = t then some n else CountTable.get? t rest

/-- State of `MutableNodesCounter` (`mutation_visitor.rs:159-178`). -/
structure CounterState where
  table : CountTable := []
  skip : Bool := false
  deriving DecidableEq, Repr

/-- The loop over the mutators (`mutation_visitor.rs:216-225`); the list is the mutator table in its
iteration order. -/
def countNode (ms : List (Mutator R)) (j : Json) (t : CountTable) : CountTable :=
  ms.foldl (fun t m => if m.isMutable j then t.bump m.implements else t) t

/-- Models `Visitor for MutableNodesCounter` (`mutation_visitor.rs:205-247`). -/
def counterVisitor (cx : LangCtx) (ps : Permissions) (ms : List (Mutator R)) : Visitor CounterState where
  havePermission j _ := permittedToVisit cx ps j
  visit j s :=
    if s.skip || permittedToMutate cx ps j then (false, { s with table := countNode ms j s.table })
    else (false, s)
  onStart j s := if permittedToMutateChildren cx ps j then { s with skip := true } else s
  onEnd j s := if permittedToMutateChildren cx ps j then { s with skip := false } else s

/-- Models `count_mutable_nodes` (`json_ast_language_interface.rs:105-130`). -/
def countMutableNodes (cx : LangCtx) (ps : Permissions) (ms : List (Mutator R)) (ast : Json) :
    CountTable :=
  (traverse (counterVisitor cx ps ms) ast {}).2.table

/-! ### MutationMaker -/

/-- How the mutation of the chosen node ended abnormally: an error value is stored in
`MutationMaker::error`, a crash or an endless loop ends the program. -/
inductive Failure where
  | err (e : Err)
  | panic
  | outOfFuel
  deriving DecidableEq, Repr, Inhabited

/-- State of `MutationMaker` (`mutation_visitor.rs:256-292`) without its constant parts. -/
structure MakerState (R : Type) where
  rng : R
  currentIndex : Nat := 0
  mutatedNodeId : Nat := 0
  comment : Option Json := none
  skip : Bool := false
  result : MutatorResult := {}
  failure : Option Failure := none

/-- Models `visit_mut` of `MutationMaker` (`mutation_visitor.rs:336-362`).  On an error the node is
whatever `mutate` left; the mutated tree is discarded in that case
(`json_ast_language_interface.rs:162-164`), so the old node stands in for it. -/
def makerVisit (cx : LangCtx) (ps : Permissions) (m : Mutator R) (index : Nat) (j : Json)
    (s : MakerState R) : Option Json × MakerState R :=
  if (s.skip || permittedToMutate cx ps j) && m.isMutable j then
    if s.currentIndex = index then
      match m.mutate j s.rng with
      | .ok (j', res, comment, rng) =>
        let nid := match res.mutatedNodeId with
          | some id => id
          | none => match cx.idOf j' with
            | some id => id
            | none => s.mutatedNodeId
        (some j', { s with rng := rng, result := res, mutatedNodeId := nid, comment := comment })
      | .err e => (some j, { s with failure := some (.err e) })
      | .panic => (some j, { s with failure := some .panic })
      | .outOfFuel => (some j, { s with failure := some .outOfFuel })
    else (none, { s with currentIndex := s.currentIndex + 1 })
  else (none, s)

/-- Models `VisitorMut for MutationMaker` (`mutation_visitor.rs:329-381`). -/
def makerVisitor (cx : LangCtx) (ps : Permissions) (m : Mutator R) (index : Nat) :
    VisitorMut (MakerState R) where
  havePermission j _ := permittedToVisit cx ps j
  visitMut j s := makerVisit cx ps m index j s
  onStart j s := if permittedToMutateChildren cx ps j then { s with skip := true } else s
  onEnd j s := if permittedToMutateChildren cx ps j then { s with skip := false } else s

/-- The traversal part of `mutate_ast` (`json_ast_language_interface.rs:147-164`): the mutated clone
and the final state of the maker. -/
def runMaker (cx : LangCtx) (ps : Permissions) (m : Mutator R) (index : Nat) (ast : Json) (rng : R) :
    Json × MakerState R :=
  let r := traverseMut (makerVisitor cx ps m index) ast { rng := rng }
  (r.2.1, r.2.2)

end Mutagenyx
