import Verif.Model.Json

/-!
# The traversal algorithms of `mutagenyx_lib/src/ast.rs`
-/

namespace Mutagenyx

/-- Models the `Visitor<Value>` trait (`visitor.rs:21-87`) for a visitor whose mutable state is `S`.
`visit_children` may in Rust change the state; no visitor of the crate does, so here it only reads it. -/
structure Visitor (S : Type) where
  onEnter : Json → S → S := fun _ s => s
  havePermission : Json → S → Bool := fun _ _ => true
  visit : Json → S → Bool × S := fun _ s => (false, s)
  visitChildren : Json → S → Bool := fun _ _ => true
  onStart : Json → S → S := fun _ s => s
  onEnd : Json → S → S := fun _ s => s
  onExit : Json → S → S := fun _ s => s

mutual
/-- Models `ASTTraverser::traverse` (`ast.rs:45-89`); the children of a `Value` are given by
`get_children` (`json_ast.rs:15-33`). -/
def traverse {S : Type} (v : Visitor S) : Json → S → Bool × S
  | .null, s => traverseLeaf v .null s
  | .bool b, s => traverseLeaf v (.bool b) s
  | .num n, s => traverseLeaf v (.num n) s
  | .str t, s => traverseLeaf v (.str t) s
  | .arr xs, s =>
    let s := v.onEnter (.arr xs) s
    if v.havePermission (.arr xs) s then
      let r := v.visit (.arr xs) s
      if r.1 then (true, v.onExit (.arr xs) r.2)
      else if v.visitChildren (.arr xs) r.2 then
        let s := v.onStart (.arr xs) r.2
        let c := traverseList v xs s
        (c.1, v.onExit (.arr xs) (v.onEnd (.arr xs) c.2))
      else (false, v.onExit (.arr xs) r.2)
    else (false, v.onExit (.arr xs) s)
  | .obj kvs, s =>
    let s := v.onEnter (.obj kvs) s
    if v.havePermission (.obj kvs) s then
      let r := v.visit (.obj kvs) s
      if r.1 then (true, v.onExit (.obj kvs) r.2)
      else if v.visitChildren (.obj kvs) r.2 then
        let s := v.onStart (.obj kvs) r.2
        let c := traverseFields v kvs s
        (c.1, v.onExit (.obj kvs) (v.onEnd (.obj kvs) c.2))
      else (false, v.onExit (.obj kvs) r.2)
    else (false, v.onExit (.obj kvs) s)
/-- `ASTTraverser::traverse` (`ast.rs:45-89`) for a node without children. -/
def traverseLeaf {S : Type} (v : Visitor S) (j : Json) (s : S) : Bool × S :=
  let s := v.onEnter j s
  if v.havePermission j s then
    let r := v.visit j s
    if r.1 then (true, v.onExit j r.2)
    else if v.visitChildren j r.2 then
      (false, v.onExit j (v.onEnd j (v.onStart j r.2)))
    else (false, v.onExit j r.2)
  else (false, v.onExit j s)
/-- The loop over the children (`ast.rs:68-81`), stops at the first child that asks to stop. -/
def traverseList {S : Type} (v : Visitor S) : List Json → S → Bool × S
  | [], s => (false, s)
  | x :: xs, s =>
    let r := traverse v x s
    if r.1 then (true, r.2) else traverseList v xs r.2
/-- The same loop over the values of an object (`json_ast.rs:18-22`, `ast.rs:68-81`). -/
def traverseFields {S : Type} (v : Visitor S) : List (String × Json) → S → Bool × S
  | [], s => (false, s)
  | (_, x) :: xs, s =>
    let r := traverse v x s
    if r.1 then (true, r.2) else traverseFields v xs r.2
end

/-- Models the `VisitorMut<Value>` trait (`visitor.rs:94-160`).  Simplified: `visitMut` returns
`(some n, s)` when it asks to stop leaving `n` as the node, and `(none, s)` when it does not stop and
leaves the node alone; a visitor that changes a node and goes on is not expressible.
`MutationMaker`, the only `VisitorMut` of the crate, never does that (`mutation_visitor.rs:336-362`),
and its other callbacks leave the node alone as well. -/
structure VisitorMut (S : Type) where
  onEnter : Json → S → S := fun _ s => s
  havePermission : Json → S → Bool := fun _ _ => true
  visitMut : Json → S → Option Json × S := fun _ s => (none, s)
  visitChildren : Json → S → Bool := fun _ _ => true
  onStart : Json → S → S := fun _ s => s
  onEnd : Json → S → S := fun _ s => s
  onExit : Json → S → S := fun _ s => s

mutual
/-- Models `ASTTraverser::traverse_mut` (`ast.rs:105-154`): (stopped early, new tree, new state).
When the loop over the children breaks, `on_end_visit_children` and `on_exit` get the node with the
changed child in it. -/
def traverseMut {S : Type} (v : VisitorMut S) : Json → S → Bool × Json × S
  | .null, s => traverseMutLeaf v .null s
  | .bool b, s => traverseMutLeaf v (.bool b) s
  | .num n, s => traverseMutLeaf v (.num n) s
  | .str t, s => traverseMutLeaf v (.str t) s
  | .arr xs, s =>
    let s := v.onEnter (.arr xs) s
    if v.havePermission (.arr xs) s then
      match v.visitMut (.arr xs) s with
      | (some n, s) => (true, n, v.onExit n s)
      | (none, s) =>
        if v.visitChildren (.arr xs) s then
          let s := v.onStart (.arr xs) s
          match traverseMutList v xs s with
          | (stop, ys, s) => (stop, .arr ys, v.onExit (.arr ys) (v.onEnd (.arr ys) s))
        else (false, .arr xs, v.onExit (.arr xs) s)
    else (false, .arr xs, v.onExit (.arr xs) s)
  | .obj kvs, s =>
    let s := v.onEnter (.obj kvs) s
    if v.havePermission (.obj kvs) s then
      match v.visitMut (.obj kvs) s with
      | (some n, s) => (true, n, v.onExit n s)
      | (none, s) =>
        if v.visitChildren (.obj kvs) s then
          let s := v.onStart (.obj kvs) s
          match traverseMutFields v kvs s with
          | (stop, ys, s) => (stop, .obj ys, v.onExit (.obj ys) (v.onEnd (.obj ys) s))
        else (false, .obj kvs, v.onExit (.obj kvs) s)
    else (false, .obj kvs, v.onExit (.obj kvs) s)
/-- `ASTTraverser::traverse_mut` (`ast.rs:105-154`) for a node without children. -/
def traverseMutLeaf {S : Type} (v : VisitorMut S) (j : Json) (s : S) : Bool × Json × S :=
  let s := v.onEnter j s
  if v.havePermission j s then
    match v.visitMut j s with
    | (some n, s) => (true, n, v.onExit n s)
    | (none, s) =>
      if v.visitChildren j s then
        (false, j, v.onExit j (v.onEnd j (v.onStart j s)))
      else (false, j, v.onExit j s)
  else (false, j, v.onExit j s)
/-- The loop over the children (`ast.rs:134-143`). -/
def traverseMutList {S : Type} (v : VisitorMut S) : List Json → S → Bool × List Json × S
  | [], s => (false, [], s)
  | x :: xs, s =>
    match traverseMut v x s with
    | (true, y, s) => (true, y :: xs, s)
    | (false, y, s) => match traverseMutList v xs s with
      | (stop, ys, s) => (stop, y :: ys, s)
/-- The same loop over the values of an object (`json_ast.rs:38-43`, `ast.rs:134-143`). -/
def traverseMutFields {S : Type} (v : VisitorMut S) :
    List (String × Json) → S → Bool × List (String × Json) × S
  | [], s => (false, [], s)
  | (k, x) :: xs, s =>
    match traverseMut v x s with
    | (true, y, s) => (true, (k, y) :: xs, s)
    | (false, y, s) => match traverseMutFields v xs s with
      | (stop, ys, s) => (stop, (k, y) :: ys, s)
end

end Mutagenyx
