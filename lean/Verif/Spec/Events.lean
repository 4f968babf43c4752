import Verif.Model.Traverse
import Verif.Spec.Tree

/-!
# What callbacks a traversal may make

A visitor is instrumented to log every callback; `Log` is the grammar the log has to follow.
-/

namespace Mutagenyx
open Json

/-- A callback of a traversal. -/
inductive Event where
  | enter (j : Json)
  | visit (j : Json)
  | startChildren (j : Json)
  | endChildren (j : Json)
  | exit (j : Json)
  deriving DecidableEq, Repr

/-- The visitor with a log of its callbacks added to its state; otherwise unchanged. -/
def logged {S : Type} (v : Visitor S) : Visitor (S × List Event) where
  onEnter j s := (v.onEnter j s.1, s.2 ++ [.enter j])
  havePermission j s := v.havePermission j s.1
  visit j s := let r := v.visit j s.1; (r.1, (r.2, s.2 ++ [.visit j]))
  visitChildren j s := v.visitChildren j s.1
  onStart j s := (v.onStart j s.1, s.2 ++ [.startChildren j])
  onEnd j s := (v.onEnd j s.1, s.2 ++ [.endChildren j])
  onExit j s := (v.onExit j s.1, s.2 ++ [.exit j])

mutual
/-- `Log j evs stopped`: `evs` is an admissible sequence of callbacks for the tree `j`, and `stopped`
tells whether a visit asked to stop. -/
inductive Log : Json → List Event → Bool → Prop where
  | noPermission (j) : Log j [.enter j, .exit j] false
  | stop (j) : Log j [.enter j, .visit j, .exit j] true
  | noChildren (j) : Log j [.enter j, .visit j, .exit j] false
  | children (j evs stopped) : LogList j.children evs stopped →
      Log j ([.enter j, .visit j, .startChildren j] ++ evs ++ [.endChildren j, .exit j]) stopped
/-- The same for the children of a node: one after the other until one has stopped. -/
inductive LogList : List Json → List Event → Bool → Prop where
  | nil : LogList [] [] false
  | stop (x xs evs) : Log x evs true → LogList (x :: xs) evs true
  | cons (x xs evs evs' stopped) : Log x evs false → LogList xs evs' stopped →
      LogList (x :: xs) (evs ++ evs') stopped
end

/-- The nodes visited according to a log. -/
def visited (evs : List Event) : List Json :=
  evs.filterMap (fun e => match e with
    | .visit j => some j
    | _ => none)

/-- Opening and closing callbacks match like brackets: `stack` holds the nodes entered or whose
children were started and not yet left. -/
def balanced : List Event → List (Json × Bool) → Bool
  | [], stack => stack.isEmpty
  | .enter j :: es, stack => balanced es ((j, false) :: stack)
  | .startChildren j :: es, stack => balanced es ((j, true) :: stack)
  | .endChildren j :: es, (k, true) :: stack => decide (j = k) && balanced es stack
  | .exit j :: es, (k, false) :: stack => decide (j = k) && balanced es stack
  | .visit j :: es, (k, false) :: stack => decide (j = k) && balanced es ((k, false) :: stack)
  | _, _ => false

/-- The ids met when walking from the root to a position, both ends included. -/
def idsAlong (idOf : Json → Option Nat) : Pos → Json → List Nat
  | [], j => (idOf j).toList
  | i :: p, j => (idOf j).toList ++ match j.children[i]? with
    | some c => idsAlong idOf p c
    | none => []

end Mutagenyx
