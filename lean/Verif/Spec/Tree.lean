import Verif.Model.Json

/-!
# Positions in a JSON tree

Specification vocabulary: a position is the list of child numbers on the way down from the root.
Only `Json` and `Json.children` are used.
-/

namespace Mutagenyx

/-- A position in a tree: child numbers from the root down. -/
abbrev Pos := List Nat

namespace Json

/-- The node at a position, if there is one. -/
def nodeAt : Pos → Json → Option Json
  | [], j => some j
  | i :: p, j => match j.children[i]? with
    | some c => nodeAt p c
    | none => none

/-- The same node with other children (keys of an object are kept). -/
def setChildren : Json → List Json → Json
  | .arr _, cs => .arr cs
  | .obj kvs, cs => .obj (List.zipWith (fun kv c => (kv.1, c)) kvs cs)
  | j, _ => j

/-- The tree with the node at a position replaced. -/
def replaceAt : Pos → Json → Json → Json
  | [], x, _ => x
  | i :: p, x, j => match j.children[i]? with
    | some c => setChildren j (j.children.set i (replaceAt p x c))
    | none => j

mutual
/-- All positions of a tree in document order (pre-order, children left to right). -/
def positions : Json → List Pos
  | .null => [[]]
  | .bool _ => [[]]
  | .num _ => [[]]
  | .str _ => [[]]
  | .arr xs => [] :: positionsList 0 xs
  | .obj kvs => [] :: positionsFields 0 kvs
/-- Positions in a list of children, the first of which has number `i`. -/
def positionsList (i : Nat) : List Json → List Pos
  | [] => []
  | x :: xs => (positions x).map (i :: ·) ++ positionsList (i + 1) xs
/-- Positions in the fields of an object. -/
def positionsFields (i : Nat) : List (String × Json) → List Pos
  | [] => []
  | (_, x) :: xs => (positions x).map (i :: ·) ++ positionsFields (i + 1) xs
end

mutual
/-- All nodes of a tree in document order. -/
def preorder : Json → List Json
  | .null => [.null]
  | .bool b => [.bool b]
  | .num n => [.num n]
  | .str s => [.str s]
  | .arr xs => .arr xs :: preorderList xs
  | .obj kvs => .obj kvs :: preorderFields kvs
/-- All nodes of the trees of a list. -/
def preorderList : List Json → List Json
  | [] => []
  | x :: xs => preorder x ++ preorderList xs
/-- All nodes of the values of the fields of an object. -/
def preorderFields : List (String × Json) → List Json
  | [] => []
  | (_, x) :: xs => preorder x ++ preorderFields xs
end

/-- Document order on positions: an ancestor comes before its descendants, an earlier sibling's
subtree before a later sibling's. -/
def docLt : Pos → Pos → Prop
  | [], [] => False
  | [], _ :: _ => True
  | _ :: _, [] => False
  | i :: p, j :: q => i < j ∨ (i = j ∧ docLt p q)

end Json
end Mutagenyx
