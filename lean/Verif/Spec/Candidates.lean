import Verif.Model.MutationVisitor
import Verif.Spec.Tree

/-!
# What a mutation request is supposed to do

Specification vocabulary for C08-C13: which nodes are inside a listed function, and what it means
that a mutation request was served at a position.
-/

namespace Mutagenyx
open Json

/-- The node bears one of the listed names. -/
def listedName (cx : LangCtx) (names : List String) (n : Json) : Bool :=
  match cx.nameOf n with
  | some nm => names.contains nm
  | none => false

/-- The position lies in (or is) a node that bears a listed name: walking from the root to the
position one meets such a node. -/
def insideListed (cx : LangCtx) (names : List String) : Pos → Json → Bool
  | [], j => listedName cx names j
  | i :: p, j => listedName cx names j ||
      match j.children[i]? with
      | some c => insideListed cx names p c
      | none => false

/-- No node that bears a listed name lies properly inside another one. -/
def NoNestedListed (cx : LangCtx) (names : List String) (ast : Json) : Prop :=
  ∀ p n, nodeAt p ast = some n → listedName cx names n = true →
    ∀ q m, q ≠ [] → nodeAt q n = some m → listedName cx names m = false

/-- No listed node of the tree has come to its end before the node at position `p` begins: every listed
node that begins before `p` contains it. -/
def NoneEndedBefore (cx : LangCtx) (names : List String) (p : Pos) (j : Json) : Prop :=
  ∀ s n, nodeAt s j = some n → listedName cx names n = true → docLt s p → s <+: p

/-- The position lies in (or is) a listed node inside of which no listed node has come to its end
before. -/
def ListedSoFar (cx : LangCtx) (names : List String) (p : Pos) (ast : Json) : Prop :=
  ∃ q r n, p = q ++ r ∧ nodeAt q ast = some n ∧ listedName cx names n = true ∧
    NoneEndedBefore cx names r n

/-- Document-order list of the positions whose node satisfies `mut?` and that satisfy `ok`. -/
def positionsWhere (mut? : Json → Bool) (ok : Pos → Bool) (ast : Json) : List Pos :=
  (positions ast).filter (fun p => ok p && (nodeAt p ast).any mut?)

/-- The request was served at position `p`: the node there, and nothing else, was replaced by what the
algorithm makes of it, and the algorithm's report, comment and random state were passed on; or the
algorithm's failure was. -/
def ServedAt {R : Type} (m : Mutator R) (ast : Json) (rng : R) (p : Pos) (out : Json × MakerState R) :
    Prop :=
  ∃ n, nodeAt p ast = some n ∧ m.isMutable n = true ∧
    match m.mutate n rng with
    | .ok (n', res, comment, rng') => out.1 = replaceAt p n' ast ∧ out.2.failure = none ∧
        out.2.result = res ∧ out.2.comment = comment ∧ out.2.rng = rng'
    | .err e => out.2.failure = some (.err e)
    | .panic => out.2.failure = some .panic
    | .outOfFuel => out.2.failure = some .outOfFuel

/-- The request found nothing to do. -/
def NotServed {R : Type} (ast : Json) (rng : R) (out : Json × MakerState R) : Prop :=
  out.1 = ast ∧ out.2.failure = none ∧ out.2.result = {} ∧ out.2.comment = none ∧ out.2.rng = rng

/-- A count as stored in the table: algorithms with nothing to mutate have no entry. -/
def entry (k : Nat) : Option Nat := if k = 0 then none else some k

/-- The keys of an object, the number of children otherwise: what a node is apart from its children. -/
def shape : Json → Json
  | .arr _ => .arr []
  | .obj kvs => .obj (kvs.map (fun kv => (kv.1, .null)))
  | j => j

end Mutagenyx
