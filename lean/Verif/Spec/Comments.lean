import Verif.Spec.Tree
import Verif.Spec.JsonSpec
import Verif.Model.Common

/-!
# What adding a comment may do to a tree
-/

namespace Mutagenyx
open Json

/-- Some node of the tree has the id. -/
def ContainsId (idOf : Json → Option Nat) (id : Nat) (j : Json) : Prop :=
  ∃ p n, nodeAt p j = some n ∧ idOf n = some id

/-- The id of a node. -/
def nodeIdIn : Language → Json → Option Nat
  | .solidity => solidityId
  | .vyper => vyperId

/-- The type of a node. -/
def nodeTypeIn : Language → Json → Option String
  | .solidity => getStrForKey "nodeType"
  | .vyper => getStrForKey "ast_type"

/-- Where statements and declarations stand: in these fields of nodes of these types. -/
def statementLists : Language → List (String × String)
  | .solidity => [("Block", "statements"), ("UncheckedBlock", "statements"), ("ContractDefinition", "nodes")]
  | .vyper => [("Module", "body"), ("FunctionDef", "body"), ("For", "body"), ("If", "body"), ("If", "orelse")]

/-- The child with this number holds the statements or declarations of the node. -/
def HoldsStatements (lang : Language) (n : Json) (i : Nat) : Prop :=
  ∃ kvs t k, n = .obj kvs ∧ nodeTypeIn lang n = some t ∧ (t, k) ∈ statementLists lang ∧
    (kvs.map Prod.fst)[i]? = some k ∧ ∀ i' < i, (kvs.map Prod.fst)[i']? ≠ some k

/-- Where the one statement below another node, or its block, stands: in these fields of nodes of these types of Solidity. -/
def statementFields : List (String × String) :=
  [("DoWhileStatement", "body"), ("ForStatement", "body"), ("FunctionDefinition", "body"), ("IfStatement", "trueBody"),
   ("IfStatement", "falseBody"), ("ModifierDefinition", "body"), ("TryCatchClause", "block"), ("WhileStatement", "body")]

/-- The child with this number is the one statement below the Solidity node. -/
def HoldsStatement (n : Json) (i : Nat) : Prop :=
  ∃ kvs t k, n = .obj kvs ∧ getStrForKey "nodeType" n = some t ∧ (t, k) ∈ statementFields ∧
    (kvs.map Prod.fst)[i]? = some k ∧ ∀ i' < i, (kvs.map Prod.fst)[i']? ≠ some k

/-- `after` is the tree `before` with the comment `c` added at one place and nothing else changed.  Either

* the comment stands in a list of statements or declarations, directly before the first element that has the node `id` in it,
  or, in Solidity,
* the comment stands first in the list of statements of the node `id` itself, or
* the one statement below a loop, branch, function or the like, which is no block and has the node `id` in it, became a block
  made of the comment and that statement. -/
inductive CommentAdded (lang : Language) (id : Nat) (c : Json) (before : Json) : Json → Prop
  | inList (p : Pos) (i : Nat) (b : Json) (pre post : List Json) (s : Json) :
      nodeAt p before = some b → HoldsStatements lang b i →
      nodeAt (p ++ [i]) before = some (.arr (pre ++ s :: post)) → ContainsId (nodeIdIn lang) id s →
      (∀ x ∈ pre, ¬ ContainsId (nodeIdIn lang) id x) →
      CommentAdded lang id c before (replaceAt (p ++ [i]) (.arr (pre ++ c :: s :: post)) before)
  | atTop (p : Pos) (i : Nat) (b : Json) (xs : List Json) : lang = .solidity →
      nodeAt p before = some b → nodeIdIn lang b = some id → HoldsStatements lang b i →
      nodeAt (p ++ [i]) before = some (.arr xs) →
      CommentAdded lang id c before (replaceAt (p ++ [i]) (.arr (c :: xs)) before)
  | inBlock (p : Pos) (i : Nat) (n s : Json) (t : String) : lang = .solidity →
      nodeAt p before = some n → HoldsStatement n i → nodeAt (p ++ [i]) before = some s →
      getStrForKey "nodeType" s = some t → t ≠ "Block" → ContainsId (nodeIdIn lang) id s →
      CommentAdded lang id c before (replaceAt (p ++ [i]) (.obj [("id", .num (.int 9999994)), ("nodeType", .str "Block"),
        ("statements", .arr [c, s])]) before)

/-- The body of a branch or of a catch clause is a block with the id. -/
def BranchBlock (id : Nat) (n : Json) : Prop :=
  ∃ k ∈ ["trueBody", "falseBody", "block"], ∃ b, field k n = some b ∧ getStrForKey "nodeType" b = some "Block" ∧
    solidityId b = some id

/-- The statement in a block that holds nothing else and has the id of the blocks added around comments;
any other node itself. -/
def unwrapBlock (j : Json) : Json :=
  match j with
  | .obj [(k₁, v₁), (k₂, v₂), (k₃, .arr [s])] =>
    if k₁ = "id" ∧ v₁ = .num (.int 9999994) ∧ k₂ = "nodeType" ∧ v₂ = .str "Block" ∧ k₃ = "statements" then s else j
  | _ => j

mutual
/-- The tree without the comment `c` in its lists and without the blocks added around comments. -/
def withoutComment (c : Json) : Json → Json
  | .null => .null
  | .bool b => .bool b
  | .num n => .num n
  | .str s => .str s
  | .arr xs => .arr (withoutCommentList c xs)
  | .obj kvs => unwrapBlock (.obj (withoutCommentFields c kvs))
/-- The elements other than the comment, without comments. -/
def withoutCommentList (c : Json) : List Json → List Json
  | [] => []
  | x :: xs => if x = c then withoutCommentList c xs else withoutComment c x :: withoutCommentList c xs
/-- The fields, without comments. -/
def withoutCommentFields (c : Json) : List (String × Json) → List (String × Json)
  | [] => []
  | (k, x) :: xs => (k, withoutComment c x) :: withoutCommentFields c xs
end

end Mutagenyx
