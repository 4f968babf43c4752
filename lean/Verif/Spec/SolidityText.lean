import Verif.Spec.Tree
import Verif.Spec.Comments
import Verif.Spec.CommentedOut
import Verif.Model.SolidityMutators

/-!
# Where statements stand in a Solidity tree and in its text
-/

namespace Mutagenyx
namespace SolText
open Json

/-- The fields with lists of nodes of which each begins a line or is a clause, and how much deeper they are indented. -/
def listLevel (type key : String) : Option Nat :=
  if (type, key) ∈ [("Block", "statements"), ("UncheckedBlock", "statements"), ("ContractDefinition", "nodes")] then some 1
  else if (type, key) ∈ [("SourceUnit", "nodes"), ("TryStatement", "clauses")] then some 0
  else none

/-- The fields with one statement, and how much deeper it is indented. -/
def bodyLevel (type key : String) (body : Json) : Option Nat :=
  if (type, key) ∈ [("IfStatement", "trueBody"), ("IfStatement", "falseBody"), ("ForStatement", "body")] then
    match body.getStrForKey "nodeType" with
    | none => none
    | some t => if t = "Block" then some 0 else some 1
  else if (type, key) ∈ [("WhileStatement", "body"), ("DoWhileStatement", "body"), ("FunctionDefinition", "body"),
      ("ModifierDefinition", "body"), ("TryCatchClause", "block")] then some 0
  else none

/-- The level of indentation of the node at a position of a tree; `none` if there are other nodes than statements, functions,
modifiers, contracts and files on the way to it. -/
def levelAt : Pos → Json → Option Nat
  | [], _ => some 0
  | i :: p, .obj kvs =>
    match kvs[i]?, Json.getStrForKey "nodeType" (.obj kvs) with
    | some (k, v), some t =>
      if (kvs.map Prod.fst).findIdx? (· == k) = some i then
        match v with
        | .arr xs => match p with
          | [] => none
          | m :: p => match xs[m]?, listLevel t k with
            | some x, some d => (levelAt p x).map (d + ·)
            | _, _ => none
        | v => match bodyLevel t k v with
          | some d => (levelAt p v).map (d + ·)
          | none => none
      else none
    | _, _ => none
  | _, _ => none

/-- In the second text there is a mark before the text `s` that makes it a comment, where in the first there is none; `s` is all
that is on its line but for at most `n` spaces before it.  Everything else is the same. -/
def CommentedOut (n : Nat) (s text text' : List Char) : Prop :=
  ∃ pre k post, k ≤ n ∧ text = pre ++ ('\n' :: (List.replicate k ' ' ++ (s ++ '\n' :: post))) ∧
    text' = pre ++ ('\n' :: (List.replicate k ' ' ++ ("// ".toList ++ (s ++ '\n' :: post))))

/-- Only spaces. -/
def Blank (l : List Char) : Prop := ∃ n, l = List.replicate n ' '

/-- In the second text there are more lines than in the first, and those are comments or empty. -/
def LinesAdded (text text' : List Char) : Prop :=
  ∃ pre ls post, text = pre ++ ('\n' :: post) ∧ text' = pre ++ ('\n' :: (ls ++ ('\n' :: post))) ∧
    ∀ l ∈ Printer.lines ls, Blank l ∨ ∃ n rest, l = List.replicate n ' ' ++ ("//".toList ++ rest)

/-- Every block and every contract in the tree is reached through statements, functions, modifiers, contracts and the file only. -/
def Regular (j : Json) : Prop :=
  ∀ p b, nodeAt p j = some b → (∃ t ∈ ["Block", "UncheckedBlock", "ContractDefinition"], b.getStrForKey "nodeType" = some t) →
    (levelAt p j).isSome = true

/-- A comment for the node `id` finds lines to stand on: the node is not below a statement that is the body of another one without
being a block, and is no block without statements. -/
def OnLines (id : Nat) (j : Json) : Prop :=
  (∀ p n i s t, nodeAt p j = some n → HoldsStatement n i → nodeAt (p ++ [i]) j = some s → s.getStrForKey "nodeType" = some t →
    t ≠ "Block" → ¬ ContainsId solidityId id s) ∧
  (∀ p b i, nodeAt p j = some b → HoldsStatements .solidity b i → solidityId b = some id → nodeAt (p ++ [i]) j ≠ some (.arr []))

/-- A line that holds nothing or a comment only. -/
def noCode (l : List Char) : Bool :=
  match l.dropWhile (· == ' ') with
  | [] => true
  | '/' :: '/' :: _ => true
  | _ => false

end SolText
end Mutagenyx
