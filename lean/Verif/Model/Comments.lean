import Verif.Model.Common

/-!
# Inserting the comment that explains a mutation

`json_comment_inserter.rs`, `json_comment_helpers.rs`, `json_finder_helpers.rs` and the finders and
commenters of both languages.
-/

namespace Mutagenyx
open Json

/-- Models `found_node_id_in_array` (`json_finder_helpers.rs:15-29`). -/
def foundInArray (idOf : Json → Option Nat) (id : Nat) (xs : List Json) : Bool :=
  xs.any fun x => (getNodeWithId idOf id x).isSome

/-- The index at which `inserted_comment_in_array` inserts (`json_comment_helpers.rs:22-30`): the first
element with the node in it. -/
def commentIndex (idOf : Json → Option Nat) (id : Nat) : List Json → Option Nat
  | [] => none
  | x :: xs => if (getNodeWithId idOf id x).isSome then some 0 else (commentIndex idOf id xs).map (· + 1)

/-- Models `inserted_comment_in_array` (`json_comment_helpers.rs:16-32`): the array afterwards and whether
the comment was inserted. -/
def insertedInArray (idOf : Json → Option Nat) (id : Nat) (c : Json) (xs : List Json) : List Json × Bool :=
  match commentIndex idOf id xs with
  | some i => (xs.insertIdx i c, true)
  | none => (xs, false)

/-- `inserted_comment_in_array` on the array stored for a key, through `get_array_for_key_mut`
(`json.rs:216-222`). -/
def insertInKey (idOf : Json → Option Nat) (key : String) (id : Nat) (c : Json) (j : Json) : Json × Bool :=
  match getArrayForKey key j with
  | some xs =>
    let r := insertedInArray idOf id c xs
    ((pointerSet (jsonPath key) (.arr r.1) j).getD j, r.2)
  | none => (j, false)

/-- `found_node_id_in_array` on the array stored for a key. -/
def foundInKey (idOf : Json → Option Nat) (key : String) (id : Nat) (j : Json) : Bool :=
  match getArrayForKey key j with
  | some xs => foundInArray idOf id xs
  | none => false

/-- What a language provides: `node_is_a_direct_member` of the finder for a node (`node_finder.rs:19-26`)
and `insert_comment` of the commenter for a node (`commenter.rs:17-24`). -/
structure Commenting where
  idOf : Json → Option Nat
  isMember : Nat → Json → Bool
  insert : Nat → Json → Json → Json

/-- The loop of `insert_comment_by_path` (`json_comment_inserter.rs:74-85`) over the path from the parent
of the mutated node upwards. -/
def insertCommentLoop (cm : Commenting) (id : Nat) (c : Json) : List Nat → Json → Json
  | [], ast => ast
  | a :: up, ast =>
    match getNodeWithId cm.idOf a ast with
    | some n =>
      if cm.isMember id n then (modifyNodeWithId cm.idOf a (cm.insert id c) ast).getD ast
      else insertCommentLoop cm id c up ast
    | none => insertCommentLoop cm id c up ast

/-- Models `insert_comment_by_path` (`json_comment_inserter.rs:52-86`). -/
def insertCommentByPath (cm : Commenting) (ast c : Json) (path : List Nat) : Json :=
  match path.reverse with
  | [] => ast
  | id :: up => insertCommentLoop cm id c up ast

/-! ### Solidity -/

namespace Solidity

/-- Models `found_node_id_in_node_with_key` (`solidity/node_finder.rs:22-51`). -/
def foundInBody (key : String) (id : Nat) (j : Json) : Bool :=
  match field? key j with
  | none => false
  | some body =>
    match getStrForKey "nodeType" body with
    | none => false
    | some t =>
      if t = "Block" then
        if solidityId body = some id then true else foundInKey solidityId "statements" id body
      else (getNodeWithId solidityId id body).isSome

/-- Models the finders and their factory (`solidity/node_finder.rs:72-227`). -/
def isMember (id : Nat) (j : Json) : Bool :=
  match getStrForKey "nodeType" j with
  | none => false
  | some t =>
    if t = "Block" then foundInKey solidityId "statements" id j
    else if t = "ContractDefinition" then foundInKey solidityId "nodes" id j
    else if t = "DoWhileStatement" then foundInBody "body" id j
    else if t = "ForStatement" then foundInBody "body" id j
    else if t = "FunctionDefinition" then foundInBody "body" id j
    else if t = "IfStatement" then foundInBody "trueBody" id j || foundInBody "falseBody" id j
    else if t = "ModifierDefinition" then foundInBody "body" id j
    else if t = "TryCatchClause" then foundInBody "block" id j
    else if t = "UncheckedBlock" then foundInKey solidityId "statements" id j
    else if t = "WhileStatement" then foundInBody "body" id j
    else false

/-- Models `new_block_node` (`solidity/commenter.rs:16-26`). -/
def newBlock (xs : List Json) : Json :=
  setNodeForKey "statements" (.arr xs) (.obj [("id", .num (.int 9999994)), ("nodeType", .str "Block")])

/-- Putting the comment first in the statements of the mutated block (`solidity/commenter.rs:54-58`). -/
def insertFirst (c : Json) (body : Json) : Json :=
  match getArrayForKey "statements" body with
  | some xs => (pointerSet (jsonPath "statements") (.arr (c :: xs)) body).getD body
  | none => body

/-- Models `insert_comment_into_node_with_key` (`solidity/commenter.rs:39-86`).  Note line 59, which
stores the mutated block under `body` whatever the key was. -/
def insertInBody (key : String) (id : Nat) (c : Json) (j : Json) : Json × Bool :=
  match takeValueForKey key j with
  | (none, j1) => (j1, false)
  | (some body, j1) =>
    match getStrForKey "nodeType" body with
    | none => (setNodeForKey key body j1, false)
    | some t =>
      if t = "Block" then
        if solidityId body = some id then (setNodeForKey "body" (insertFirst c body) j1, true)
        else
          let r := insertInKey solidityId "statements" id c body
          (setNodeForKey key r.1 j1, r.2)
      else if (getNodeWithId solidityId id body).isSome then (setNodeForKey key (newBlock [c, body]) j1, true)
      else (setNodeForKey key body j1, false)

/-- Models `IfStatementCommenter::insert_comment` (`solidity/commenter.rs:186-206`). -/
def insertInIf (id : Nat) (c : Json) (j : Json) : Json :=
  let r := insertInBody "trueBody" id c j
  if r.2 then r.1 else (insertInBody "falseBody" id c r.1).1

/-- Models the commenters and their factory (`solidity/commenter.rs:108-272`). -/
def insertComment (id : Nat) (c : Json) (j : Json) : Json :=
  match getStrForKey "nodeType" j with
  | none => j
  | some t =>
    if t = "Block" then (insertInKey solidityId "statements" id c j).1
    else if t = "ContractDefinition" then (insertInKey solidityId "nodes" id c j).1
    else if t = "DoWhileStatement" then (insertInBody "body" id c j).1
    else if t = "ForStatement" then (insertInBody "body" id c j).1
    else if t = "FunctionDefinition" then (insertInBody "body" id c j).1
    else if t = "IfStatement" then insertInIf id c j
    else if t = "ModifierDefinition" then (insertInBody "body" id c j).1
    else if t = "TryCatchClause" then (insertInBody "block" id c j).1
    else if t = "UncheckedBlock" then (insertInKey solidityId "statements" id c j).1
    else if t = "WhileStatement" then (insertInBody "body" id c j).1
    else j

/-- The factories handed to the inserter (`solidity/language_interface.rs:149-156`). -/
def commenting : Commenting := ⟨solidityId, isMember, insertComment⟩

end Solidity

/-! ### Vyper -/

namespace Vyper

/-- Models the finders and their factory (`vyper/node_finder.rs:10-67`). -/
def isMember (id : Nat) (j : Json) : Bool :=
  match getStrForKey "ast_type" j with
  | none => false
  | some t =>
    if t = "For" then foundInKey vyperId "body" id j
    else if t = "FunctionDef" then foundInKey vyperId "body" id j
    else if t = "If" then foundInKey vyperId "body" id j || foundInKey vyperId "orelse" id j
    else if t = "Module" then foundInKey vyperId "body" id j
    else false

/-- Models `IfCommenter::insert_comment` (`vyper/commenter.rs:31-49`). -/
def insertInIf (id : Nat) (c : Json) (j : Json) : Json :=
  let r := insertInKey vyperId "body" id c j
  if r.2 then r.1 else (insertInKey vyperId "orelse" id c r.1).1

/-- Models the commenters and their factory (`vyper/commenter.rs:10-67`). -/
def insertComment (id : Nat) (c : Json) (j : Json) : Json :=
  match getStrForKey "ast_type" j with
  | none => j
  | some t =>
    if t = "For" then (insertInKey vyperId "body" id c j).1
    else if t = "FunctionDef" then (insertInKey vyperId "body" id c j).1
    else if t = "If" then insertInIf id c j
    else if t = "Module" then (insertInKey vyperId "body" id c j).1
    else j

/-- The factories handed to the inserter (`vyper/language_interface.rs:153-160`). -/
def commenting : Commenting := ⟨vyperId, isMember, insertComment⟩

end Vyper
end Mutagenyx
