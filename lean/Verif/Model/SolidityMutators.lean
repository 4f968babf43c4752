import Verif.Model.MutatorBase
import Verif.Model.Operators

/-!
# `mutagenyx_lib/src/solidity/mutators.rs`

Every mutator is a pair `…Mutable` (`is_mutable_node`) and `…Mutate` (`mutate`).  `mutate` returns the
changed node, the `MutatorResult`, the comment node kept for `get_comment_node`, and the random state.
When `mutate` returns an error the node it leaves behind is not modelled; the caller throws the whole
tree away (`json_ast_language_interface.rs:162-164`).  `new_json_node` on the constant texts of this
file always succeeds, so the branches for its failure are left out.
-/

namespace Mutagenyx
namespace Solidity

variable {R : Type}

/-- What a successful `mutate` leaves behind. -/
abbrev Mutated (R : Type) := Json × MutatorResult × Option Json × R

/-! ### Node builders -/

/-- A JSON integer. -/
def jint (i : Int) : Json := .num (.int i)

/-- Models `new_integer_constant_node` (`solidity/mutators.rs:28-52`). -/
def integerConstantNode (value : Int) : Json :=
  .ofFields
    [("hexValue", .str (hexEncode (intText value))), ("id", jint 9999997), ("isConstant", .bool false),
     ("isLValue", .bool false), ("isPure", .bool true), ("kind", .str "number"),
     ("lValueRequested", .bool false), ("nodeType", .str "Literal"),
     ("typeDescriptions", .ofFields
       [("typeIdentifier", .str ("t_rational_" ++ intText value ++ "_by_1")),
        ("typeString", .str ("int_const " ++ intText value))]),
     ("value", .str (intText value))]

/-- `bool::to_string`. -/
def boolText (b : Bool) : String := if b then "true" else "false"

/-- Models `new_boolean_literal_node` (`solidity/mutators.rs:59-80`). -/
def booleanLiteralNode (value : Bool) : Json :=
  .ofFields
    [("hexValue", .str (hexEncode (boolText value))), ("id", jint 9999998), ("isConstant", .bool false),
     ("isLValue", .bool false), ("isPure", .bool true), ("kind", .str "bool"),
     ("lValueRequested", .bool false), ("nodeType", .str "Literal"),
     ("typeDescriptions", .ofFields [("typeIdentifier", .str "t_bool"), ("typeString", .str "bool")]),
     ("value", .str (boolText value))]

/-- Models `new_comment_node` (`solidity/mutators.rs:91-107`). -/
def commentNode (text : String) : Json :=
  Json.setNodeForKey "text" (.str text) (.ofFields
    [("id", jint 9999997), ("isConstant", .bool false), ("isLValue", .bool false),
     ("isPure", .bool false), ("lValueRequested", .bool false), ("nodeType", .str "Comment"),
     ("text", .null)])

/-- Models `new_comment_node_from_node` (`solidity/mutators.rs:114-136`). -/
def commentNodeFromNode (node : Json) : Json :=
  Json.setNodeForKey "id" (jint ((node.getIntForKey "id").getD 9999997))
    (Json.setNodeForKey "value" node (.ofFields
      [("id", jint 9999997), ("isConstant", .bool false), ("isLValue", .bool false),
       ("isPure", .bool false), ("lValueRequested", .bool false), ("nodeType", .str "Comment"),
       ("value", .null)]))

/-- Models `new_unary_op_node` (`solidity/mutators.rs:145-167`). -/
def unaryOpNode (operator : String) (pre : Bool) (sub : Json) : Json :=
  Json.setNodeForKey "subExpression" sub (.ofFields
    [("id", jint 9999996), ("isConstant", .bool false), ("isLValue", .bool false),
     ("isPure", .bool false), ("lValueRequested", .bool false), ("nodeType", .str "UnaryOperation"),
     ("operator", .str operator), ("prefix", .bool pre), ("subExpression", .null)])

/-- Models `new_tuple_expression_node` (`solidity/mutators.rs:174-191`). -/
def tupleExpressionNode (components : List Json) : Json :=
  Json.setNodeForKey "components" (.arr components) (.ofFields
    [("id", jint 9999995), ("isConstant", .bool false), ("IsInlineArray", .bool false),
     ("isLValue", .bool false), ("isPure", .bool false), ("lValueRequested", .bool false),
     ("nodeType", .str "TupleExpression"), ("components", .null)])

/-- Models `new_unchecked_block_node` (`solidity/mutators.rs:198-214`). -/
def uncheckedBlockNode (statements : List Json) (nodeId : Nat) : Json :=
  Json.setNodeForKey "id" (jint nodeId) (Json.setNodeForKey "statements" (.arr statements) (.ofFields
    [("id", jint 9999994), ("nodeType", .str "UncheckedBlock"), ("statements", .null)]))

/-- `get_str_for_key("nodeType") == Some(t)`. -/
def hasType (t : String) (j : Json) : Bool := j.getStrForKey "nodeType" == some t

/-- `node.get_int_for_key("id").map(|id| id as u64)`. -/
def nodeId (j : Json) : Option Nat := (j.getIntForKey "id").map i64AsU64

/-- The `MutatorResult` a mutator returns: `index` is filled in later by the caller. -/
def result (t : MutationType) (id : Option Nat) (hash : Option String) : MutatorResult :=
  { mutationType := some t, mutatedNodeId := id, randomBehaviorHash := hash }

/-! ### Binary operators -/

/-- Models `BinaryOpMutator::is_mutable_node` (`solidity/mutators.rs:269-282`). -/
def binaryOpMutable (ops : List String) (j : Json) : Bool :=
  hasType "BinaryOperation" j &&
    match j.getStrForKey "operator" with
    | some op => ops.contains op
    | none => false

/-- Models `BinaryOpMutator::mutate` (`solidity/mutators.rs:284-344`). -/
def binaryOpMutate [Rand R] (env : MutEnv) (ops : List String) (t : MutationType) (j : Json) (r : R) :
    Outcome (Mutated R) :=
  match j.getStrForKey "operator" with
  | some op =>
    match chooseOther ops op env.fuel r with
    | .ok (new, r') =>
      let j' := Json.setStrForKey "operator" new j
      let comment := commentNode (t.toStr ++ " Mutator: changed '" ++ op ++ "' to '" ++ new ++ "'")
      .ok (j', result t (nodeId j') (some (env.digest [.text new])), some comment, r')
    | .err e => .err e
    | .panic => .panic
    | .outOfFuel => .outOfFuel
  | none => .ok (j, result t none none, none, r)

/-! ### Unary operators -/

/-- The operator list for a node's `prefix` member (`solidity/mutators.rs:385-403,424-446`). -/
def unaryOperators (pre : Bool) : List String := if pre then prefixOperators else postfixOperators

/-- Models `UnaryOpMutator::is_mutable_node` (`solidity/mutators.rs:379-410`). -/
def unaryOpMutable (j : Json) : Bool :=
  hasType "UnaryOperation" j &&
    match j.getBoolForKey "prefix" with
    | some p => match j.getStrForKey "operator" with
      | some op => (unaryOperators p).contains op
      | none => false
    | none => false

/-- Models `UnaryOpMutator::mutate` (`solidity/mutators.rs:412-491`). -/
def unaryOpMutate [Rand R] (env : MutEnv) (j : Json) (r : R) : Outcome (Mutated R) :=
  match j.getBoolForKey "prefix" with
  | none => .err (.malformedNode "UnaryOperator" "prefix")
  | some p =>
    let op := (j.getStrForKey "operator").getD ""
    match chooseOther (unaryOperators p) op env.fuel r with
    | .ok (new, r') =>
      let j' := Json.setStrForKey "operator" new j
      let comment := commentNode ("UnaryOp Mutator: Changed '" ++ op ++ "' to '" ++ new ++ "'")
      .ok (j', result .unaryOp (nodeId j')
        (some (env.digest [.byte (if p then 0 else 1), .text new])), some comment, r')
    | .err e => .err e
    | .panic => .panic
    | .outOfFuel => .outOfFuel

/-! ### Assignment -/

/-- `node.get("typeDescriptions")` and then `get_str_for_key("typeString")`. -/
def typeString (j : Json) : Option String :=
  (j.field? "typeDescriptions").bind (Json.getStrForKey "typeString")

/-- Models `AssignmentMutator::is_mutable_node` (`solidity/mutators.rs:522-553`).  Simplified: a type
text whose third byte is inside a character crashes the Rust code (`&type_string[..3]`); here it is
not mutable. -/
def assignmentMutable (j : Json) : Bool :=
  hasType "Assignment" j &&
    match typeString j with
    | some s => match takeBytes 3 s with
      | some p => p == "uin" || p == "int" || p == "boo"
      | none => false
    | none => false

/-- The replacement value for a type text: the new right-hand side and the digest parts
(`solidity/mutators.rs:602-676`).  An `int` of 128 bits or more overflows `i128` in
`2_i128.pow(type_size - 1)`: that crashes with overflow checks, and without them both bounds become
the same number and `gen_range` crashes; an `int0` likewise. -/
def assignmentValue [Rand R] (s : String) (r : R) : Outcome (Option Json × List HashPart × R) :=
  match takeBytes 3 s with
  | none => .panic
  | some p =>
    if p = "int" then
      match (dropBytes 3 s).bind parseU32 with
      | none => .panic
      | some n0 =>
        let n := if n0 > 128 then 128 else n0
        if n = 0 ∨ n = 128 then .panic
        else match genRange (-(2 ^ (n - 1) : Int)) (2 ^ (n - 1)) r with
          | .ok (v, r') => .ok (some (integerConstantNode v), [.text "int", .int v], r')
          | .err e => .err e
          | .panic => .panic
          | .outOfFuel => .outOfFuel
    else if p = "uin" then
      match (dropBytes 4 s).bind parseU32 with
      | none => .panic
      | some n0 =>
        let n := if n0 > 128 then 128 else n0
        let upper : Int := if n < 128 then 2 ^ n - 1 else 340282366920938463463374607431768211455
        match genRange 0 upper r with
          | .ok (v, r') => .ok (some (integerConstantNode v), [.text "uin", .int v], r')
          | .err e => .err e
          | .panic => .panic
          | .outOfFuel => .outOfFuel
    else if p = "boo" then
      if s = "bool" then
        match genRange 0 1 r with
          | .ok (v, r') => .ok (some (booleanLiteralNode (decide (v ≠ 0))), [.text "boo", .int v], r')
          | .err e => .err e
          | .panic => .panic
          | .outOfFuel => .outOfFuel
      else .panic
    else .ok (none, [], r)

/-- Models `AssignmentMutator::mutate` (`solidity/mutators.rs:555-700`). -/
def assignmentMutate [Rand R] (env : MutEnv) (j : Json) (r : R) : Outcome (Mutated R) :=
  match j.field? "typeDescriptions" with
  | none => .err (.malformedNode "Assignment" "typeDescriptions")
  | some td => match td.getStrForKey "typeString" with
    | none => .err (.malformedNode "Assignment" "typeString")
    | some s => match j.field? "rightHandSide" with
      | none => .err (.malformedNode "Assignment" "rightHandSide")
      | some rhs => match assignmentValue s r with
        | .ok (new, parts, r') =>
          let j' := match new with
            | some v => Json.setNodeForKey "rightHandSide" v j
            | none => j
          match j'.field? "rightHandSide" with
          | none => .err (.malformedNode "Assignment" "rightHandSize")
          | some rhs' =>
            let comment := commentNode
              ("Assignment Mutator: Replaced '" ++ env.pp rhs ++ "' with '" ++ env.pp rhs' ++ "'")
            .ok (j', result .assignment (nodeId j') (some (env.digest parts)), some comment, r')
        | .err e => .err e
        | .panic => .panic
        | .outOfFuel => .outOfFuel

/-! ### Delete statement -/

/-- `node.get(key)` and then `as_array`. -/
def arrayField (key : String) (j : Json) : Option (List Json) := (j.field? key).bind Json.asArray

/-- Models `DeleteStatementMutator::is_mutable_node` (`solidity/mutators.rs:728-750`). -/
def deleteStatementMutable (j : Json) : Bool :=
  hasType "Block" j &&
    match arrayField "statements" j with
    | some ss => decide (ss.length > 1) && ss.any (hasType "ExpressionStatement")
    | none => false

/-- The indexes collected in `solidity/mutators.rs:771-780`. -/
def expressionStatementIndexes (ss : List Json) : List Nat :=
  (List.range ss.length).filter fun i =>
    match ss[i]? with
    | some v => v.asObj.isSome && hasType "ExpressionStatement" v
    | none => false

/-- Models `DeleteStatementMutator::mutate` (`solidity/mutators.rs:752-819`). -/
def deleteStatementMutate [Rand R] (env : MutEnv) (j : Json) (r : R) : Outcome (Mutated R) :=
  match Json.takeValueForKey "statements" j with
  | (some (.arr ss), j1) =>
    let indexes := expressionStatementIndexes ss
    match drawIndex indexes.length r with
    | .ok (vi, r') =>
      match indexes[vi]? with
      | none => .panic
      | some i => match ss[i]? with
        | none => .panic
        | some value =>
          let ss' := (ss.eraseIdx i).insertIdx i (commentNodeFromNode value)
          let j' := Json.setNodeForKey "statements" (.arr ss') j1
          let comment := commentNode ("DeleteStatement Mutator: deleted statement '" ++ env.pp value ++ "'")
          .ok (j', result .deleteStatement (nodeId value) (some (env.digest [.index vi])), some comment, r')
    | .err e => .err e
    | .panic => .panic
    | .outOfFuel => .outOfFuel
  | _ => .err (.malformedNode "Block" "statements")

/-! ### Function call -/

/-- Models `FunctionCallMutator::is_mutable_node` (`solidity/mutators.rs:873-904`). -/
def functionCallMutable (j : Json) : Bool :=
  hasType "FunctionCall" j &&
    match arrayField "arguments" j with
    | some args => !args.isEmpty && (!args.any (hasType "Literal") || decide (args.length > 1))
    | none => false

/-- The element at an index is not of the given type (`solidity/mutators.rs:926-932`). -/
def notOfType (t : String) (xs : List Json) (i : Nat) : Bool :=
  match xs[i]? with
  | some v => !hasType t v
  | none => false

/-- Models `FunctionCallMutator::mutate` (`solidity/mutators.rs:906-964`). -/
def functionCallMutate [Rand R] (env : MutEnv) (j : Json) (r : R) : Outcome (Mutated R) :=
  match arrayField "arguments" j with
  | some args =>
    match drawUntil (notOfType "Literal" args) args.length env.fuel r with
    | .ok (i, r') => match args[i]? with
      | none => .panic
      | some j' =>
        let comment := commentNode
          ("FunctionCall Mutator: replaced '" ++ env.pp j ++ "' with '" ++ env.pp j' ++ "'")
        .ok (j', result .functionCall (if j'.asObj.isSome then nodeId j' else none)
          (some (env.digest [.index i])), some comment, r')
    | .err e => .err e
    | .panic => .panic
    | .outOfFuel => .outOfFuel
  | none => .err (.malformedNode "FunctionCall" "arguments")

/-! ### Swap function arguments -/

/-- The type text an argument is grouped by (`solidity/mutators.rs:1002-1007,1047-1051`). -/
def argumentType (v : Json) : Option String := typeString v

/-- Models `SwapFunctionArgumentsMutator::is_mutable_node` (`solidity/mutators.rs:991-1029`): some type
text occurs twice or more. -/
def swapArgumentsMutable (j : Json) : Bool :=
  hasType "FunctionCall" j &&
    match arrayField "arguments" j with
    | some args => decide (args.length > 1) &&
        (args.filterMap argumentType).any fun s => decide ((args.filterMap argumentType).count s ≥ 2)
    | none => false

/-- Adding an argument to its group (`solidity/mutators.rs:1052-1060`). -/
def addToGroup (s : String) (x : Nat × Json) :
    List (String × List (Nat × Json)) → List (String × List (Nat × Json))
  | [] => [(s, [x])]
  | (k, xs) :: rest => if k = s then (k, xs ++ [x]) :: rest else (k, xs) :: addToGroup s x rest

/-- The groups of arguments of the same type (`solidity/mutators.rs:1045-1063`); `i` is the index of
the first argument of the list. -/
def groupArguments (args : List Json) (i : Nat) (acc : List (String × List (Nat × Json))) :
    List (String × List (Nat × Json)) :=
  match args with
  | [] => acc
  | a :: rest =>
    groupArguments rest (i + 1) (match argumentType a with
      | some s => addToGroup s (i, a) acc
      | none => acc)

/-- Models `SwapFunctionArgumentsMutator::mutate` (`solidity/mutators.rs:1031-1115`). -/
def swapArgumentsMutate [Rand R] (env : MutEnv) (j : Json) (r : R) : Outcome (Mutated R) :=
  match Json.takeValueForKey "arguments" j with
  | (some (.arr args), j1) =>
    let lists := ((env.groupOrder (groupArguments args 0 [])).map Prod.snd).filter
      fun l => decide (l.length ≥ 2)
    match drawIndex lists.length r with
    | .ok (li, r') => match lists[li]? with
      | some ((i1, n1) :: (i2, n2) :: _) =>
        let args' := ((((args.eraseIdx i1).insertIdx i1 n2).eraseIdx i2).insertIdx i2 n1)
        let j' := Json.setNodeForKey "arguments" (.arr args') j1
        let comment := commentNode
          ("SwapFunctionArguments Mutator: switched '" ++ env.pp n1 ++ "' for '" ++ env.pp n2 ++ "'")
        .ok (j', result .swapFunctionArguments (nodeId j') (some (env.digest [.index li])), some comment, r')
      | _ => .panic
    | .err e => .err e
    | .panic => .panic
    | .outOfFuel => .outOfFuel
  | _ => .err (.malformedNode "FunctionCall" "arguments")

/-! ### If statement -/

/-- Models `IfStatementMutator::is_mutable_node` (`solidity/mutators.rs:1145-1156`). -/
def ifMutable (j : Json) : Bool :=
  hasType "IfStatement" j &&
    match j.field? "condition" with
    | some .null => false
    | some _ => true
    | none => false

/-- The node with its new condition (`solidity/mutators.rs:1179-1230`). -/
def ifChange (choice : Nat) (j : Json) : Json :=
  if choice = 0 then Json.setNodeForKey "condition" (booleanLiteralNode true) j
  else if choice = 1 then Json.setNodeForKey "condition" (booleanLiteralNode false) j
  else match Json.takeValueForKey "condition" j with
    | (some v, j1) =>
      Json.setNodeForKey "condition" (unaryOpNode "!" true (tupleExpressionNode [v])) j1
    | (none, j1) => j1

/-- Models `IfStatementMutator::mutate` (`solidity/mutators.rs:1158-1258`). -/
def ifMutate [Rand R] (env : MutEnv) (j : Json) (r : R) : Outcome (Mutated R) :=
  match j.field? "condition" with
  | none => .err (.malformedNode "IfStatement" "condition")
  | some c =>
    let d := nextU64 r
    let choice := d.1 % 3
    let j' := ifChange choice j
    match j'.field? "condition" with
    | none => .err (.malformedNode "IfStatement" "condition")
    | some c' =>
      let comment := commentNode
        ("IfStatement Mutator: changed condition '" ++ env.pp c ++ "' to '" ++ env.pp c' ++ "'")
      .ok (j', result .ifStatement (nodeId j') (some (env.digest [.byte choice])), some comment, d.2)

/-! ### Integer -/

/-- Models `IntegerMutator::is_mutable_node` (`solidity/mutators.rs:1287-1307`). -/
def integerMutable (j : Json) : Bool :=
  hasType "Literal" j && (j.getStrForKey "kind" == some "number") &&
    match j.getStrForKey "value" with
    | some v => !v.toList.contains '.'
    | none => false

/-- One step of an integer literal (`solidity/mutators.rs:1327-1349`): `none` stands for the crash of
`parse::<i64>().unwrap()` or of the overflow. -/
def integerStep (env : MutEnv) (d : Int) (text : String) : Option String :=
  ((parseI64 text).bind fun i => addI64 env.overflowChecks i d).map intText

/-- Models `IntegerMutator::mutate` (`solidity/mutators.rs:1309-1378`). -/
def integerMutate [Rand R] (env : MutEnv) (j : Json) (r : R) : Outcome (Mutated R) :=
  let d := nextU64 r
  let choice := d.1 % 3
  let done (old new : String) (j' : Json) (r' : R) : Outcome (Mutated R) :=
    .ok (j', result .integer (nodeId j') (some (env.digest [.byte choice])),
      some (commentNode ("Integer Mutator: changed '" ++ old ++ "' to '" ++ new ++ "'")), r')
  if choice = 2 then
    let v := nextU64 d.2
    done ((j.getStrForKey "value").getD "") (Nat.repr v.1) (Json.setStrForKey "value" (Nat.repr v.1) j) v.2
  else
    match j.getStrForKey "value" with
    | some text => match integerStep env (if choice = 0 then 1 else -1) text with
      | some new => done text new (Json.setStrForKey "value" new j) d.2
      | none => .panic
    | none => done "" "" j d.2

/-! ### Swap operator arguments -/

/-- Models `SwapOperatorArgumentsMutator::is_mutable_node` (`solidity/mutators.rs:1411-1422`). -/
def swapOperandsMutable (j : Json) : Bool :=
  hasType "BinaryOperation" j &&
    match j.getStrForKey "operator" with
    | some op => nonCommutativeOperators.contains op
    | none => false

/-- Models `SwapOperatorArgumentsMutator::mutate` (`solidity/mutators.rs:1424-1476`). -/
def swapOperandsMutate (env : MutEnv) (j : Json) (r : R) : Outcome (Mutated R) :=
  match Json.takeValueForKey "leftExpression" j with
  | (some left, j1) => match Json.takeValueForKey "rightExpression" j1 with
    | (some right, j2) =>
      let j' := Json.setNodeForKey "rightExpression" left (Json.setNodeForKey "leftExpression" right j2)
      let comment := commentNode
        ("SwapOperatorArguments Mutator: switched '" ++ env.pp left ++ "' and '" ++ env.pp right ++ "'")
      .ok (j', result .swapOperatorArguments (nodeId j')
        (some (env.digest [.text (env.pp left), .text (env.pp right)])), some comment, r)
    | (none, _) => .err (.malformedNode "BinaryOperation" "rightExpression")
  | (none, _) => .err (.malformedNode "BinaryOperation" "leftExpression")

/-! ### Swap lines -/

/-- Models `SwapLinesMutator::is_mutable_node` (`solidity/mutators.rs:1505-1535`). -/
def swapLinesMutable (j : Json) : Bool :=
  hasType "Block" j &&
    match arrayField "statements" j with
    | some ss => decide (ss.length ≥ 2) && (!ss.any (hasType "Return") || decide (ss.length ≥ 3))
    | none => false

/-- Models `SwapLinesMutator::mutate` (`solidity/mutators.rs:1537-1631`). -/
def swapLinesMutate [Rand R] (env : MutEnv) (j : Json) (r : R) : Outcome (Mutated R) :=
  match Json.takeValueForKey "statements" j with
  | (some (.arr ss), j1) =>
    match drawUntil (notOfType "Return" ss) ss.length env.fuel r with
    | .ok (first, r1) =>
      match drawUntil (fun i => i != first && notOfType "Return" ss i) ss.length env.fuel r1 with
      | .ok (second, r2) =>
        match exchange first second ss with
        | none => .panic
        | some (largerNode, smallerNode, ss') =>
          let j' := Json.setNodeForKey "statements" (.arr ss') j1
          let comment := commentNode ("SwapLines Mutator: swapped line '" ++ env.pp largerNode ++
            "' with line '" ++ env.pp smallerNode ++ "'")
          .ok (j', result .swapLines (nodeId j') (some (env.digest [.index first, .index second])),
            some comment, r2)
      | .err e => .err e
      | .panic => .panic
      | .outOfFuel => .outOfFuel
    | .err e => .err e
    | .panic => .panic
    | .outOfFuel => .outOfFuel
  | _ => .err (.malformedNode "Block" "statements")

/-! ### Require -/

/-- Models `SolidityRequireMutator::is_mutable_node` (`solidity/mutators.rs:1671-1690`). -/
def requireMutable (j : Json) : Bool :=
  hasType "FunctionCall" j &&
    (((j.field? "expression").bind (Json.getStrForKey "name")) == some "require") &&
    !(match j.getArrayForKey "arguments" with
      | some args => args.isEmpty
      | none => false)

/-- Models `take_argument` (`solidity/ast.rs:30-37`): the value and the node with `null` in its place. -/
def takeArgument (i : Nat) (j : Json) : Option Json × Json :=
  match j.getArrayForKey "arguments" with
  | some args => match args[i]? with
    | some v => (some v, Json.setNodeForKey "arguments" (.arr (args.set i .null)) j)
    | none => (none, j)
  | none => (none, j)

/-- The negation built in `solidity/mutators.rs:1727-1793`. -/
def requireNegation (arg : Json) : Json :=
  let boolType := Json.ofFields [("typeIdentifier", .str "t_bool"), ("typeString", .str "bool")]
  let tuple := Json.ofFields
    [("id", jint 99996), ("isConstant", .bool false), ("isInlineArray", .bool false),
     ("isLValue", .bool false), ("isPure", .bool false), ("lValueRequested", .bool false),
     ("nodeType", .str "TupleExpression"), ("typeDescriptions", boolType), ("components", .arr [arg])]
  Json.ofFields
    [("id", jint 99999), ("isConstant", .bool false), ("isLValue", .bool false), ("isPure", .bool true),
     ("lValueRequested", .bool false), ("nodeType", .str "UnaryOperation"), ("operator", .str "!"),
     ("prefix", .bool true), ("typeDescriptions", boolType), ("subExpression", tuple)]

/-- Models `SolidityRequireMutator::mutate` (`solidity/mutators.rs:1692-1815`). -/
def requireMutate (env : MutEnv) (j : Json) (r : R) : Outcome (Mutated R) :=
  match arrayField "arguments" j with
  | some (arg0 :: _) => match takeArgument 0 j with
    | (some arg, j1) =>
      let new := requireNegation arg
      let j' := Json.setNodeForKeyAtIndex "arguments" 0 new j1
      let comment := commentNode
        ("Require Mutator: Changing '" ++ env.pp arg0 ++ "' to '" ++ env.pp new ++ "'")
      .ok (j', result .require (nodeId j') (some (env.digest [.text (env.pp new)])), some comment, r)
    | (none, _) => .err (.malformedNode "FunctionCall" "arguments")
  | _ => .err (.malformedNode "FunctionCall" "arguments")

/-! ### Unchecked block -/

/-- Models `SolidityUncheckedBlockMutator::is_mutable_node` (`solidity/mutators.rs:1844-1885`). -/
def uncheckedBlockMutable (j : Json) : Bool :=
  hasType "Block" j &&
    match arrayField "statements" j with
    | some ss => !ss.isEmpty && decide (ss.length ≥
        1 + (if ss.any (hasType "Return") then 1 else 0)
          + (if ss.any (hasType "UncheckedBlock") then 1 else 0))
    | none => false

/-- The drawing loop (`solidity/mutators.rs:1905-1915`): the drawn statement is taken out of the list
and put back when it is not acceptable.  Returns the index, the statement and the list without it. -/
def uncheckedDraw [Rand R] : Nat → List Json → R → Outcome (Nat × Json × List Json × R)
  | 0, _, _ => .outOfFuel
  | fuel + 1, ss, r => match drawIndex ss.length r with
    | .ok (i, r') => match ss[i]? with
      | none => .panic
      | some v =>
        let rest := ss.eraseIdx i
        if hasType "Return" v || hasType "UncheckedBlock" v then
          uncheckedDraw fuel (rest.insertIdx i v) r'
        else .ok (i, v, rest, r')
    | .err e => .err e
    | .panic => .panic
    | .outOfFuel => .outOfFuel

/-- Models `SolidityUncheckedBlockMutator::mutate` (`solidity/mutators.rs:1887-1957`). -/
def uncheckedBlockMutate [Rand R] (env : MutEnv) (j : Json) (r : R) : Outcome (Mutated R) :=
  match Json.takeValueForKey "statements" j with
  | (some (.arr ss), j1) => match uncheckedDraw env.fuel ss r with
    | .ok (i, v, rest, r') =>
      let id := i64AsU64 ((v.getIntForKey "id").getD 9999999)
      let wrapped := uncheckedBlockNode [v] id
      let j' := Json.setNodeForKey "statements" (.arr (rest.insertIdx i wrapped)) j1
      let comment := commentNode
        ("UncheckedBlock Mutator: Changing '" ++ env.pp v ++ "' to '" ++ env.pp wrapped ++ "'")
      .ok (j', result .uncheckedBlock (some id) (some (env.digest [.index i])), some comment, r')
    | .err e => .err e
    | .panic => .panic
    | .outOfFuel => .outOfFuel
  | _ => .err (.malformedNode "Block" "statements")

/-! ### Eliminate delegate call -/

/-- Models `SolidityElimDelegateCallMutator::is_mutable_node` (`solidity/mutators.rs:1985-1996`). -/
def delegateCallMutable (j : Json) : Bool :=
  hasType "MemberAccess" j && (j.getStrForKey "memberName" == some "delegatecall")

/-- Models `SolidityElimDelegateCallMutator::mutate` (`solidity/mutators.rs:1998-2020`). -/
def delegateCallMutate (j : Json) (r : R) : Outcome (Mutated R) :=
  let j' := Json.setStrForKey "memberName" "call" j
  .ok (j', result .elimDelegateCall (nodeId j') none,
    some (commentNode "ElimDelegateCall Mutator: replace 'delegatecall' with 'call'"), r)

/-! ### Factory -/

/-- Models `SolidityMutatorFactory::mutator_for` (`solidity/mutators.rs:2036-2083`) with `implements` of
each mutator. -/
def mutatorFor [Rand R] (env : MutEnv) : MutationType → Option (Mutator R)
  | .arithmeticBinaryOp => some ⟨.arithmeticBinaryOp, binaryOpMutable arithmeticOperators,
      binaryOpMutate env arithmeticOperators .arithmeticBinaryOp⟩
  | .logicalBinaryOp => some ⟨.logicalBinaryOp, binaryOpMutable logicalOperators,
      binaryOpMutate env logicalOperators .logicalBinaryOp⟩
  | .bitwiseBinaryOp => some ⟨.bitwiseBinaryOp, binaryOpMutable bitwiseOperators,
      binaryOpMutate env bitwiseOperators .bitwiseBinaryOp⟩
  | .bitshiftBinaryOp => some ⟨.bitshiftBinaryOp, binaryOpMutable bitshiftOperators,
      binaryOpMutate env bitshiftOperators .bitshiftBinaryOp⟩
  | .comparisonBinaryOp => some ⟨.comparisonBinaryOp, binaryOpMutable comparisonOperators,
      binaryOpMutate env comparisonOperators .comparisonBinaryOp⟩
  | .assignment => some ⟨.assignment, assignmentMutable, assignmentMutate env⟩
  | .deleteStatement => some ⟨.deleteStatement, deleteStatementMutable, deleteStatementMutate env⟩
  | .functionCall => some ⟨.functionCall, functionCallMutable, functionCallMutate env⟩
  | .swapFunctionArguments => some ⟨.swapFunctionArguments, swapArgumentsMutable, swapArgumentsMutate env⟩
  | .ifStatement => some ⟨.ifStatement, ifMutable, ifMutate env⟩
  | .integer => some ⟨.integer, integerMutable, integerMutate env⟩
  | .swapOperatorArguments => some ⟨.swapOperatorArguments, swapOperandsMutable, swapOperandsMutate env⟩
  | .swapLines => some ⟨.swapLines, swapLinesMutable, swapLinesMutate env⟩
  | .unaryOp => some ⟨.unaryOp, unaryOpMutable, unaryOpMutate env⟩
  | .require => some ⟨.require, requireMutable, requireMutate env⟩
  | .uncheckedBlock => some ⟨.uncheckedBlock, uncheckedBlockMutable, uncheckedBlockMutate env⟩
  | .elimDelegateCall => some ⟨.elimDelegateCall, delegateCallMutable, delegateCallMutate⟩

end Solidity
end Mutagenyx
