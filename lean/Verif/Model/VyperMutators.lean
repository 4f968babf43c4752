import Verif.Model.MutatorBase
import Verif.Model.Operators

/-!
# `mutagenyx_lib/src/vyper/mutators.rs` and `vyper/operators.rs`

Same conventions as in `SolidityMutators.lean`.
-/

namespace Mutagenyx
namespace Vyper

variable {R : Type}

/-- What a successful `mutate` leaves behind. -/
abbrev Mutated (R : Type) := Json × MutatorResult × Option Json × R

/-! ### Operators -/

/-- Models `get_python_operator_map` (`vyper/operators.rs:3-29`). -/
def operatorMap : List (String × String) :=
  [("Add", "+"), ("Sub", "-"), ("Mult", "*"), ("Div", "/"), ("Mod", "%"), ("Pow", "**"), ("And", "&&"),
   ("Or", "||"), ("BitAnd", "&"), ("BitOr", "|"), ("BitXor", "^"), ("Eq", "=="), ("NotEq", "!="),
   ("Gt", ">"), ("GtE", ">="), ("Lt", "<"), ("LtE", "<="), ("Not", "!"), ("Invert", "~"), ("In", "in"),
   ("NotIn", "not in")]

/-- `operator_map.get(name)`. -/
def symbolOf (name : String) : Option String := operatorMap.lookup name

/-- `reverse_operator_map.get(symbol)` (`vyper/mutators.rs:286-291`); no symbol occurs twice, so the
iteration order of the hash map does not matter. -/
def nameOf (symbol : String) : Option String := (operatorMap.map fun p => (p.2, p.1)).lookup symbol

/-! ### Node builders -/

/-- A JSON integer. -/
def jint (i : Int) : Json := .num (.int i)

/-- The number serde_json reads from the text of an integer: a float when it is outside
`-2^63 .. 2^64-1`. -/
def parsedInt (env : MutEnv) (i : Int) : Json :=
  if -(2 ^ 63 : Int) ≤ i ∧ i < 2 ^ 64 then jint i else .num (.flt (env.floatOfInt i))

/-- Models `new_integer_constant_node` (`vyper/mutators.rs:31-42`). -/
def integerConstantNode (env : MutEnv) (value : Int) : Json :=
  .ofFields [("node_id", jint 9999999), ("ast_type", .str "Int"), ("value", parsedInt env value)]

/-- Models `new_float_constant_node` (`vyper/mutators.rs:49-58`). -/
def floatConstantNode (text : String) : Json :=
  .ofFields [("node_id", jint 9999998), ("ast_type", .str "Decimal"), ("value", .str text)]

/-- Models `new_boolean_constant_node` (`vyper/mutators.rs:65-74`). -/
def booleanConstantNode (value : Bool) : Json :=
  .ofFields [("node_id", jint 9999997), ("ast_type", .str "NameConstant"), ("value", .bool value)]

/-- Models `new_comment_node` (`vyper/mutators.rs:86-98`). -/
def commentNode (text : String) : Json :=
  Json.setNodeForKey "value" (.str text)
    (.ofFields [("node_id", jint 9999996), ("ast_type", .str "Comment"), ("value", .null)])

/-- Models `new_comment_node_from_node` (`vyper/mutators.rs:105-123`). -/
def commentNodeFromNode (node : Json) : Json :=
  Json.setNodeForKey "node_id" (jint ((node.getIntForKey "node_id").getD 9999996))
    (Json.setNodeForKey "value" node
      (.ofFields [("node_id", jint 9999996), ("ast_type", .str "Comment"), ("value", .null)]))

/-- Models `new_pass_node` (`vyper/mutators.rs:126-132`). -/
def passNode : Json := .ofFields [("node_id", jint 9999995), ("ast_type", .str "Pass")]

/-- Models `new_string_node` (`vyper/mutators.rs:139-148`), for text without characters special in
JSON. -/
def stringNode (text : String) : Json :=
  .ofFields [("node_id", jint 9999994), ("ast_type", .str "Str"), ("value", .str text)]

/-- Models `new_return_node` (`vyper/mutators.rs:155-165`). -/
def returnNode (node : Json) : Json :=
  Json.setNodeForKey "value" node
    (.ofFields [("node_id", jint 9999993), ("ast_type", .str "Return"), ("value", .null)])

/-- Models `new_unary_op_node` (`vyper/mutators.rs:173-189`). -/
def unaryOpNode (operator : String) (operand : Json) : Json :=
  Json.setNodeForKey "operand" operand
    (.ofFields [("node_id", jint 9999992), ("operand", .null),
      ("op", .ofFields [("node_id", jint 9999991), ("ast_type", .str operator)]),
      ("ast_type", .str "UnaryOp")])

/-- Models `new_list_like_thing_node` (`vyper/mutators.rs:228-253`); `kind` is `Tuple` or `List`. -/
def listLikeNode (size : Nat) (kind : String) : Json :=
  Json.setNodeForKey "elements"
    (.arr (List.replicate size
      (.ofFields [("node_id", jint 9999992), ("ast_type", .str "NameConstant"), ("value", .null)])))
    (.ofFields [("node_id", jint 9999991), ("ast_type", .str kind), ("elements", .arr [])])

/-- `get_str_for_key("ast_type") == Some(t)`. -/
def hasType (t : String) (j : Json) : Bool := j.getStrForKey "ast_type" == some t

/-- `node.get_int_for_key("node_id").map(|id| id as u64)`. -/
def nodeId (j : Json) : Option Nat := (j.getIntForKey "node_id").map i64AsU64

/-- The `MutatorResult` a mutator returns. -/
def result (t : MutationType) (id : Option Nat) (hash : Option String) : MutatorResult :=
  { mutationType := some t, mutatedNodeId := id, randomBehaviorHash := hash }

/-- `node.get(key)` and then `as_array`. -/
def arrayField (key : String) (j : Json) : Option (List Json) := (j.field? key).bind Json.asArray

/-- `n == "BinOp" || n == "BoolOp" || n == "Compare"`. -/
def isBinary (j : Json) : Bool := hasType "BinOp" j || hasType "BoolOp" j || hasType "Compare" j

/-! ### Binary operators -/

/-- Models `BinaryOpMutator::is_mutable_node` (`vyper/mutators.rs:304-321`). -/
def binaryOpMutable (ops : List String) (j : Json) : Bool :=
  isBinary j &&
    match ((j.field? "op").bind (Json.getStrForKey "ast_type")).bind symbolOf with
    | some s => ops.contains s
    | none => false

/-- Models `BinaryOpMutator::mutate` (`vyper/mutators.rs:323-410`). -/
def binaryOpMutate [Rand R] (env : MutEnv) (ops : List String) (t : MutationType) (j : Json) (r : R) :
    Outcome (Mutated R) :=
  let astType := (j.getStrForKey "ast_type").getD "BinOp"
  match Json.takeValueForKey "op" j with
  | (some op, j1) => match op.getStrForKey "ast_type" with
    | some opType => match symbolOf opType with
      | none => .panic
      | some original => match chooseOther ops original env.fuel r with
        | .ok (chosen, r') => match nameOf chosen with
          | none => .panic
          | some name =>
            let j' := Json.setNodeForKey "op" (Json.setStrForKey "ast_type" name op) j1
            let comment := commentNode
              (t.toStr ++ " Mutator: Changed '" ++ env.pp j ++ "' to '" ++ env.pp j' ++ "'")
            .ok (j', result t (nodeId j') (some (env.digest [.text chosen])), some comment, r')
        | .err e => .err e
        | .panic => .panic
        | .outOfFuel => .outOfFuel
    | none => .err (.malformedNode astType "op")
  | (none, _) => .err (.malformedNode astType "op")

/-! ### Assignment -/

/-- Models `AssignmentMutator::is_mutable_node` (`vyper/mutators.rs:439-447`). -/
def assignmentMutable (j : Json) : Bool := hasType "Assign" j

/-- The replacement value (`vyper/mutators.rs:486-559`). -/
def assignmentValue [Rand R] (env : MutEnv) (r : R) : Outcome (Json × List HashPart × R) :=
  let d := nextU64 r
  let kind := d.1 % 4
  if kind = 0 then
    match genRange (-170141183460469231731687303715884105728) 170141183460469231731687303715884105727 d.2 with
    | .ok (v, r') => .ok (integerConstantNode env v, [.byte 0, .int v], r')
    | .err e => .err e
    | .panic => .panic
    | .outOfFuel => .outOfFuel
  else if kind = 1 then
    match genRange 0 340282366920938463463374607431768211455 d.2 with
    | .ok (v, r') => .ok (integerConstantNode env v, [.byte 1, .int v], r')
    | .err e => .err e
    | .panic => .panic
    | .outOfFuel => .outOfFuel
  else if kind = 2 then
    let b := nextU64 d.2
    .ok (booleanConstantNode (decide (b.1 % 2 = 1)), [.byte 2, .index (b.1 % 2)], b.2)
  else
    let f := nextU64 d.2
    .ok (floatConstantNode (env.floatText f.1), [.byte 3, .text (env.floatText f.1)], f.2)

/-- Models `AssignmentMutator::mutate` (`vyper/mutators.rs:449-581`). -/
def assignmentMutate [Rand R] (env : MutEnv) (j : Json) (r : R) : Outcome (Mutated R) :=
  match j.field? "value" with
  | none => .err (.malformedNode "Assign" "value")
  | some old => match assignmentValue env r with
    | .ok (new, parts, r') =>
      let j' := Json.setNodeForKey "value" new j
      match j'.field? "value" with
      | none => .panic
      | some new' =>
        let comment := commentNode
          ("Assignment Mutator: changed '" ++ env.pp old ++ "' to '" ++ env.pp new' ++ "'")
        .ok (j', result .assignment (nodeId j') (some (env.digest parts)), some comment, r')
    | .err e => .err e
    | .panic => .panic
    | .outOfFuel => .outOfFuel

/-! ### Delete statement -/

/-- Models `DeleteStatementMutator::is_mutable_node` (`vyper/mutators.rs:651-680`). -/
def deleteStatementMutable (env : MutEnv) (j : Json) : Bool :=
  (hasType "FunctionDef" j || hasType "For" j || hasType "If" j || hasType "Module" j) &&
    match arrayField "body" j with
    | some [s] => !["view", "nonpayable", "payable"].contains (env.pp s)
    | some ss => !ss.isEmpty
    | none => false

/-- The text used for a string result (`vyper/mutators.rs:830`). -/
def loremIpsum : String :=
  "Lorem ipsum dolor sit amet, consectetur adipiscing elit, sed do eiusmod tempor incididunt ut labore et dolore magna aliqua."

/-- What is appended to a body whose only statement was deleted (`vyper/mutators.rs:723-917`): the
statements pushed, the digest parts, the random state. -/
def replacementStatement [Rand R] (env : MutEnv) (j : Json) (r : R) :
    Outcome (List Json × List HashPart × R) :=
  match j.field? "returns" with
  | none => .ok ([passNode], [], r)
  | some returns => match returns.getStrForKey "ast_type" with
    | none => .ok ([passNode], [], r)
    | some t =>
      if t = "Name" then
        match returns.getStrForKey "id" with
        | none => .ok ([], [], r)
        | some id => match takeBytes 3 id with
          | none => .panic
          | some p =>
            let d := nextU64 r
            if p = "boo" then
              .ok ([returnNode (booleanConstantNode (decide (d.1 % 2 = 1)))], [.index (d.1 % 2)], d.2)
            else if p = "uin" then
              .ok ([returnNode (integerConstantNode env (d.1 % 10 : Nat))], [.index (d.1 % 10)], d.2)
            else if p = "int" then
              .ok ([returnNode (integerConstantNode env ((d.1 &&& 20 : Nat) - 10))],
                [.int (d.1 &&& 20 : Nat)], d.2)
            else if p = "str" then
              .ok ([returnNode (stringNode loremIpsum)], [.text loremIpsum], r)
            else .err .unrecognizedLanguageType
      else if t = "Pass" then .ok ([], [], r)
      else if t = "Tuple" ∨ t = "List" then
        match arrayField "elements" returns with
        | some es => .ok ([returnNode (listLikeNode es.length t)], [], r)
        | none => .ok ([], [], r)
      else .ok ([], [], r)

/-- Models `DeleteStatementMutator::mutate` (`vyper/mutators.rs:682-938`). -/
def deleteStatementMutate [Rand R] (env : MutEnv) (j : Json) (r : R) : Outcome (Mutated R) :=
  let astType := (j.getStrForKey "ast_type").getD "FunctionDef"
  match Json.takeValueForKey "body" j with
  | (some (.arr ss), j1) =>
    match drawIndex ss.length r with
    | .ok (i, r1) => match ss[i]? with
      | none => .panic
      | some value =>
        let ss1 := (ss.eraseIdx i).insertIdx i (commentNodeFromNode value)
        let extra := if ss1.length = 1 then replacementStatement env j1 r1 else .ok ([], [], r1)
        match extra with
        | .ok (more, parts, r2) =>
          let j' := Json.setNodeForKey "body" (.arr (ss1 ++ more)) j1
          .ok (j', result .deleteStatement (nodeId value) (some (env.digest (.index i :: parts))),
            some (commentNode "DeleteStatement Mutator: commented out the following line."), r2)
        | .err e => .err e
        | .panic => .panic
        | .outOfFuel => .outOfFuel
    | .err e => .err e
    | .panic => .panic
    | .outOfFuel => .outOfFuel
  | _ => .err (.malformedNode astType "body")

/-! ### Function call -/

/-- Models `FunctionCallMutator::is_mutable_node` (`vyper/mutators.rs:962-977`). -/
def functionCallMutable (j : Json) : Bool :=
  hasType "Call" j &&
    match arrayField "args" j with
    | some args => !args.isEmpty
    | none => false

/-- The test of the drawing loop (`vyper/mutators.rs:998-1003`); it reads the key `nodeType`, which Vyper
nodes do not have. -/
def acceptableArgument (args : List Json) (i : Nat) : Bool :=
  match args[i]? with
  | some v => !(v.getStrForKey "nodeType" == some "Int" || v.getStrForKey "nodeType" == some "Str")
  | none => false

/-- Models `FunctionCallMutator::mutate` (`vyper/mutators.rs:979-1038`). -/
def functionCallMutate [Rand R] (env : MutEnv) (j : Json) (r : R) : Outcome (Mutated R) :=
  match arrayField "args" j with
  | some args =>
    match drawUntil (acceptableArgument args) args.length env.fuel r with
    | .ok (i, r') => match args[i]? with
      | none => .panic
      | some j' =>
        let comment := commentNode
          ("FunctionCall Mutator: replaced '" ++ env.pp j ++ "' with '" ++ env.pp j' ++ "'")
        .ok (j', result .functionCall (if j'.asObj.isSome then nodeId j' else none)
          (some (env.digest [.index i])), some comment, r')
    | .err e => .err e
    | .panic => .panic
    | .outOfFuel => .outOfFuel
  | none => .err (.malformedNode "Call" "args")

/-! ### Swap function arguments -/

/-- Models `SwapFunctionArgumentsMutator::is_mutable_node` (`vyper/mutators.rs:1069-1087`). -/
def swapArgumentsMutable (j : Json) : Bool :=
  hasType "Call" j &&
    match arrayField "args" j with
    | some args => decide (args.length ≥ 2)
    | none => false

/-- `args[i1] = old args[i2]; args[i2] = old args[i1]` with the two indexes drawn
(`vyper/mutators.rs:1104-1171`): the list, the comment texts' nodes, the digest parts and the random
state.  `none` instead of nodes when fewer than two arguments. -/
def swapArgumentsDraw [Rand R] (env : MutEnv) (args : List Json) (r : R) :
    Outcome (Option (Nat × Nat) × List HashPart × R) :=
  if args.length = 2 then .ok (some (0, 1), [.byte 2], r)
  else if args.length > 2 then
    match drawIndex args.length r with
    | .ok (i1, r1) => match drawUntil (fun i => i != i1) args.length env.fuel r1 with
      | .ok (i2, r2) => .ok (some (i1, i2), [.index i1, .index i2], r2)
      | .err e => .err e
      | .panic => .panic
      | .outOfFuel => .outOfFuel
    | .err e => .err e
    | .panic => .panic
    | .outOfFuel => .outOfFuel
  else .ok (none, [], r)

/-- Models `SwapFunctionArgumentsMutator::mutate` (`vyper/mutators.rs:1089-1184`).  With fewer than two
arguments the array is taken out and not put back. -/
def swapArgumentsMutate [Rand R] (env : MutEnv) (j : Json) (r : R) : Outcome (Mutated R) :=
  match Json.takeValueForKey "args" j with
  | (some (.arr args), j1) => match swapArgumentsDraw env args r with
    | .ok (some (i1, i2), parts, r') => match args[i1]?, args[i2]? with
      | some a1, some a2 =>
        let args' := (args.set i1 a2).set i2 a1
        let j' := Json.setNodeForKey "args" (.arr args') j1
        let comment := commentNode
          ("SwapFunctionArguments Mutator: swapped '" ++ env.pp a1 ++ "', for '" ++ env.pp a2 ++ "'")
        .ok (j', result .swapFunctionArguments (nodeId j') (some (env.digest parts)), some comment, r')
      | _, _ => .panic
    | .ok (none, parts, r') =>
      .ok (j1, result .swapFunctionArguments (nodeId j1) (some (env.digest parts)), none, r')
    | .err e => .err e
    | .panic => .panic
    | .outOfFuel => .outOfFuel
  | _ => .err (.malformedNode "Call" "args")

/-! ### If statement -/

/-- Models `IfStatementMutator::is_mutable_node` (`vyper/mutators.rs:1214-1223`). -/
def ifMutable (j : Json) : Bool := hasType "If" j && (j.field? "test").isSome

/-- Models `IfStatementMutator::mutate` (`vyper/mutators.rs:1225-1327`). -/
def ifMutate [Rand R] (env : MutEnv) (j : Json) (r : R) : Outcome (Mutated R) :=
  match j.field? "test" with
  | none => .err (.malformedNode "If" "test")
  | some c =>
    let d := nextU64 r
    let choice := d.1 % 3
    let done (new j1 : Json) : Outcome (Mutated R) :=
      let j' := Json.setNodeForKey "test" new j1
      .ok (j', result .ifStatement (nodeId j') (some (env.digest [.index choice])),
        some (commentNode ("IfStatement Mutator: changed test condition '" ++ env.pp c ++ "' to '" ++
          env.pp new ++ "'")), d.2)
    if choice = 0 then done (booleanConstantNode true) j
    else if choice = 1 then done (booleanConstantNode false) j
    else match Json.takeValueForKey "test" j with
      | (some v, j1) => done (unaryOpNode "Not" v) j1
      | (none, j1) => .ok (j1, result .ifStatement (nodeId j1) (some (env.digest [.index choice])), none, d.2)

/-! ### Integer -/

/-- Models `IntegerMutator::is_mutable_node` (`vyper/mutators.rs:1357-1364`). -/
def integerMutable (j : Json) : Bool := hasType "Int" j

/-- Models `IntegerMutator::mutate` (`vyper/mutators.rs:1366-1433`). -/
def integerMutate [Rand R] (env : MutEnv) (j : Json) (r : R) : Outcome (Mutated R) :=
  let d := nextU64 r
  let choice := d.1 % 3
  let done (j' : Json) (r' : R) : Outcome (Mutated R) :=
    .ok (j', result .integer (nodeId j') (some (env.digest [.index choice])),
      some (commentNode ("Integer Mutator: changed '" ++ env.pp j ++ "' to '" ++ env.pp j' ++ "'")), r')
  if choice = 2 then
    let v := nextU64 d.2
    done (Json.setNodeForKey "value" (jint (u64AsI64 v.1)) j) v.2
  else match (j.field? "value").bind Json.asI64 with
    | none => done j d.2
    | some i => match addI64 env.overflowChecks i (if choice = 0 then 1 else -1) with
      | none => .panic
      | some i' => done (Json.setNodeForKey "value" (jint i') j) d.2

/-! ### Swap operator arguments -/

/-- Models `SwapOperatorArgumentsMutator::is_mutable_node` (`vyper/mutators.rs:1467-1481`) with its crash:
`self.operator_map[&op_string]` panics when the operator is not in the map. -/
def swapOperandsTest (j : Json) : Outcome Bool :=
  if isBinary j then
    match (j.field? "op").bind (Json.getStrForKey "ast_type") with
    | some op => match symbolOf op with
      | some s => .ok (nonCommutativeOperators.contains s)
      | none => .panic
    | none => .ok false
  else .ok false

/-- `is_mutable_node` as the generic code sees it.  Simplified: where the Rust code crashes the node is
not mutable. -/
def swapOperandsMutable (j : Json) : Bool := decide (swapOperandsTest j = .ok true)

/-- The exchange for `BinOp` and `Compare` (`vyper/mutators.rs:1502-1512`): the node and the two operands
if both exist. -/
def swapSides (j : Json) : Json × Option (Json × Json) :=
  match Json.takeValueForKey "left" j with
  | (some left, j1) => match Json.takeValueForKey "right" j1 with
    | (some right, j2) =>
      (Json.setNodeForKey "right" left (Json.setNodeForKey "left" right j2), some (left, right))
    | (none, j2) => (j2, none)
  | (none, j1) => (j1, none)

/-- Models `SwapOperatorArgumentsMutator::mutate` (`vyper/mutators.rs:1483-1549`).  For `BoolOp` the array
of operands is taken out of the node and not put back. -/
def swapOperandsMutate (env : MutEnv) (j : Json) (r : R) : Outcome (Mutated R) :=
  match j.getStrForKey "ast_type" with
  | none => .err (.malformedNode "Unknown" "ast_type")
  | some t =>
    let done (j' : Json) (l rt : String) : Outcome (Mutated R) :=
      .ok (j', result .swapOperatorArguments (nodeId j') (some (env.digest [.text t])),
        some (commentNode ("SwapOperatorArguments Mutator: Swapped '" ++ l ++ "' for '" ++ rt ++ "'")), r)
    if t = "BinOp" ∨ t = "Compare" then
      match swapSides j with
      | (j', some (l, rt)) => done j' (env.pp l) (env.pp rt)
      | (j', none) => done j' "" ""
    else if t = "BoolOp" then
      match Json.takeValueForKey "values" j with
      | (some (.arr (l :: rt :: _)), j1) => done j1 (env.pp l) (env.pp rt)
      | (some (.arr _), _) => .panic
      | (_, j1) => done j1 "" ""
    else done j "" ""

/-! ### Swap lines -/

/-- Models `SwapLinesMutator::is_mutable_node` (`vyper/mutators.rs:1586-1616`). -/
def swapLinesMutable (j : Json) : Bool :=
  (hasType "FunctionDef" j || hasType "For" j || hasType "If" j) &&
    match arrayField "body" j with
    | some ss => decide (ss.length ≥ 2) && (!ss.any (hasType "Return") || decide (ss.length ≥ 3))
    | none => false

/-- The element at an index is not of the given type. -/
def notOfType (t : String) (xs : List Json) (i : Nat) : Bool :=
  match xs[i]? with
  | some v => !hasType t v
  | none => false

/-- Models `SwapLinesMutator::mutate` (`vyper/mutators.rs:1618-1715`). -/
def swapLinesMutate [Rand R] (env : MutEnv) (j : Json) (r : R) : Outcome (Mutated R) :=
  let astType := (j.getStrForKey "ast_type").getD "FunctionDef"
  match Json.takeValueForKey "body" j with
  | (some (.arr ss), j1) =>
    match drawUntil (notOfType "Return" ss) ss.length env.fuel r with
    | .ok (first, r1) =>
      match drawUntil (fun i => i != first && notOfType "Return" ss i) ss.length env.fuel r1 with
      | .ok (second, r2) =>
        match exchange first second ss with
        | none => .panic
        | some (largerNode, smallerNode, ss') =>
          let j' := Json.setNodeForKey "body" (.arr ss') j1
          let comment := commentNode ("SwapLines Mutator: Swapped line '" ++ env.pp largerNode ++
            "' with '" ++ env.pp smallerNode ++ "'")
          .ok (j', result .swapLines (nodeId j') (some (env.digest [.index first, .index second])),
            some comment, r2)
      | .err e => .err e
      | .panic => .panic
      | .outOfFuel => .outOfFuel
    | .err e => .err e
    | .panic => .panic
    | .outOfFuel => .outOfFuel
  | _ => .err (.malformedNode astType "body")

/-! ### Unary operators -/

/-- Models `UnaryOpMutator::is_mutable_node` (`vyper/mutators.rs:1748-1755`). -/
def unaryOpMutable (j : Json) : Bool := hasType "UnaryOp" j

/-- Models `UnaryOpMutator::mutate` (`vyper/mutators.rs:1757-1801`). -/
def unaryOpMutate (env : MutEnv) (j : Json) (r : R) : Outcome (Mutated R) :=
  match Json.takeValueForKey "operand" j with
  | (some j', _) =>
    .ok (j', result .unaryOp (nodeId j') (some (env.digest [.text (env.pp j')])),
      some (commentNode ("UnaryOp Mutator: Replaced '" ++ env.pp j ++ "' with '" ++ env.pp j')), r)
  | (none, _) => .err (.malformedNode "UnaryOp" "operand")

/-! ### Factory -/

/-- Models `VyperMutatorFactory::mutator_for` (`vyper/mutators.rs:1817-1855`) with `implements` of each
mutator. -/
def mutatorFor [Rand R] (env : MutEnv) : MutationType → Option (Mutator R)
  | .arithmeticBinaryOp => some ⟨.arithmeticBinaryOp, binaryOpMutable arithmeticOperators,
      binaryOpMutate env arithmeticOperators .arithmeticBinaryOp⟩
  | .logicalBinaryOp => some ⟨.logicalBinaryOp, binaryOpMutable logicalOperators,
      binaryOpMutate env logicalOperators .logicalBinaryOp⟩
  | .bitwiseBinaryOp => some ⟨.bitwiseBinaryOp, binaryOpMutable bitwiseOperators,
      binaryOpMutate env bitwiseOperators .bitwiseBinaryOp⟩
  | .bitshiftBinaryOp => some ⟨.bitshiftBinaryOp, binaryOpMutable bitshiftOperators,
      binaryOpMutate env bitshiftOperators .bitshiftBinaryOp⟩
  | .comparisonBinaryOp => some ⟨.comparisonBinaryOp, binaryOpMutable comparisonOperators,
      binaryOpMutate env comparisonOperators .comparisonBinaryOp⟩
  | .assignment => some ⟨.assignment, assignmentMutable, assignmentMutate env⟩
  | .deleteStatement => some ⟨.deleteStatement, deleteStatementMutable env, deleteStatementMutate env⟩
  | .functionCall => some ⟨.functionCall, functionCallMutable, functionCallMutate env⟩
  | .swapFunctionArguments => some ⟨.swapFunctionArguments, swapArgumentsMutable, swapArgumentsMutate env⟩
  | .ifStatement => some ⟨.ifStatement, ifMutable, ifMutate env⟩
  | .integer => some ⟨.integer, integerMutable, integerMutate env⟩
  | .swapOperatorArguments => some ⟨.swapOperatorArguments, swapOperandsMutable, swapOperandsMutate env⟩
  | .swapLines => some ⟨.swapLines, swapLinesMutable, swapLinesMutate env⟩
  | .unaryOp => some ⟨.unaryOp, unaryOpMutable, unaryOpMutate env⟩
  | .require => none
  | .uncheckedBlock => none
  | .elimDelegateCall => none

end Vyper
end Mutagenyx
