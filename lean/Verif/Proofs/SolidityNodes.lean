import Verif.Spec.SolidityFile
import Verif.Proofs.SolidityFile
import Verif.Props.SolidityExpr
import Verif.Props.SolidityLiteral
import Verif.Proofs.Json

/-!
# Nodes for statements, declarations and files

For everything that the descriptions of Solidity source text speak about there is a node that stands for it.
-/

namespace Mutagenyx
namespace SolPrint

open NodePrinter SolGrammar Printer

/-- A node that stands for the type. -/
def nodeTy : Ty → Json
  | .elem t => SolNode.mk "ElementaryTypeName" [("name", .str t)]
  | .addressPayable => SolNode.mk "ElementaryTypeName" [("name", .str "address"), ("stateMutability", .str "payable")]
  | .user p => SolNode.mk "UserDefinedTypeName" [("pathNode", SolNode.mk "IdentifierPath" [("name", .str (dotted p))])]
  | .mapping k v => SolNode.mk "Mapping" [("keyType", nodeTy k), ("valueType", nodeTy v)]
  | .array b => SolNode.mk "ArrayTypeName" [("baseType", nodeTy b)]
  | .fixed b n => SolNode.mk "ArrayTypeName" [("baseType", nodeTy b), ("length", node n)]

/-- A field, if there is a value. -/
def optNode (key : String) : Option Expr → List (String × Json)
  | none => []
  | some e => [(key, node e)]

/-- The field for the documentation. -/
def docNode : Option String → List (String × Json)
  | none => []
  | some t => [("documentation", SolNode.mk "StructuredDocumentation" [("text", .str t)])]

/-- A node that stands for the declaration. -/
def nodeVar (v : Var) (doc : Option String := none) : Json :=
  SolNode.mk "VariableDeclaration" (docNode doc ++ [("constant", .bool v.constant), ("indexed", .bool v.indexed),
    ("mutability", .str (if v.immutable then "immutable" else "mutable")), ("name", .str (v.name.getD "")),
    ("storageLocation", .str (v.location.getD "default")), ("typeName", nodeTy v.type),
    ("visibility", .str (v.visibility.getD "internal"))] ++ optNode "value" v.value)

/-- A node for a place in a declaration. -/
def nodePlace : Option Var → Json
  | none => .null
  | some v => nodeVar v

/-! ### Inline assembly -/

mutual
/-- A node that stands for the expression. -/
def nodeYulExpr : YulExpr → Json
  | .name p => SolNode.mk "YulIdentifier" [("name", .str (dotted p))]
  | .lit t => SolNode.mk "YulLiteral" [("kind", .str "number"), ("value", .str t)]
  | .str t => SolNode.mk "YulLiteral" [("kind", .str "string"), ("value", .str t)]
  | .call f args => SolNode.mk "YulFunctionCall"
    [("arguments", .arr (nodeYulExprs args)), ("functionName", SolNode.mk "YulIdentifier" [("name", .str f)])]
/-- Nodes that stand for the expressions. -/
def nodeYulExprs : List YulExpr → List Json
  | [] => []
  | e :: es => nodeYulExpr e :: nodeYulExprs es
end

/-- A declared name. -/
def nodeYulName (n : String) : Json := SolNode.mk "YulTypedName" [("name", .str n), ("type", .str "")]

/-- The field for the value of a declaration. -/
def yulValue : Option YulExpr → List (String × Json)
  | none => []
  | some e => [("value", nodeYulExpr e)]

/-- The value of a case. -/
def caseValue : Option YulExpr → Json
  | none => .str "default"
  | some e => nodeYulExpr e

mutual
/-- A node that stands for the statement. -/
def nodeYul : YulStmt → Json
  | .expr e => SolNode.mk "YulExpressionStatement" [("expression", nodeYulExpr e)]
  | .let_ vs value => SolNode.mk "YulVariableDeclaration" ([("variables", .arr (vs.map nodeYulName))] ++ yulValue value)
  | .assign vs e => SolNode.mk "YulAssignment"
    [("value", nodeYulExpr e), ("variableNames", .arr (vs.map fun p => nodeYulExpr (.name p)))]
  | .block ss => SolNode.mk "YulBlock" [("statements", .arr (nodeYuls ss))]
  | .if_ c ss => SolNode.mk "YulIf" [("body", SolNode.mk "YulBlock" [("statements", .arr (nodeYuls ss))]), ("condition", nodeYulExpr c)]
  | .switch e cs => SolNode.mk "YulSwitch" [("cases", .arr (nodeYuls cs)), ("expression", nodeYulExpr e)]
  | .case_ v ss => SolNode.mk "YulCase" [("body", SolNode.mk "YulBlock" [("statements", .arr (nodeYuls ss))]), ("value", caseValue v)]
  | .for_ pre c post body => SolNode.mk "YulForLoop" [("body", SolNode.mk "YulBlock" [("statements", .arr (nodeYuls body))]),
    ("condition", nodeYulExpr c), ("post", SolNode.mk "YulBlock" [("statements", .arr (nodeYuls post))]),
    ("pre", SolNode.mk "YulBlock" [("statements", .arr (nodeYuls pre))])]
  | .function n ps rs ss => SolNode.mk "YulFunctionDefinition" [("body", SolNode.mk "YulBlock" [("statements", .arr (nodeYuls ss))]),
    ("name", .str n), ("parameters", .arr (ps.map nodeYulName)), ("returnVariables", .arr (rs.map nodeYulName))]
  | .break_ => SolNode.mk "YulBreak" []
  | .continue_ => SolNode.mk "YulContinue" []
  | .leave => SolNode.mk "YulLeave" []
/-- Nodes that stand for the statements. -/
def nodeYuls : List YulStmt → List Json
  | [] => []
  | s :: ss => nodeYul s :: nodeYuls ss
end

/-! ### Statements and declarations -/

/-- The call of a `try`. -/
def nodeTry : Expr → Json
  | .call f args => SolNode.mk "FunctionCall"
    [("arguments", .arr (nodes args)), ("expression", node f), ("names", .arr []), ("tryCall", .bool true)]
  | e => node e

/-- A list of parameters. -/
def nodeParams (vs : List Var) : Json := SolNode.mk "ParameterList" [("parameters", .arr (vs.map fun v => nodeVar v))]

/-- The field for the parameters of a clause. -/
def clauseNode : Option (List Var) → List (String × Json)
  | none => []
  | some vs => [("parameters", nodeParams vs)]

/-- The parameters for the results of a `try`. -/
def resultNode : List Var → Option (List Var)
  | [] => none
  | vs => some vs

/-- The field for the step of a loop. -/
def stepNode : Option Expr → List (String × Json)
  | none => []
  | some e => [("loopExpression", SolNode.mk "ExpressionStatement" [("expression", node e)])]

/-- The field for the flags of inline assembly. -/
def flagsNode : List String → List (String × Json)
  | [] => []
  | fs => [("flags", .arr (fs.map .str))]

mutual
/-- A node that stands for the statement. -/
def nodeStmt : Stmt → Json
  | .expr e => SolNode.mk "ExpressionStatement" [("expression", node e)]
  | .decl vs value => SolNode.mk "VariableDeclarationStatement"
    ([("declarations", .arr (vs.map nodePlace))] ++ optNode "initialValue" value)
  | .block ss => SolNode.mk "Block" [("statements", .arr (nodeStmts ss))]
  | .unchecked ss => SolNode.mk "UncheckedBlock" [("statements", .arr (nodeStmts ss))]
  | .if_ c t => SolNode.mk "IfStatement" [("condition", node c), ("trueBody", nodeStmt t)]
  | .ifElse c t f => SolNode.mk "IfStatement"
    [("condition", node c), ("falseBody", nodeStmt f), ("trueBody", nodeStmt t)]
  | .while_ c b => SolNode.mk "WhileStatement" [("body", nodeStmt b), ("condition", node c)]
  | .doWhile b c => SolNode.mk "DoWhileStatement" [("body", nodeStmt b), ("condition", node c)]
  | .for_ i c s b => SolNode.mk "ForStatement"
    ([("body", nodeStmt b), ("condition", node c), ("initializationExpression", nodeStmt i)] ++ stepNode s)
  | .return_ e => SolNode.mk "Return" (optNode "expression" e)
  | .emit e => SolNode.mk "EmitStatement" [("eventCall", node e)]
  | .revert e => SolNode.mk "RevertStatement" [("errorCall", node e)]
  | .break_ => SolNode.mk "Break" []
  | .continue_ => SolNode.mk "Continue" []
  | .placeholder => SolNode.mk "PlaceholderStatement" []
  | .try_ e rs b cs => SolNode.mk "TryStatement" [("clauses", .arr (SolNode.mk "TryCatchClause"
      ([("block", SolNode.mk "Block" [("statements", .arr (nodeStmts b))]), ("errorName", .str "")] ++ clauseNode (resultNode rs)) ::
        nodeStmts cs)), ("externalCall", nodeTry e)]
  | .clause n ps b => SolNode.mk "TryCatchClause"
    ([("block", SolNode.mk "Block" [("statements", .arr (nodeStmts b))]), ("errorName", .str (n.getD ""))] ++ clauseNode ps)
  | .assembly fs ss => SolNode.mk "InlineAssembly"
    ([("AST", SolNode.mk "YulBlock" [("statements", .arr (nodeYuls ss))])] ++ flagsNode fs)
  | .comment t => SolNode.mk "Comment" [("text", .str t)]
/-- Nodes that stand for the statements. -/
def nodeStmts : List Stmt → List Json
  | [] => []
  | s :: ss => nodeStmt s :: nodeStmts ss
end

/-- A name. -/
def nodeName (n : List String) : Json := SolNode.mk "IdentifierPath" [("name", .str (dotted n))]

/-- Arguments, if there are any parentheses. -/
def argsNode : Option (List Expr) → List (String × Json)
  | none => []
  | some es => [("arguments", .arr (nodes es))]

/-- The use of a modifier. -/
def nodeUse (u : Use) : Json := SolNode.mk "ModifierInvocation" ([("modifierName", nodeName u.name)] ++ argsNode u.args)

/-- A base contract. -/
def nodeBase (u : Use) : Json := SolNode.mk "InheritanceSpecifier" ([("baseName", nodeName u.name)] ++ argsNode u.args)

/-- The field for `override`. -/
def overrideNode : Option (List (List String)) → List (String × Json)
  | none => []
  | some ns => [("overrides", SolNode.mk "OverrideSpecifier" [("overrides", .arr (ns.map nodeName))])]

/-- The field for the body. -/
def bodyNode : Option (List Stmt) → List (String × Json)
  | none => []
  | some ss => [("body", nodeStmt (.block ss))]

/-- The field for the visibility. -/
def visibilityNode : Option String → List (String × Json)
  | none => []
  | some v => [("visibility", .str v)]

/-- A node that stands for the function. -/
def nodeFn (f : Fn) (doc : Option String := none) : Json :=
  SolNode.mk "FunctionDefinition" (docNode doc ++ [("implemented", .bool f.body.isSome), ("kind", .str f.kind), ("modifiers", .arr (f.modifiers.map nodeUse)),
    ("name", .str (f.name.getD "")), ("parameters", nodeParams f.params), ("returnParameters", nodeParams f.returns),
    ("stateMutability", .str (f.mutability.getD "nonpayable")), ("virtual", .bool f.virtual)] ++
    (overrideNode f.override ++ (visibilityNode f.visibility ++ bodyNode f.body)))

/-- A node that stands for the member. -/
def nodeMember : Member → Json
  | .state v doc => nodeVar v doc
  | .fn f doc => nodeFn f doc
  | .modifier n ps v b doc => SolNode.mk "ModifierDefinition"
    (docNode doc ++ [("name", .str n), ("parameters", nodeParams ps), ("virtual", .bool v)] ++ bodyNode b)
  | .event n ps a => SolNode.mk "EventDefinition" [("anonymous", .bool a), ("name", .str n), ("parameters", nodeParams ps)]
  | .error n ps => SolNode.mk "ErrorDefinition" [("name", .str n), ("parameters", nodeParams ps)]
  | .struct n vs => SolNode.mk "StructDefinition" [("members", .arr (vs.map fun v => nodeVar v)), ("name", .str n)]
  | .enum n vs => SolNode.mk "EnumDefinition"
    [("members", .arr (vs.map fun t => SolNode.mk "EnumValue" [("name", .str t)])), ("name", .str n)]
  | .using_ l t g => SolNode.mk "UsingForDirective" [("global", .bool g), ("libraryName", nodeName l), ("typeName", nodeTy t)]
  | .operators fs t g => SolNode.mk "UsingForDirective" [("functionList", .arr (fs.map fun f =>
      Json.obj [("definition", nodeName f.1), ("operator", .str f.2)])), ("global", .bool g), ("typeName", nodeTy t)]
  | .type n t => SolNode.mk "UserDefinedValueTypeDefinition" [("name", .str n), ("underlyingType", nodeTy t)]
  | .comment t => SolNode.mk "Comment" [("text", .str t)]

/-- A node that stands for the contract. -/
def nodeContract (c : Contract) : Json :=
  SolNode.mk "ContractDefinition" (docNode c.doc ++ [("abstract", .bool c.abstract_), ("baseContracts", .arr (c.bases.map nodeBase)),
    ("contractKind", .str c.kind), ("name", .str c.name), ("nodes", .arr (c.members.map nodeMember))])

/-- The optional words are not those that stand for their absence. -/
structure Var.Usual (v : Var) : Prop where
  visibility : v.visibility ≠ some "internal"
  location : ∀ l, v.location = some l → l ∈ ["memory", "storage", "calldata"]
  name : v.name ≠ some ""

/-- The last value for the key, or `acc`. -/
def lookup (k : String) (acc : Option Json) : List (String × Json) → Option Json
  | [] => acc
  | (l, v) :: fs => lookup k (if l = k then some v else acc) fs

theorem lookup_eq (k : String) (fs : List (String × Json)) (kvs : List (String × Json)) :
    Json.objGet k (fs.foldl (fun acc kv => Json.objInsert kv.1 kv.2 acc) kvs) = lookup k (Json.objGet k kvs) fs := by
  induction fs generalizing kvs with
  | nil => rfl
  | cons x fs ih =>
    obtain ⟨l, v⟩ := x
    rw [List.foldl_cons, ih, Json.objGet_objInsert, lookup]

theorem field_mk (k t : String) (fs : List (String × Json)) :
    Json.field? k (SolNode.mk t fs) = lookup k none (("nodeType", .str t) :: fs) := lookup_eq k _ []

theorem get_mk {k : String} (t : String) (fs : List (String × Json)) (hk : Json.PlainKey k) :
    Json.get? k (SolNode.mk t fs) = lookup k none (("nodeType", .str t) :: fs) := by
  unfold SolNode.mk Json.ofFields
  rw [Json.get?_obj hk, lookup_eq]
  rfl

theorem str_mk {k : String} (t : String) (fs : List (String × Json)) (hk : Json.PlainKey k) :
    Json.getStrForKey k (SolNode.mk t fs) = (lookup k none (("nodeType", .str t) :: fs)).bind Json.asStr := by
  rw [Json.getStrForKey, get_mk t fs hk]
theorem bool_mk {k : String} (t : String) (fs : List (String × Json)) (hk : Json.PlainKey k) :
    Json.getBoolForKey k (SolNode.mk t fs) = (lookup k none (("nodeType", .str t) :: fs)).bind Json.asBool := by
  rw [Json.getBoolForKey, get_mk t fs hk]
theorem array_mk {k : String} (t : String) (fs : List (String × Json)) (hk : Json.PlainKey k) :
    Json.getArrayForKey k (SolNode.mk t fs) = (lookup k none (("nodeType", .str t) :: fs)).bind Json.asArray := by
  rw [Json.getArrayForKey, get_mk t fs hk]

theorem isA_mk (t : String) (fs : List (String × Json)) (h : lookup "nodeType" (some (.str t)) fs = some (.str t)) :
    IsA t (SolNode.mk t fs) := by
  simp [IsA, str_mk t fs (by decide : Json.PlainKey "nodeType"), lookup, h, Json.asStr]

/-- Look up a field in a node. -/
macro "fields" : tactic => `(tactic| simp (disch := decide) [field_mk, str_mk, bool_mk, array_mk, lookup, Json.asStr, Json.asBool, Json.asArray, IsA])

theorem shows_nodeTy : (t : Ty) → ShowsTy t (nodeTy t)
  | .elem t => by simp only [ShowsTy, nodeTy]; fields
  | .addressPayable => by simp only [ShowsTy, nodeTy]; fields
  | .user t => by simp only [ShowsTy, nodeTy]; fields
  | .mapping k v => by
    have h1 := shows_nodeTy k
    have h2 := shows_nodeTy v
    simp only [ShowsTy, nodeTy]
    refine ⟨by fields, ⟨_, by fields, h1⟩, _, by fields, h2⟩
  | .array b => by
    have h1 := shows_nodeTy b
    simp only [ShowsTy, nodeTy]
    refine ⟨by fields, ⟨_, by fields, h1⟩, by fields⟩
  | .fixed b n => by
    have h1 := shows_nodeTy b
    simp only [ShowsTy, nodeTy]
    refine ⟨by fields, ⟨_, by fields, h1⟩, _, by fields, shows_node n⟩

theorem filter_getD {good : String → Bool} {d : String} {o : Option String} (hd : good d = false)
    (h : ∀ t, o = some t → good t = true) : Option.filter good (some (o.getD d)) = o := by
  cases o with
  | none => simp [Option.filter, hd]
  | some t => simp [Option.filter, h t rfl]

theorem shows_opt {t key : String} {fs : List (String × Json)} {o : Option Expr} (hk : key ≠ "nodeType")
    (h : lookup key none fs = none) : ShowsOpt key (SolNode.mk t (fs ++ optNode key o)) o := by
  have happ : ∀ acc gs, lookup key acc (fs ++ gs) = lookup key (lookup key acc fs) gs := by
    intro acc gs
    induction fs generalizing acc with
    | nil => rfl
    | cons x fs ih =>
      obtain ⟨l, v⟩ := x
      simp only [List.cons_append, lookup]
      by_cases hl : l = key
      · subst hl
        simp only [lookup, if_true] at h
        exact absurd h (by
          clear ih
          have : ∀ (fs : List (String × Json)) w, lookup l (some w) fs ≠ none := by
            intro fs
            induction fs with
            | nil => intro w hw; cases hw
            | cons y fs ih =>
              obtain ⟨m, u⟩ := y
              intro w
              simp only [lookup]
              split
              · exact ih u
              · exact ih w
          exact this fs v)
      · simp only [lookup, hl, if_false] at h ⊢
        exact ih h acc
  cases o with
  | none =>
    simp only [ShowsOpt, optNode, field_mk, List.append_nil]
    simpa [lookup, Ne.symm hk] using h
  | some e =>
    refine ⟨node e, ?_, shows_node e⟩
    simp [optNode, field_mk, lookup, happ]

theorem shows_nodeVar (v : Var) (h : Var.Usual v) (doc : Option String := none) : ShowsVar v (nodeVar v doc) doc := by
  obtain ⟨h1, h2, h3⟩ := h
  have hv := shows_opt (t := "VariableDeclaration") (fs := docNode doc ++ [("constant", .bool v.constant), ("indexed", .bool v.indexed),
    ("mutability", .str (if v.immutable then "immutable" else "mutable")), ("name", .str (v.name.getD "")),
    ("storageLocation", .str (v.location.getD "default")), ("typeName", nodeTy v.type),
    ("visibility", .str (v.visibility.getD "internal"))]) (o := v.value) (key := "value") (by decide) (by cases doc <;> simp [lookup, docNode])
  obtain ⟨ty, vis, con, idx, imm, loc, name, value⟩ := v
  simp only at h1 h2 h3
  have e1 := filter_getD (good := fun x => !decide (x = "internal")) (d := "internal") (o := vis) (by decide)
    (fun t ht => by subst ht; simpa using h1)
  have e2 := filter_getD (good := fun x => decide (x = "memory") || (decide (x = "storage") || decide (x = "calldata"))) (d := "default")
    (o := loc) (by decide) (fun t ht => by simpa using h2 t ht)
  have e3 := filter_getD (good := fun x => !decide (x = "")) (d := "") (o := name) (by decide)
    (fun t ht => by subst ht; simpa using h3)
  refine ⟨?_, ?_, ?_, ?_, ?_, ?_, ?_, ?_, ?_, ?_, hv⟩
  all_goals cases doc <;> cases value <;> simp only [nodeVar, optNode, docNode, ShowsDoc]
  all_goals fields
  all_goals first | exact shows_nodeTy ty | exact e1 | exact e2 | exact e3

theorem shows_vars : (vs : List Var) → (∀ v ∈ vs, Var.Usual v) → ShowVars vs (vs.map fun v => nodeVar v)
  | [], _ => trivial
  | v :: vs, h => ⟨shows_nodeVar v (h v (List.mem_cons_self ..)), shows_vars vs fun w hw => h w (List.mem_cons_of_mem _ hw)⟩

theorem shows_decls : (vs : List (Option Var)) → (∀ v, some v ∈ vs → Var.Usual v) → ShowDecls vs (vs.map nodePlace)
  | [], _ => trivial
  | none :: vs, h => ⟨rfl, shows_decls vs fun w hw => h w (List.mem_cons_of_mem _ hw)⟩
  | some v :: vs, h =>
    ⟨shows_nodeVar v (h v (List.mem_cons_self ..)), shows_decls vs fun w hw => h w (List.mem_cons_of_mem _ hw)⟩

mutual
/-- The declarations in the statement are usual. -/
def stmtUsual : Stmt → Prop
  | .decl vs _ => ∀ v, some v ∈ vs → Var.Usual v
  | .block ss => stmtsUsual ss
  | .unchecked ss => stmtsUsual ss
  | .if_ _ t => stmtUsual t
  | .ifElse _ t f => stmtUsual t ∧ stmtUsual f
  | .while_ _ b => stmtUsual b
  | .doWhile b _ => stmtUsual b
  | .for_ i _ _ b => stmtUsual i ∧ stmtUsual b
  | .try_ e rs b cs => (∃ f args, e = .call f args) ∧ (∀ v ∈ rs, Var.Usual v) ∧ stmtsUsual b ∧ stmtsUsual cs
  | .clause n ps b => n ≠ some "" ∧ (∀ vs, ps = some vs → ∀ v ∈ vs, Var.Usual v) ∧ stmtsUsual b
  | _ => True
/-- The declarations in the statements are usual. -/
def stmtsUsual : List Stmt → Prop
  | [] => True
  | s :: ss => stmtUsual s ∧ stmtsUsual ss
end

mutual
theorem shows_yulExpr : (e : YulExpr) → ShowsYulExpr e (nodeYulExpr e)
  | .name p => by simp only [ShowsYulExpr, nodeYulExpr]; fields
  | .lit t => by simp only [ShowsYulExpr, nodeYulExpr]; fields
  | .str t => by simp only [ShowsYulExpr, nodeYulExpr]; fields
  | .call f args => by
    simp only [ShowsYulExpr, nodeYulExpr]
    exact ⟨by fields, ⟨SolNode.mk "YulIdentifier" [("name", .str f)], by fields, by fields, by fields⟩, _, by fields, shows_yulExprs args⟩
theorem shows_yulExprs : (es : List YulExpr) → ShowYulExprs es (nodeYulExprs es)
  | [] => by simp [ShowYulExprs, nodeYulExprs]
  | e :: es => by
    simp only [ShowYulExprs, nodeYulExprs]
    exact ⟨shows_yulExpr e, shows_yulExprs es⟩
end

theorem shows_yulName (n : String) : ShowsYulName n (nodeYulName n) := by
  unfold ShowsYulName nodeYulName
  fields

theorem shows_yulNames (ns : List String) : Pairwise₂ ShowsYulName ns (ns.map nodeYulName) := by
  induction ns with
  | nil => trivial
  | cons n ns ih => exact ⟨shows_yulName n, ih⟩

theorem yulExpr_obj : (e : YulExpr) → ∃ kvs, nodeYulExpr e = .obj kvs
  | .name _ => ⟨_, by rw [nodeYulExpr]; rfl⟩
  | .lit _ => ⟨_, by rw [nodeYulExpr]; rfl⟩
  | .str _ => ⟨_, by rw [nodeYulExpr]; rfl⟩
  | .call _ _ => ⟨_, by rw [nodeYulExpr]; rfl⟩

theorem yulBlock_of {key : String} {j : Json} {ss : List YulStmt} {js : List Json}
    (hf : Json.field? key j = some (SolNode.mk "YulBlock" [("statements", .arr js)])) (h : ShowYuls ss js) :
    ∃ v, Json.field? key j = some v ∧ IsA "YulBlock" v ∧ ∃ js, Json.field? "statements" v = some (.arr js) ∧ ShowYuls ss js :=
  ⟨_, hf, by fields, js, by fields, h⟩

theorem block_of {key : String} {j : Json} {ss : List Stmt} {js : List Json}
    (hf : Json.field? key j = some (SolNode.mk "Block" [("statements", .arr js)])) (h : ShowStmts ss js) :
    ∃ v, Json.field? key j = some v ∧ IsA "Block" v ∧ ∃ js, Json.field? "statements" v = some (.arr js) ∧ ShowStmts ss js :=
  ⟨_, hf, by fields, js, by fields, h⟩

mutual
theorem shows_yul : (st : YulStmt) → ShowsYul st (nodeYul st)
  | .expr e => by
    simp only [ShowsYul, nodeYul]
    refine ⟨by fields, [], nodeYulExpr e, [("nodeType", .str "YulExpressionStatement")], ?_, shows_yulExpr e, by simp⟩
    simp [SolNode.mk, Json.ofFields, Json.objInsert]
  | .let_ vs none => by
    simp only [ShowsYul, nodeYul, yulValue]
    exact ⟨by fields, ⟨_, by fields, shows_yulNames vs⟩, by fields⟩
  | .let_ vs (some e) => by
    simp only [ShowsYul, nodeYul, yulValue]
    exact ⟨by fields, ⟨_, by fields, shows_yulNames vs⟩, _, by fields, shows_yulExpr e⟩
  | .assign vs e => by
    simp only [ShowsYul, nodeYul]
    refine ⟨by fields, ⟨vs.map fun p => nodeYulExpr (.name p), by fields, ?_⟩, _, by fields, shows_yulExpr e⟩
    clear e
    induction vs with
    | nil => trivial
    | cons p vs ih => exact ⟨by have := shows_yulExpr (.name p); simpa only [ShowsYulExpr] using this, ih⟩
  | .block ss => by
    simp only [ShowsYul, nodeYul]
    exact ⟨by fields, _, by fields, shows_yuls ss⟩
  | .if_ c ss => by
    simp only [ShowsYul, nodeYul]
    exact ⟨by fields, ⟨_, by fields, shows_yulExpr c⟩, yulBlock_of (by fields) (shows_yuls ss)⟩
  | .switch e cs => by
    simp only [ShowsYul, nodeYul]
    exact ⟨by fields, ⟨_, by fields, shows_yulExpr e⟩, _, by fields, shows_yuls cs⟩
  | .case_ none ss => by
    simp only [ShowsYul, nodeYul, caseValue]
    exact ⟨by fields, by fields, yulBlock_of (by fields) (shows_yuls ss)⟩
  | .case_ (some e) ss => by
    simp only [ShowsYul, nodeYul, caseValue]
    obtain ⟨kvs, hk⟩ := yulExpr_obj e
    exact ⟨by fields, ⟨kvs, by rw [hk]; fields, hk ▸ shows_yulExpr e⟩, yulBlock_of (by fields) (shows_yuls ss)⟩
  | .for_ pre c post body => by
    simp only [ShowsYul, nodeYul]
    exact ⟨by fields, yulBlock_of (by fields) (shows_yuls pre), ⟨_, by fields, shows_yulExpr c⟩,
      yulBlock_of (by fields) (shows_yuls post), yulBlock_of (by fields) (shows_yuls body)⟩
  | .function n ps rs ss => by
    simp only [ShowsYul, nodeYul]
    refine ⟨by fields, by fields, ?_, ?_, yulBlock_of (by fields) (shows_yuls ss)⟩
    · cases ps with
      | nil => exact Or.inr (by fields)
      | cons p ps => exact ⟨_, by fields, shows_yulNames (p :: ps)⟩
    · cases rs with
      | nil => exact Or.inr (by fields)
      | cons r rs => exact ⟨_, by fields, shows_yulNames (r :: rs)⟩
  | .break_ => by simp only [ShowsYul, nodeYul]; fields
  | .continue_ => by simp only [ShowsYul, nodeYul]; fields
  | .leave => by simp only [ShowsYul, nodeYul]; fields
theorem shows_yuls : (ss : List YulStmt) → ShowYuls ss (nodeYuls ss)
  | [] => by simp [ShowYuls, nodeYuls]
  | s :: ss => by
    simp only [ShowYuls, nodeYuls]
    exact ⟨shows_yul s, shows_yuls ss⟩
end

theorem shows_params {vs : List Var} (h : ∀ v ∈ vs, Var.Usual v) : ShowsParams vs (nodeParams vs) :=
  ⟨by unfold nodeParams; fields, _, by unfold nodeParams; fields, shows_vars vs h⟩

mutual
theorem shows_nodeStmt : (st : Stmt) → stmtUsual st → ShowsStmt st (nodeStmt st)
  | .expr e, _ => by
    simp only [ShowsStmt, nodeStmt]
    exact ⟨by fields, _, by fields, shows_node e⟩
  | .decl vs value, h => by
    simp only [ShowsStmt, nodeStmt]
    simp only [stmtUsual] at h
    exact ⟨by cases value <;> (simp only [optNode]; fields), ⟨_, by cases value <;> (simp only [optNode]; fields), shows_decls vs h⟩,
      shows_opt (by decide) (by simp [lookup])⟩
  | .block ss, h => by
    simp only [ShowsStmt, nodeStmt]
    simp only [stmtUsual] at h
    exact ⟨by fields, _, by fields, shows_nodeStmts ss h⟩
  | .unchecked ss, h => by
    simp only [ShowsStmt, nodeStmt]
    simp only [stmtUsual] at h
    exact ⟨by fields, _, by fields, shows_nodeStmts ss h⟩
  | .if_ c t, h => by
    simp only [ShowsStmt, nodeStmt]
    simp only [stmtUsual] at h
    exact ⟨by fields, ⟨_, by fields, shows_node c⟩, ⟨_, by fields, shows_nodeStmt t h⟩, by fields⟩
  | .ifElse c t f, h => by
    simp only [ShowsStmt, nodeStmt]
    simp only [stmtUsual] at h
    exact ⟨by fields, ⟨_, by fields, shows_node c⟩, ⟨_, by fields, shows_nodeStmt t h.1⟩, _, by fields, shows_nodeStmt f h.2⟩
  | .while_ c b, h => by
    simp only [ShowsStmt, nodeStmt]
    simp only [stmtUsual] at h
    exact ⟨by fields, ⟨_, by fields, shows_node c⟩, _, by fields, shows_nodeStmt b h⟩
  | .doWhile b c, h => by
    simp only [ShowsStmt, nodeStmt]
    simp only [stmtUsual] at h
    exact ⟨by fields, ⟨_, by fields, shows_node c⟩, _, by fields, shows_nodeStmt b h⟩
  | .for_ i c none b, h => by
    simp only [ShowsStmt, nodeStmt, stepNode]
    simp only [stmtUsual] at h
    exact ⟨by fields, ⟨_, by fields, shows_nodeStmt i h.1⟩, ⟨_, by fields, shows_node c⟩, by fields, _, by fields, shows_nodeStmt b h.2⟩
  | .for_ i c (some s) b, h => by
    simp only [ShowsStmt, nodeStmt, stepNode]
    simp only [stmtUsual] at h
    exact ⟨by fields, ⟨_, by fields, shows_nodeStmt i h.1⟩, ⟨_, by fields, shows_node c⟩,
      ⟨SolNode.mk "ExpressionStatement" [("expression", node s)], by fields, by fields, _, by fields, shows_node s⟩, _, by fields, shows_nodeStmt b h.2⟩
  | .return_ e, _ => by
    simp only [ShowsStmt, nodeStmt]
    exact ⟨by cases e <;> (simp only [optNode]; fields), shows_opt (fs := []) (by decide) rfl⟩
  | .emit e, _ => by
    simp only [ShowsStmt, nodeStmt]
    exact ⟨by fields, _, by fields, shows_node e⟩
  | .revert e, _ => by
    simp only [ShowsStmt, nodeStmt]
    exact ⟨by fields, _, by fields, shows_node e⟩
  | .break_, _ => by simp only [ShowsStmt, nodeStmt]; fields
  | .continue_, _ => by simp only [ShowsStmt, nodeStmt]; fields
  | .placeholder, _ => by simp only [ShowsStmt, nodeStmt]; fields
  | .try_ e rs b cs, h => by
    simp only [ShowsStmt, nodeStmt]
    simp only [stmtUsual] at h
    obtain ⟨⟨f, args, rfl⟩, h1, h2, h3⟩ := h
    refine ⟨by fields, ⟨nodeTry (.call f args), by fields, ?_⟩, SolNode.mk "TryCatchClause"
      ([("block", SolNode.mk "Block" [("statements", .arr (nodeStmts b))]), ("errorName", .str "")] ++ clauseNode (resultNode rs)),
      nodeStmts cs, by fields, shows_nodeStmts cs h3, ?_⟩
    · simp only [nodeTry]
      have := shows_node (.call f args)
      simp only [Shows, node] at this
      obtain ⟨_, ⟨v, h1, h2⟩, ⟨vs, h3, h4⟩, _⟩ := this
      refine ⟨by fields, ⟨v, ?_, h2⟩, ⟨vs, ?_, h4⟩, by fields, by fields⟩
      · rw [← h1]; fields
      · rw [← h3]; fields
    · cases rs with
      | nil =>
        simp only [resultNode, clauseNode]
        exact ⟨by fields, by fields, by fields, block_of (by fields) (shows_nodeStmts b h2)⟩
      | cons r rs =>
        simp only [resultNode, clauseNode]
        exact ⟨by fields, by fields, ⟨_, by fields, shows_params h1⟩, block_of (by fields) (shows_nodeStmts b h2)⟩
  | .clause n ps b, h => by
    simp only [ShowsStmt, nodeStmt]
    simp only [stmtUsual] at h
    obtain ⟨h1, h2, h3⟩ := h
    have e1 := filter_getD (good := fun x => !decide (x = "")) (d := "") (o := n) (by decide)
      (fun t ht => by subst ht; simpa using h1)
    cases ps with
    | none =>
      simp only [clauseNode]
      exact ⟨by fields, by fields; exact e1, by fields, block_of (by fields) (shows_nodeStmts b h3)⟩
    | some vs =>
      simp only [clauseNode]
      exact ⟨by fields, by fields; exact e1, ⟨_, by fields, shows_params (h2 vs rfl)⟩, block_of (by fields) (shows_nodeStmts b h3)⟩
  | .assembly [] ss, _ => by
    simp only [ShowsStmt, nodeStmt, flagsNode]
    exact ⟨by fields, by fields, by fields, yulBlock_of (by fields) (shows_yuls ss)⟩
  | .assembly (f :: fs) ss, _ => by
    simp only [ShowsStmt, nodeStmt, flagsNode]
    exact ⟨by fields, by fields, by fields, yulBlock_of (by fields) (shows_yuls ss)⟩
  | .comment t, _ => by
    simp only [ShowsStmt, nodeStmt]
    exact ⟨by fields, by fields, by fields⟩
theorem shows_nodeStmts : (ss : List Stmt) → stmtsUsual ss → ShowStmts ss (nodeStmts ss)
  | [], _ => by simp [ShowStmts, nodeStmts]
  | s :: ss, h => by
    simp only [stmtsUsual] at h
    simp only [ShowStmts, nodeStmts]
    exact ⟨shows_nodeStmt s h.1, shows_nodeStmts ss h.2⟩
end

/-- The parts of the function are usual. -/
structure fnUsual (f : Fn) : Prop where
  kind : (f.kind = "function" ∧ f.name ≠ none) ∨ (f.kind ∈ ["constructor", "receive", "fallback"] ∧ f.name = none)
  params : ∀ v ∈ f.params, Var.Usual v
  mutability : f.mutability ≠ some "nonpayable"
  returns : ∀ v ∈ f.returns, Var.Usual v
  body : ∀ ss, f.body = some ss → stmtsUsual ss

theorem shows_name (n : List String) : ShowsName n (nodeName n) := by
  unfold ShowsName nodeName
  fields

theorem shows_names (ns : List (List String)) : Pairwise₂ ShowsName ns (ns.map nodeName) := by
  induction ns with
  | nil => trivial
  | cons n ns ih => exact ⟨shows_name n, ih⟩

theorem shows_use (u : Use) : ShowsUse u (nodeUse u) := by
  unfold nodeUse ShowsUse
  cases h : u.args with
  | none =>
    simp only [argsNode, ShowsArgs]
    exact ⟨by fields, ⟨_, by fields, shows_name _⟩, by fields, by fields⟩
  | some es =>
    simp only [argsNode, ShowsArgs]
    exact ⟨by fields, ⟨_, by fields, shows_name _⟩, _, by fields, by fields, shows_nodes es⟩

theorem shows_base (u : Use) : ShowsBase u (nodeBase u) := by
  unfold nodeBase ShowsBase
  cases h : u.args with
  | none =>
    simp only [argsNode, ShowsArgs]
    exact ⟨by fields, ⟨_, by fields, shows_name _⟩, by fields, by fields⟩
  | some es =>
    simp only [argsNode, ShowsArgs]
    exact ⟨by fields, ⟨_, by fields, shows_name _⟩, _, by fields, by fields, shows_nodes es⟩

theorem shows_uses (us : List Use) : Pairwise₂ ShowsUse us (us.map nodeUse) := by
  induction us with
  | nil => trivial
  | cons u us ih => exact ⟨shows_use u, ih⟩

theorem shows_bases (us : List Use) : Pairwise₂ ShowsBase us (us.map nodeBase) := by
  induction us with
  | nil => trivial
  | cons u us ih => exact ⟨shows_base u, ih⟩

theorem shows_nodeFn (f : Fn) (h : fnUsual f) (doc : Option String := none) : ShowsFn f (nodeFn f doc) doc := by
  obtain ⟨h1, h2, h3, h4, h5⟩ := h
  obtain ⟨kind, name, params, vis, virt, mutab, over, mods, rets, body⟩ := f
  simp only at h1 h2 h3 h4 h5
  have e1 := filter_getD (good := fun x => !decide (x = "nonpayable")) (d := "nonpayable") (o := mutab) (by decide)
    (fun t ht => by subst ht; simpa using h3)
  have e2 := shows_params h2
  have e3 := shows_params h4
  have e4 : ∃ js, (nodeParams rets).getArrayForKey "parameters" = some js ∧ js.length = rets.length :=
    ⟨rets.map fun v => nodeVar v, by unfold nodeParams; fields, by simp⟩
  cases doc <;> cases vis <;> cases over <;> cases body <;> constructor
  all_goals simp only [nodeFn, overrideNode, visibilityNode, bodyNode, ShowsOverride, ShowsBody, docNode, ShowsDoc]
  all_goals try fields
  all_goals first
    | exact e1 | exact e2 | exact ⟨e3, e4⟩ | exact shows_uses mods | exact shows_names _ | exact shows_nodeStmt (.block _) (by simpa [stmtUsual] using h5 _ rfl)
    | (rcases h1 with ⟨rfl, h1⟩ | ⟨h1, rfl⟩
       · cases name with
         | none => exact absurd rfl h1
         | some n => simp
       · simpa using h1)
    | skip

/-- The parts of the member are usual. -/
def memberUsual : Member → Prop
  | .state v _ => Var.Usual v
  | .fn f _ => fnUsual f
  | .modifier _ ps _ b _ => (∀ v ∈ ps, Var.Usual v) ∧ ∀ ss, b = some ss → stmtsUsual ss
  | .event _ ps _ => ∀ v ∈ ps, Var.Usual v
  | .error _ ps => ∀ v ∈ ps, Var.Usual v
  | .struct _ vs => ∀ v ∈ vs, Var.Usual v
  | _ => True

theorem shows_nodeMember : (m : Member) → memberUsual m → ShowsMember m (nodeMember m)
  | .state v doc, h => shows_nodeVar v h doc
  | .fn f doc, h => shows_nodeFn f h doc
  | .modifier n ps v b doc, h => by
    simp only [ShowsMember, nodeMember]
    have hb : ∀ ss, b = some ss → ShowsStmt (.block ss) (nodeStmt (.block ss)) := fun ss hs =>
      shows_nodeStmt (.block ss) (by simpa [stmtUsual] using h.2 ss hs)
    have hp := shows_params h.1
    cases doc <;> cases b
    all_goals simp only [docNode, bodyNode, ShowsDoc, ShowsBody]
    all_goals refine ⟨by fields, by fields, by fields, ⟨_, by fields, hp⟩, by fields, by fields, ?_⟩
    all_goals first
      | exact ⟨_, by fields, hb _ rfl⟩
      | fields
  | .event n ps a, h => by
    simp only [ShowsMember, nodeMember]
    exact ⟨by fields, by fields, ⟨_, by fields, shows_params h⟩, by fields⟩
  | .error n ps, h => by
    simp only [ShowsMember, nodeMember]
    exact ⟨by fields, by fields, _, by fields, shows_params h⟩
  | .struct n vs, h => by
    simp only [ShowsMember, nodeMember]
    exact ⟨by fields, by fields, _, by fields, shows_vars vs h⟩
  | .enum n vs, _ => by
    simp only [ShowsMember, nodeMember]
    refine ⟨by fields, by fields, vs.map fun t => SolNode.mk "EnumValue" [("name", .str t)], by fields, ?_⟩
    induction vs with
    | nil => trivial
    | cons v vs ih => exact ⟨⟨by fields, by fields⟩, ih trivial⟩
  | .using_ l t g, _ => by
    simp only [ShowsMember, nodeMember]
    exact ⟨by fields, ⟨_, by fields, shows_name l⟩, by fields, ⟨_, by fields, shows_nodeTy t⟩, by fields⟩
  | .operators fs t g, _ => by
    simp only [ShowsMember, nodeMember]
    refine ⟨by fields, by fields, ⟨fs.map fun f => Json.obj [("definition", nodeName f.1), ("operator", .str f.2)], by fields, ?_⟩,
      ⟨_, by fields, shows_nodeTy t⟩, by fields⟩
    induction fs with
    | nil => trivial
    | cons f fs ih => exact ⟨⟨rfl, ⟨_, rfl, shows_name f.1⟩, rfl⟩, ih trivial⟩
  | .type n t, _ => by
    simp only [ShowsMember, nodeMember]
    exact ⟨by fields, by fields, _, by fields, shows_nodeTy t⟩
  | .comment t, _ => by
    simp only [ShowsMember, nodeMember]
    exact ⟨by fields, by fields, by fields⟩

theorem shows_nodeMembers : (ms : List Member) → (∀ m ∈ ms, memberUsual m) → Pairwise₂ ShowsMember ms (ms.map nodeMember)
  | [], _ => trivial
  | m :: ms, h => ⟨shows_nodeMember m (h m (List.mem_cons_self ..)), shows_nodeMembers ms fun x hx => h x (List.mem_cons_of_mem _ hx)⟩

theorem shows_nodeContract (c : Contract) (h : ∀ m ∈ c.members, memberUsual m) : ShowsContract c (nodeContract c) := by
  obtain ⟨doc, abs, kind, name, bases, members⟩ := c
  cases doc <;> constructor
  all_goals simp only [nodeContract, docNode, ShowsDoc]
  all_goals try fields
  all_goals first
    | exact shows_bases _
    | exact shows_nodeMembers _ h


/-! ### Files -/

/-- The fields for another name. -/
def aliasNode (key : String) : Option String → List (String × Json)
  | none => []
  | some n => [(key, .str n)]

/-- A node that stands for the import. -/
def nodeImport (i : Import) : Json :=
  SolNode.mk "ImportDirective" [("file", .str i.file), ("symbolAliases", .arr (i.symbols.map fun s =>
    Json.obj ([("foreign", SolNode.mk "Identifier" [("name", .str s.1)])] ++ aliasNode "local" s.2))),
    ("unitAlias", .str (i.alias_.getD ""))]

/-- A node that stands for the part of a file. -/
def nodeItem : Item → Json
  | .pragma vs => SolNode.mk "PragmaDirective" [("literals", .arr (("solidity" :: vs.flatMap Version.pieces).map Json.str))]
  | .import_ i => nodeImport i
  | .contract c => nodeContract c
  | .member x => nodeMember x

/-- A node that stands for the file. -/
def nodeFile (f : SourceFile) : Json :=
  SolNode.mk "SourceUnit" (aliasNode "license" f.license ++ [("nodes", .arr (f.items.map nodeItem))])

theorem shows_import (i : Import) (h : i.alias_ ≠ some "") : ShowsImport i (nodeImport i) := by
  obtain ⟨file, al, ss⟩ := i
  have e1 := filter_getD (good := fun x => !decide (x = "")) (d := "") (o := al) (by decide)
    (fun t ht => by subst ht; simpa using h)
  unfold nodeImport ShowsImport
  refine ⟨by fields, by fields, by fields; exact e1, ss.map fun s =>
    Json.obj ([("foreign", SolNode.mk "Identifier" [("name", .str s.1)])] ++ aliasNode "local" s.2), by fields, ?_⟩
  clear e1 h
  induction ss with
  | nil => trivial
  | cons s ss ih =>
    obtain ⟨s1, s2⟩ := s
    refine ⟨⟨?_, ⟨SolNode.mk "Identifier" [("name", .str s1)], ?_, ?_⟩, ?_⟩, ih⟩
    · cases s2 <;> rfl
    · cases s2 <;> rfl
    · unfold ShowsName
      simp only [dotted]
      fields
    · cases s2 <;> rfl

/-- The parts of the part of a file are usual. -/
def itemUsual : Item → Prop
  | .pragma _ => True
  | .import_ i => i.alias_ ≠ some ""
  | .contract c => ∀ m ∈ c.members, memberUsual m
  | .member x => memberUsual x

theorem shows_item : (x : Item) → itemUsual x → ShowsItem x (nodeItem x)
  | .pragma vs, _ => by
    simp only [ShowsItem, nodeItem]
    exact ⟨by fields, by fields⟩
  | .import_ i, h => shows_import i h
  | .contract c, h => shows_nodeContract c h
  | .member x, h => shows_nodeMember x h

theorem shows_items : (xs : List Item) → (∀ x ∈ xs, itemUsual x) → Pairwise₂ ShowsItem xs (xs.map nodeItem)
  | [], _ => trivial
  | x :: xs, h => ⟨shows_item x (h x (List.mem_cons_self ..)), shows_items xs fun y hy => h y (List.mem_cons_of_mem _ hy)⟩

theorem shows_file (f : SourceFile) (h : ∀ x ∈ f.items, itemUsual x) : ShowsFile f (nodeFile f) := by
  obtain ⟨l, xs⟩ := f
  have hx := shows_items xs h
  unfold ShowsFile nodeFile
  cases l <;> simp only [aliasNode] <;> exact ⟨by fields, by fields, _, by fields, hx⟩

end SolPrint
end Mutagenyx
