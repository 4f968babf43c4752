import Verif.Spec.Yul

/-!
# Solidity statements and declarations: their tokens, and their nodes in the AST

The tokens are written from the grammar of the language, without reference to the printer.
-/

namespace Mutagenyx
namespace SolGrammar

/-! ### Statements and declarations -/

/-- Types. -/
inductive Ty where
  | elem (name : String)
  | addressPayable
  | user (path : List String)
  | mapping (key value : Ty)
  | array (base : Ty)
  | fixed (base : Ty) (length : Expr)
  deriving Repr

/-- Declarations of state variables, local variables, parameters and members of structs. -/
structure Var where
  type : Ty
  visibility : Option String := none
  constant : Bool := false
  indexed : Bool := false
  immutable : Bool := false
  location : Option String := none
  name : Option String
  value : Option Expr := none
  deriving Repr

/-- Statements.  A `clause` only stands in a `try_`, behind `catch`.  A `comment` is a comment among statements. -/
inductive Stmt where
  | expr (e : Expr)
  | decl (vs : List (Option Var)) (value : Option Expr)
  | block (ss : List Stmt)
  | unchecked (ss : List Stmt)
  | if_ (c : Expr) (t : Stmt)
  | ifElse (c : Expr) (t f : Stmt)
  | while_ (c : Expr) (b : Stmt)
  | doWhile (b : Stmt) (c : Expr)
  | for_ (init : Stmt) (c : Expr) (step : Option Expr) (b : Stmt)
  | return_ (e : Option Expr)
  | emit (e : Expr)
  | revert (e : Expr)
  | break_
  | continue_
  | placeholder
  | try_ (call : Expr) (returns : List Var) (body clauses : List Stmt)
  | clause (name : Option String) (params : Option (List Var)) (body : List Stmt)
  | assembly (flags : List String) (ss : List YulStmt)
  | comment (text : String)
  deriving Repr

/-- The use of a modifier. -/
structure Use where
  name : List String
  args : Option (List Expr) := none
  deriving Repr

/-- Functions; `name` is `none` for constructors and the like, whose `kind` is the keyword. -/
structure Fn where
  kind : String
  name : Option String
  params : List Var
  visibility : Option String := none
  virtual : Bool := false
  mutability : Option String := none
  override : Option (List (List String)) := none
  modifiers : List Use := []
  returns : List Var := []
  body : Option (List Stmt)
  deriving Repr

/-- Members of contracts.  The texts are their documentation. -/
inductive Member where
  | state (v : Var) (doc : Option String := none)
  | fn (f : Fn) (doc : Option String := none)
  | modifier (name : String) (params : List Var) (virtual : Bool) (body : Option (List Stmt)) (doc : Option String := none)
  | event (name : String) (params : List Var) (anonymous : Bool)
  | error (name : String) (params : List Var)
  | struct (name : String) (members : List Var)
  | enum (name : String) (values : List String)
  | using_ (library : List String) (type : Ty) (global : Bool)
  | operators (functions : List (List String × String)) (type : Ty) (global : Bool)
  | type (name : String) (underlying : Ty)
  | comment (text : String)
  deriving Repr

/-- Contracts, interfaces and libraries. -/
structure Contract where
  doc : Option String := none
  abstract_ : Bool := false
  kind : String
  name : String
  bases : List Use := []
  members : List Member
  deriving Repr

/-! ### Tokens -/

/-- The keyword if the flag is set. -/
def flag (b : Bool) (t : String) : List String := if b then [t] else []

/-- The tokens of a type. -/
def Ty.toks : Ty → List String
  | .elem t => [t]
  | .addressPayable => ["address", "payable"]
  | .user p => pathToks p
  | .mapping k v => "mapping" :: "(" :: (k.toks ++ "=>" :: (v.toks ++ [")"]))
  | .array b => b.toks ++ ["[", "]"]
  | .fixed b n => b.toks ++ "[" :: (strE n ++ ["]"])

/-- `= value`. -/
def valueToks : Option Expr → List String
  | none => []
  | some e => "=" :: strE e

/-- The tokens of a declaration. -/
def Var.toks (v : Var) : List String :=
  v.type.toks ++ v.visibility.toList ++ flag v.constant "constant" ++ flag v.indexed "indexed" ++
    flag v.immutable "immutable" ++ v.location.toList ++ v.name.toList ++ valueToks v.value

/-- The tokens of the left side of a declaration statement. -/
def declToks : List (Option Var) → List String
  | [some v] => v.toks
  | vs => "(" :: (sepBy "," (vs.map fun v => (v.map Var.toks).getD []) ++ [")"])

/-- The tokens of parameters. -/
def paramsToks (vs : List Var) : List String := "(" :: (sepBy "," (vs.map Var.toks) ++ [")"])

/-- The tokens of the results. -/
def returnsToks : List Var → List String
  | [] => []
  | vs => "returns" :: paramsToks vs

/-- The tokens of the parameters of a clause, which may be missing. -/
def clauseParams : Option (List Var) → List String
  | none => []
  | some vs => paramsToks vs

/-- The tokens of the flags of inline assembly. -/
def flagsToks : List String → List String
  | [] => []
  | fs => "(" :: (sepBy "," (fs.map fun f => [quoted f]) ++ [")"])

mutual
/-- The tokens of a statement. -/
def Stmt.toks : Stmt → List String
  | .expr e => strE e ++ [";"]
  | .decl vs value => declToks vs ++ (valueToks value ++ [";"])
  | .block ss => "{" :: (stmtsToks ss ++ ["}"])
  | .unchecked ss => "unchecked" :: "{" :: (stmtsToks ss ++ ["}"])
  | .if_ c t => "if" :: "(" :: (strE c ++ ")" :: t.toks)
  | .ifElse c t f => "if" :: "(" :: (strE c ++ ")" :: (t.toks ++ "else" :: f.toks))
  | .while_ c b => "while" :: "(" :: (strE c ++ ")" :: b.toks)
  | .doWhile b c => "do" :: (b.toks ++ "while" :: "(" :: (strE c ++ [")", ";"]))
  | .for_ i c s b => "for" :: "(" :: (i.toks ++ (strE c ++ ";" :: ((s.map strE).getD [] ++ ")" :: b.toks)))
  | .return_ none => ["return", ";"]
  | .return_ (some e) => "return" :: (strE e ++ [";"])
  | .emit e => "emit" :: (strE e ++ [";"])
  | .revert e => "revert" :: (strE e ++ [";"])
  | .break_ => ["break", ";"]
  | .continue_ => ["continue", ";"]
  | .placeholder => ["_", ";"]
  | .try_ e rs b cs => "try" :: (strE e ++ (returnsToks rs ++ "{" :: (stmtsToks b ++ "}" :: catchToks cs)))
  | .clause n ps b => n.toList ++ (clauseParams ps ++ "{" :: (stmtsToks b ++ ["}"]))
  | .assembly fs ss => "assembly" :: (flagsToks fs ++ "{" :: (yulToks ss ++ ["}"]))
  | .comment _ => []
/-- The tokens of statements. -/
def stmtsToks : List Stmt → List String
  | [] => []
  | s :: ss => s.toks ++ stmtsToks ss
/-- The tokens of the clauses of a `try` behind the first. -/
def catchToks : List Stmt → List String
  | [] => []
  | s :: ss => "catch" :: (s.toks ++ catchToks ss)
end

/-- The tokens of arguments in parentheses, if there are any parentheses. -/
def argsToks : Option (List Expr) → List String
  | none => []
  | some es => "(" :: (strArgs es ++ [")"])

/-- The tokens of the use of a modifier. -/
def Use.toks (u : Use) : List String := pathToks u.name ++ argsToks u.args

/-- The tokens of `override`. -/
def overrideToks : Option (List (List String)) → List String
  | none => []
  | some [] => ["override"]
  | some ns => "override" :: "(" :: (sepBy "," (ns.map pathToks) ++ [")"])

/-- The tokens of a function body. -/
def bodyToks : Option (List Stmt) → List String
  | none => [";"]
  | some ss => (Stmt.block ss).toks

/-- The tokens of a function. -/
def Fn.toks (f : Fn) : List String :=
  f.kind :: (f.name.toList ++ paramsToks f.params ++ f.visibility.toList ++ flag f.virtual "virtual" ++
    f.mutability.toList ++ overrideToks f.override ++ f.modifiers.flatMap Use.toks ++ returnsToks f.returns ++
    bodyToks f.body)

/-- The tokens of a member of a contract.  Comments are no tokens. -/
def Member.toks : Member → List String
  | .state v _ => v.toks ++ [";"]
  | .fn f _ => f.toks
  | .modifier n ps v b _ => "modifier" :: n :: (paramsToks ps ++ flag v "virtual" ++ bodyToks b)
  | .event n ps a => "event" :: n :: (paramsToks ps ++ flag a "anonymous" ++ [";"])
  | .error n ps => "error" :: n :: (paramsToks ps ++ [";"])
  | .struct n vs => "struct" :: n :: "{" :: (vs.flatMap (fun v => v.toks ++ [";"]) ++ ["}"])
  | .enum n vs => "enum" :: n :: "{" :: (sepBy "," (vs.map fun v => [v]) ++ ["}"])
  | .using_ l t g => "using" :: (pathToks l ++ "for" :: (t.toks ++ flag g "global" ++ [";"]))
  | .operators fs t g =>
    "using" :: "{" :: (sepBy "," (fs.map fun f => pathToks f.1 ++ ["as", f.2]) ++ "}" :: "for" :: (t.toks ++ flag g "global" ++ [";"]))
  | .type n t => "type" :: n :: "is" :: (t.toks ++ [";"])
  | .comment _ => []

/-- The tokens of the base contracts. -/
def basesToks : List Use → List String
  | [] => []
  | us => "is" :: sepBy "," (us.map Use.toks)

/-- The tokens of a contract. -/
def Contract.toks (c : Contract) : List String :=
  flag c.abstract_ "abstract" ++ c.kind :: c.name :: (basesToks c.bases ++ "{" :: (c.members.flatMap Member.toks ++ ["}"]))

/-! ### Nodes -/

/-- The field is missing, or a node that shows the expression. -/
def ShowsOpt (key : String) (j : Json) : Option Expr → Prop
  | none => Json.field? key j = none
  | some e => ∃ v, Json.field? key j = some v ∧ Shows e v

/-- The node, as the compiler writes it, stands for the type. -/
def ShowsTy : Ty → Json → Prop
  | .elem t, j => IsA "ElementaryTypeName" j ∧ j.getStrForKey "name" = some t ∧ j.getStrForKey "stateMutability" ≠ some "payable"
  | .addressPayable, j =>
    IsA "ElementaryTypeName" j ∧ j.getStrForKey "name" = some "address" ∧ j.getStrForKey "stateMutability" = some "payable"
  | .user p, j =>
    IsA "UserDefinedTypeName" j ∧
      ((∃ v, Json.field? "pathNode" j = some v ∧ IsA "IdentifierPath" v ∧ v.getStrForKey "name" = some (dotted p)) ∨
        (Json.field? "pathNode" j = none ∧ j.getStrForKey "name" = some (dotted p)))
  | .mapping k v, j =>
    IsA "Mapping" j ∧ (∃ x, Json.field? "keyType" j = some x ∧ ShowsTy k x) ∧
      ∃ x, Json.field? "valueType" j = some x ∧ ShowsTy v x
  | .array b, j =>
    IsA "ArrayTypeName" j ∧ (∃ x, Json.field? "baseType" j = some x ∧ ShowsTy b x) ∧ Json.field? "length" j = none
  | .fixed b n, j =>
    IsA "ArrayTypeName" j ∧ (∃ x, Json.field? "baseType" j = some x ∧ ShowsTy b x) ∧
      ∃ x, Json.field? "length" j = some x ∧ Shows n x

/-- The field shows the documentation. -/
def ShowsDoc (j : Json) : Option String → Prop
  | none => Json.field? "documentation" j = none
  | some t => ∃ v, Json.field? "documentation" j = some v ∧ IsA "StructuredDocumentation" v ∧ v.getStrForKey "text" = some t

/-- The node stands for the declaration.  The visibility `internal` is the default. -/
structure ShowsVar (v : Var) (j : Json) (doc : Option String := none) : Prop where
  isA : IsA "VariableDeclaration" j
  documentation : ShowsDoc j doc
  type : ∃ x, Json.field? "typeName" j = some x ∧ ShowsTy v.type x
  visibility : (j.getStrForKey "visibility").filter (· ≠ "internal") = v.visibility
  constant : j.getBoolForKey "constant" = some true ↔ v.constant = true
  indexed : j.getBoolForKey "indexed" = some true ↔ v.indexed = true
  overrides : Json.field? "overrides" j = none
  immutable : j.getStrForKey "mutability" = some "immutable" ↔ v.immutable = true
  location : (j.getStrForKey "storageLocation").filter (· ∈ ["memory", "storage", "calldata"]) = v.location
  name : (j.getStrForKey "name").filter (· ≠ "") = v.name
  value : ShowsOpt "value" j v.value

/-- The nodes stand for the declarations. -/
def ShowVars : List Var → List Json → Prop
  | [], [] => True
  | v :: vs, j :: js => ShowsVar v j ∧ ShowVars vs js
  | _, _ => False

/-- The nodes stand for the declarations; `null` for a place that is left out. -/
def ShowDecls : List (Option Var) → List Json → Prop
  | [], [] => True
  | some v :: vs, j :: js => ShowsVar v j ∧ ShowDecls vs js
  | none :: vs, j :: js => j = .null ∧ ShowDecls vs js
  | _, _ => False

/-- The node is a list of parameters. -/
def ShowsParams (vs : List Var) (j : Json) : Prop :=
  IsA "ParameterList" j ∧ ∃ js, Json.field? "parameters" j = some (.arr js) ∧ ShowVars vs js

/-- The node is that of a call, marked as the call of a `try`. -/
def ShowsTry : Expr → Json → Prop
  | .call f args, j =>
    IsA "FunctionCall" j ∧ (∃ v, Json.field? "expression" j = some v ∧ Shows f v) ∧
      (∃ vs, Json.field? "arguments" j = some (.arr vs) ∧ ShowAll args vs) ∧
      j.getArrayForKey "names" = some [] ∧ j.getBoolForKey "tryCall" = some true
  | .named f ns args, j =>
    IsA "FunctionCall" j ∧ (∃ v, Json.field? "expression" j = some v ∧ Shows f v) ∧
      (∃ vs, j.getArrayForKey "arguments" = some vs ∧ ShowAll args vs) ∧
      j.getArrayForKey "names" = some (ns.map .str) ∧ j.getBoolForKey "tryCall" = some true
  | _, _ => False

mutual
/-- The node stands for the statement. -/
def ShowsStmt : Stmt → Json → Prop
  | .expr e, j => IsA "ExpressionStatement" j ∧ ∃ v, Json.field? "expression" j = some v ∧ Shows e v
  | .decl vs value, j =>
    IsA "VariableDeclarationStatement" j ∧ (∃ js, Json.field? "declarations" j = some (.arr js) ∧ ShowDecls vs js) ∧
      ShowsOpt "initialValue" j value
  | .block ss, j => IsA "Block" j ∧ ∃ js, Json.field? "statements" j = some (.arr js) ∧ ShowStmts ss js
  | .unchecked ss, j => IsA "UncheckedBlock" j ∧ ∃ js, Json.field? "statements" j = some (.arr js) ∧ ShowStmts ss js
  | .if_ c t, j =>
    IsA "IfStatement" j ∧ (∃ v, Json.field? "condition" j = some v ∧ Shows c v) ∧
      (∃ v, Json.field? "trueBody" j = some v ∧ ShowsStmt t v) ∧ Json.field? "falseBody" j = none
  | .ifElse c t f, j =>
    IsA "IfStatement" j ∧ (∃ v, Json.field? "condition" j = some v ∧ Shows c v) ∧
      (∃ v, Json.field? "trueBody" j = some v ∧ ShowsStmt t v) ∧ ∃ v, Json.field? "falseBody" j = some v ∧ ShowsStmt f v
  | .while_ c b, j =>
    IsA "WhileStatement" j ∧ (∃ v, Json.field? "condition" j = some v ∧ Shows c v) ∧
      ∃ v, Json.field? "body" j = some v ∧ ShowsStmt b v
  | .doWhile b c, j =>
    IsA "DoWhileStatement" j ∧ (∃ v, Json.field? "condition" j = some v ∧ Shows c v) ∧
      ∃ v, Json.field? "body" j = some v ∧ ShowsStmt b v
  | .for_ i c s b, j =>
    IsA "ForStatement" j ∧ (∃ v, Json.field? "initializationExpression" j = some v ∧ ShowsStmt i v) ∧
      (∃ v, Json.field? "condition" j = some v ∧ Shows c v) ∧
      (match s with
        | none => Json.field? "loopExpression" j = none
        | some e => ∃ v, Json.field? "loopExpression" j = some v ∧ IsA "ExpressionStatement" v ∧
          ∃ w, Json.field? "expression" v = some w ∧ Shows e w) ∧
      ∃ v, Json.field? "body" j = some v ∧ ShowsStmt b v
  | .return_ e, j => IsA "Return" j ∧ ShowsOpt "expression" j e
  | .emit e, j => IsA "EmitStatement" j ∧ ∃ v, Json.field? "eventCall" j = some v ∧ Shows e v
  | .revert e, j => IsA "RevertStatement" j ∧ ∃ v, Json.field? "errorCall" j = some v ∧ Shows e v
  | .break_, j => IsA "Break" j
  | .continue_, j => IsA "Continue" j
  | .placeholder, j => IsA "PlaceholderStatement" j
  | .try_ e rs b cs, j =>
    IsA "TryStatement" j ∧ (∃ v, Json.field? "externalCall" j = some v ∧ ShowsTry e v) ∧
      ∃ c js, j.getArrayForKey "clauses" = some (c :: js) ∧ ShowStmts cs js ∧
        IsA "TryCatchClause" c ∧ (c.getStrForKey "errorName").filter (· ≠ "") = none ∧
        (match rs with
          | [] => Json.field? "parameters" c = none
          | _ => ∃ v, Json.field? "parameters" c = some v ∧ ShowsParams rs v) ∧
        ∃ v, Json.field? "block" c = some v ∧ IsA "Block" v ∧
          ∃ js, Json.field? "statements" v = some (.arr js) ∧ ShowStmts b js
  | .clause n ps b, j =>
    IsA "TryCatchClause" j ∧ (j.getStrForKey "errorName").filter (· ≠ "") = n ∧
      (match ps with
        | none => Json.field? "parameters" j = none
        | some vs => ∃ v, Json.field? "parameters" j = some v ∧ ShowsParams vs v) ∧
      ∃ v, Json.field? "block" j = some v ∧ IsA "Block" v ∧
        ∃ js, Json.field? "statements" v = some (.arr js) ∧ ShowStmts b js
  | .assembly fs ss, j =>
    IsA "InlineAssembly" j ∧ j.getStrForKey "documentation" = none ∧
      (match fs with
        | [] => Json.field? "flags" j = none ∨ Json.field? "flags" j = some (.arr [])
        | _ => Json.field? "flags" j = some (.arr (fs.map .str))) ∧
      ∃ v, Json.field? "AST" j = some v ∧ IsA "YulBlock" v ∧
        ∃ js, Json.field? "statements" v = some (.arr js) ∧ ShowYuls ss js
  | .comment t, j => IsA "Comment" j ∧ j.getStrForKey "text" = some t ∧ Json.field? "value" j = none
/-- The nodes stand for the statements. -/
def ShowStmts : List Stmt → List Json → Prop
  | [], [] => True
  | s :: ss, j :: js => ShowsStmt s j ∧ ShowStmts ss js
  | _, _ => False
end

/-- The node has the name. -/
def ShowsName (p : List String) (j : Json) : Prop :=
  (IsA "Identifier" j ∨ IsA "IdentifierPath" j) ∧ j.getStrForKey "name" = some (dotted p)

/-- The field is missing, or an array of nodes that show the expressions. -/
def ShowsArgs (j : Json) : Option (List Expr) → Prop
  | none => Json.field? "arguments" j = none ∧ j.getArrayForKey "arguments" = none
  | some es => ∃ js, Json.field? "arguments" j = some (.arr js) ∧ j.getArrayForKey "arguments" = some js ∧ ShowAll es js

/-- The node stands for the use of a modifier. -/
def ShowsUse (u : Use) (j : Json) : Prop :=
  IsA "ModifierInvocation" j ∧ (∃ v, Json.field? "modifierName" j = some v ∧ ShowsName u.name v) ∧ ShowsArgs j u.args

/-- The node stands for a base contract. -/
def ShowsBase (u : Use) (j : Json) : Prop :=
  IsA "InheritanceSpecifier" j ∧ (∃ v, Json.field? "baseName" j = some v ∧ ShowsName u.name v) ∧ ShowsArgs j u.args

/-- The field shows `override`. -/
def ShowsOverride (j : Json) : Option (List (List String)) → Prop
  | none => Json.field? "overrides" j = none
  | some ns => ∃ v, Json.field? "overrides" j = some v ∧ IsA "OverrideSpecifier" v ∧
      ∃ js, v.getArrayForKey "overrides" = some js ∧ Pairwise₂ ShowsName ns js

/-- The field shows the body. -/
def ShowsBody (j : Json) : Option (List Stmt) → Prop
  | none => Json.field? "body" j = none
  | some ss => ∃ v, Json.field? "body" j = some v ∧ ShowsStmt (.block ss) v

/-- The node stands for the function.  The mutability `nonpayable` is the default. -/
structure ShowsFn (f : Fn) (j : Json) (doc : Option String := none) : Prop where
  isA : IsA "FunctionDefinition" j
  documentation : ShowsDoc j doc
  kind : ∃ k, j.getStrForKey "kind" = some k ∧
    (k = "function" ∧ f.kind = "function" ∧ (∃ n, f.name = some n ∧ j.getStrForKey "name" = some n) ∨
     (k = "constructor" ∨ k = "receive" ∨ k = "fallback") ∧ f.kind = k ∧ f.name = none)
  params : ∃ v, Json.field? "parameters" j = some v ∧ ShowsParams f.params v
  visibility : j.getStrForKey "visibility" = f.visibility
  virtual : j.getBoolForKey "virtual" = some true ↔ f.virtual = true
  mutability : (j.getStrForKey "stateMutability").filter (· ≠ "nonpayable") = f.mutability
  override : ShowsOverride j f.override
  modifiers : ∃ js, Json.field? "modifiers" j = some (.arr js) ∧ Pairwise₂ ShowsUse f.modifiers js
  returns : ∃ v, Json.field? "returnParameters" j = some v ∧ ShowsParams f.returns v ∧
    ∃ js, v.getArrayForKey "parameters" = some js ∧ js.length = f.returns.length
  body : ShowsBody j f.body
  implemented : j.getBoolForKey "implemented" = some f.body.isSome

/-- The node stands for the member. -/
def ShowsMember : Member → Json → Prop
  | .state v doc, j => ShowsVar v j doc
  | .fn f doc, j => ShowsFn f j doc
  | .modifier n ps v b doc, j =>
    IsA "ModifierDefinition" j ∧ ShowsDoc j doc ∧ j.getStrForKey "name" = some n ∧
      (∃ x, Json.field? "parameters" j = some x ∧ ShowsParams ps x) ∧ (j.getBoolForKey "virtual" = some true ↔ v = true) ∧
      Json.field? "overrides" j = none ∧ ShowsBody j b
  | .event n ps a, j =>
    IsA "EventDefinition" j ∧ j.getStrForKey "name" = some n ∧
      (∃ x, Json.field? "parameters" j = some x ∧ ShowsParams ps x) ∧ (j.getBoolForKey "anonymous" = some true ↔ a = true)
  | .error n ps, j =>
    IsA "ErrorDefinition" j ∧ j.getStrForKey "name" = some n ∧ ∃ x, Json.field? "parameters" j = some x ∧ ShowsParams ps x
  | .struct n vs, j =>
    IsA "StructDefinition" j ∧ j.getStrForKey "name" = some n ∧
      ∃ js, Json.field? "members" j = some (.arr js) ∧ ShowVars vs js
  | .enum n vs, j =>
    IsA "EnumDefinition" j ∧ j.getStrForKey "name" = some n ∧
      ∃ js, Json.field? "members" j = some (.arr js) ∧ Pairwise₂ (fun t x => IsA "EnumValue" x ∧ x.getStrForKey "name" = some t) vs js
  | .using_ l t g, j =>
    IsA "UsingForDirective" j ∧ (∃ v, Json.field? "libraryName" j = some v ∧ ShowsName l v) ∧
      Json.field? "functionList" j = none ∧ (∃ v, Json.field? "typeName" j = some v ∧ ShowsTy t v) ∧
      (j.getBoolForKey "global" = some true ↔ g = true)
  | .operators fs t g, j =>
    IsA "UsingForDirective" j ∧ Json.field? "libraryName" j = none ∧
      (∃ js, Json.field? "functionList" j = some (.arr js) ∧
        Pairwise₂ (fun f x => x.getStrForKey "nodeType" = none ∧ (∃ v, Json.field? "definition" x = some v ∧ ShowsName f.1 v) ∧
          x.getStrForKey "operator" = some f.2) fs js) ∧
      (∃ v, Json.field? "typeName" j = some v ∧ ShowsTy t v) ∧ (j.getBoolForKey "global" = some true ↔ g = true)
  | .type n t, j =>
    IsA "UserDefinedValueTypeDefinition" j ∧ j.getStrForKey "name" = some n ∧
      ∃ v, Json.field? "underlyingType" j = some v ∧ ShowsTy t v
  | .comment t, j => IsA "Comment" j ∧ j.getStrForKey "text" = some t ∧ Json.field? "value" j = none

/-- The node stands for the contract. -/
structure ShowsContract (c : Contract) (j : Json) : Prop where
  isA : IsA "ContractDefinition" j
  documentation : ShowsDoc j c.doc
  abstract_ : j.getBoolForKey "abstract" = some true ↔ c.abstract_ = true
  kind : j.getStrForKey "contractKind" = some c.kind
  name : j.getStrForKey "name" = some c.name
  bases : ∃ js, Json.field? "baseContracts" j = some (.arr js) ∧ Pairwise₂ ShowsBase c.bases js
  members : ∃ js, j.getArrayForKey "nodes" = some js ∧ Pairwise₂ ShowsMember c.members js

/-! ### Names and expressions in them -/

/-- The names in the type are names, and its lengths are legible. -/
def Ty.Plain : Ty → Prop
  | .elem t => isName t = true
  | .addressPayable => True
  | .user p => PlainPath p
  | .mapping k v => k.Plain ∧ v.Plain
  | .array b => b.Plain
  | .fixed b n => b.Plain ∧ Legible n

/-- The value is legible. -/
def PlainOpt (e : Option Expr) : Prop := ∀ x, e = some x → Legible x

/-- All names are names. -/
def NameOpt (t : Option String) : Prop := ∀ x, t = some x → isName x = true

/-- The names in the declaration are names, and its value is legible. -/
structure Var.Plain (v : Var) : Prop where
  type : v.type.Plain
  visibility : NameOpt v.visibility
  location : NameOpt v.location
  name : NameOpt v.name
  value : PlainOpt v.value

mutual
/-- The names are names, and the expressions are legible.  Every `try` has results.  There are comments only
among the statements of blocks, and only if `flows` is set. -/
def Stmt.Plain (flows : Bool) : Stmt → Prop
  | .expr e => Legible e
  | .decl vs value => vs ≠ [] ∧ vs ≠ [none] ∧ (∀ v, some v ∈ vs → v.Plain) ∧ PlainOpt value
  | .block ss => stmtsPlain flows ss
  | .unchecked ss => stmtsPlain flows ss
  | .if_ c t => Legible c ∧ t.Plain flows
  | .ifElse c t f => Legible c ∧ t.Plain flows ∧ f.Plain flows
  | .while_ c b => Legible c ∧ b.Plain flows
  | .doWhile b c => Legible c ∧ b.Plain flows
  | .for_ i c s b => i.Plain flows ∧ Legible c ∧ PlainOpt s ∧ b.Plain flows
  | .return_ e => PlainOpt e
  | .emit e => Legible e
  | .revert e => Legible e
  | .try_ e rs b cs =>
    Legible e ∧ rs ≠ [] ∧ (∀ v ∈ rs, v.Plain) ∧ stmtsPlain flows b ∧ clausesPlain flows cs
  | .clause n ps b => NameOpt n ∧ (∀ vs, ps = some vs → ∀ v ∈ vs, v.Plain) ∧ stmtsPlain flows b
  | .assembly fs ss => (∀ f ∈ fs, ∀ c ∈ f.toList, unescaped c = true) ∧ yulPlain ss
  | .comment _ => False
  | _ => True
/-- All of them, or comments. -/
def stmtsPlain (flows : Bool) : List Stmt → Prop
  | [] => True
  | .comment _ :: ss => flows = true ∧ stmtsPlain flows ss
  | s :: ss => s.Plain flows ∧ stmtsPlain flows ss
/-- All of them. -/
def clausesPlain (flows : Bool) : List Stmt → Prop
  | [] => True
  | s :: ss => s.Plain flows ∧ clausesPlain flows ss
end

/-- The name is a name, and the arguments are legible. -/
def Use.Plain (u : Use) : Prop := PlainPath u.name ∧ ∀ es, u.args = some es → LegibleAll es

/-- The statements of the body are plain. -/
def bodyPlain (flows : Bool) (b : Option (List Stmt)) : Prop := ∀ ss, b = some ss → stmtsPlain flows ss

/-- The parts of the function are plain, and it has at most one modifier. -/
structure Fn.Plain (flows : Bool) (f : Fn) : Prop where
  kind : isName f.kind = true
  name : NameOpt f.name
  params : ∀ v ∈ f.params, v.Plain
  visibility : NameOpt f.visibility
  mutability : NameOpt f.mutability
  override : ∀ ns, f.override = some ns → ∀ p ∈ ns, PlainPath p
  modifiers : f.modifiers.length ≤ 1 ∧ ∀ u ∈ f.modifiers, u.Plain
  returns : ∀ v ∈ f.returns, v.Plain
  body : bodyPlain flows f.body

/-- The text of the documentation does not end the comment that it is printed in.  There is documentation only
if `flows` is set. -/
def docPlain (flows : Bool) : Option String → Prop
  | none => True
  | some t => flows = true ∧ ¬ ['*', '/'] <:+: t.toList

/-- The operators that a type may be given. -/
def userOperators : List String :=
  ["|", "&", "^", "~", "+", "-", "*", "/", "%", "==", "!=", "<", "<=", ">", ">="]

/-- The parts of the member are plain.  There is documentation, and there are comments, only if `flows` is set. -/
def Member.Plain (flows : Bool) : Member → Prop
  | .state v doc => v.Plain ∧ docPlain flows doc
  | .fn f doc => f.Plain flows ∧ docPlain flows doc
  | .modifier n ps _ b doc =>
    isName n = true ∧ (∀ v ∈ ps, v.Plain) ∧ (∃ ss, b = some ss) ∧ bodyPlain flows b ∧ docPlain flows doc
  | .event n ps _ => isName n = true ∧ ∀ v ∈ ps, v.Plain
  | .error n ps => isName n = true ∧ ∀ v ∈ ps, v.Plain
  | .struct n vs => isName n = true ∧ ∀ v ∈ vs, v.Plain
  | .enum n vs => isName n = true ∧ vs ≠ [] ∧ ∀ v ∈ vs, isName v = true
  | .using_ l t _ => PlainPath l ∧ t.Plain
  | .operators fs t _ => fs ≠ [] ∧ (∀ f ∈ fs, PlainPath f.1 ∧ f.2 ∈ userOperators) ∧ t.Plain
  | .type n t => isName n = true ∧ t.Plain
  | .comment _ => flows = true

/-- The parts of the contract are plain.  There is documentation only if `flows` is set. -/
structure Contract.Plain (flows : Bool) (c : Contract) : Prop where
  doc : docPlain flows c.doc
  kind : isName c.kind = true
  name : isName c.name = true
  bases : ∀ u ∈ c.bases, u.Plain
  members : ∀ m ∈ c.members, m.Plain flows

end SolGrammar
end Mutagenyx
