import Verif.Spec.SolidityFile
import Verif.Spec.Tree

/-!
# One change in a Solidity source file
-/

namespace Mutagenyx
namespace SolGrammar

/-! ### What is printed of a tree -/

/-- The fields of the nodes that hold parts of the program in which there can be expressions or statements. -/
def partsTable : List (String × List String) :=
  [("TupleExpression", ["components"]), ("MemberAccess", ["expression"]), ("IndexAccess", ["baseExpression", "indexExpression"]),
   ("FunctionCall", ["expression", "arguments"]), ("FunctionCallOptions", ["expression", "options"]),
   ("UnaryOperation", ["subExpression"]), ("BinaryOperation", ["leftExpression", "rightExpression"]),
   ("Assignment", ["leftHandSide", "rightHandSide"]), ("Conditional", ["condition", "trueExpression", "falseExpression"]),
   ("Mapping", ["keyType", "valueType"]), ("ArrayTypeName", ["baseType", "length"]),
   ("VariableDeclaration", ["typeName", "value"]), ("ParameterList", ["parameters"]), ("ExpressionStatement", ["expression"]),
   ("VariableDeclarationStatement", ["declarations", "initialValue"]), ("Block", ["statements"]),
   ("UncheckedBlock", ["statements"]), ("IfStatement", ["condition", "trueBody", "falseBody"]),
   ("WhileStatement", ["condition", "body"]), ("DoWhileStatement", ["condition", "body"]),
   ("ForStatement", ["initializationExpression", "condition", "loopExpression", "body"]), ("Return", ["expression"]),
   ("EmitStatement", ["eventCall"]), ("RevertStatement", ["errorCall"]), ("TryStatement", ["externalCall", "clauses"]),
   ("TryCatchClause", ["parameters", "block"]), ("ModifierInvocation", ["arguments"]), ("InheritanceSpecifier", ["arguments"]),
   ("FunctionDefinition", ["parameters", "modifiers", "returnParameters", "body"]),
   ("ModifierDefinition", ["parameters", "body"]), ("EventDefinition", ["parameters"]), ("ErrorDefinition", ["parameters"]),
   ("StructDefinition", ["members"]), ("UsingForDirective", ["typeName"]),
   ("UserDefinedValueTypeDefinition", ["underlyingType"]), ("ContractDefinition", ["baseContracts", "nodes"]),
   ("SourceUnit", ["nodes"])]

/-- The fields of nodes of a type that hold parts of the program. -/
def partsOf (type : String) : List String := (partsTable.lookup type).getD []

/-- The node at the position is part of the program: on the way to it are only fields that hold such parts.  The compiler
also stores information in other fields, like the types of expressions. -/
def visible : Pos → Json → Bool
  | [], _ => true
  | i :: p, .arr xs => match xs[i]? with
    | some v => visible p v
    | none => false
  | i :: p, .obj kvs => match kvs[i]?, Json.getStrForKey "nodeType" (.obj kvs) with
    | some (k, v), some t =>
      (kvs.map Prod.fst).findIdx? (· == k) == some i && (partsOf t).contains k && visible p v
    | _, _ => false
  | _, _ => false

/-! ### One change -/

/-- What one change does to an expression, to a statement, and to a contract. -/
structure Change where
  expr : Expr → Expr → Prop := fun _ _ => False
  stmt : Stmt → Stmt → Prop := fun _ _ => False
  contract : Contract → Contract → Prop := fun _ _ => False

/-- One of the elements is changed. -/
inductive InList {α : Type} (r : α → α → Prop) : List α → List α → Prop
  | mk {a a' pre post} : r a a' → InList r (pre ++ a :: post) (pre ++ a' :: post)

/-- What is there is changed. -/
inductive InSome {α : Type} (r : α → α → Prop) : Option α → Option α → Prop
  | mk {a a'} : r a a' → InSome r (some a) (some a')

/-- The change happens at one place in the expression. -/
inductive InExpr (c : Change) : Expr → Expr → Prop
  | here {e e'} : c.expr e e' → InExpr c e e'
  | place {e e' pre post} : InExpr c e e' → InExpr c (.tuple (pre ++ e :: post)) (.tuple (pre ++ e' :: post))
  | paren {e e'} : InExpr c e e' → InExpr c (.paren e) (.paren e')
  | member {e e' id} : InExpr c e e' → InExpr c (.member e id) (.member e' id)
  | indexed {e e' i} : InExpr c e e' → InExpr c (.index e i) (.index e' i)
  | index {a e e'} : InExpr c e e' → InExpr c (.index a e) (.index a e')
  | emptyIndexed {e e'} : InExpr c e e' → InExpr c (.emptyIndex e) (.emptyIndex e')
  | called {e e' args} : InExpr c e e' → InExpr c (.call e args) (.call e' args)
  | argument {f e e' pre post} : InExpr c e e' → InExpr c (.call f (pre ++ e :: post)) (.call f (pre ++ e' :: post))
  | calledNamed {e e' ns args} : InExpr c e e' → InExpr c (.named e ns args) (.named e' ns args)
  | argumentNamed {f ns e e' pre post} : InExpr c e e' →
      InExpr c (.named f ns (pre ++ e :: post)) (.named f ns (pre ++ e' :: post))
  | calledWith {e e' ns args} : InExpr c e e' → InExpr c (.options e ns args) (.options e' ns args)
  | option {f ns e e' pre post} : InExpr c e e' →
      InExpr c (.options f ns (pre ++ e :: post)) (.options f ns (pre ++ e' :: post))
  | post {e e' u} : InExpr c e e' → InExpr c (.post e u) (.post e' u)
  | pre {u e e'} : InExpr c e e' → InExpr c (.pre u e) (.pre u e')
  | left {e e' o r} : InExpr c e e' → InExpr c (.bin e o r) (.bin e' o r)
  | right {l o e e'} : InExpr c e e' → InExpr c (.bin l o e) (.bin l o e')
  | condition {e e' a b} : InExpr c e e' → InExpr c (.cond e a b) (.cond e' a b)
  | ifTrue {x e e' b} : InExpr c e e' → InExpr c (.cond x e b) (.cond x e' b)
  | ifFalse {x a e e'} : InExpr c e e' → InExpr c (.cond x a e) (.cond x a e')

/-- The change happens at one place in the type. -/
inductive InTy (c : Change) : Ty → Ty → Prop
  | key {t t' v} : InTy c t t' → InTy c (.mapping t v) (.mapping t' v)
  | value {k t t'} : InTy c t t' → InTy c (.mapping k t) (.mapping k t')
  | array {t t'} : InTy c t t' → InTy c (.array t) (.array t')
  | fixed {t t' n} : InTy c t t' → InTy c (.fixed t n) (.fixed t' n)
  | length {t e e'} : InExpr c e e' → InTy c (.fixed t e) (.fixed t e')

/-- The change happens at one place in the declaration. -/
inductive InVar (c : Change) : Var → Var → Prop
  | type {v : Var} {t'} : InTy c v.type t' → InVar c v { v with type := t' }
  | value {v : Var} {e'} : InSome (InExpr c) v.value e' → InVar c v { v with value := e' }

/-- The change happens at one place in the statement. -/
inductive InStmt (c : Change) : Stmt → Stmt → Prop
  | here {s s'} : c.stmt s s' → InStmt c s s'
  | expr {e e'} : InExpr c e e' → InStmt c (.expr e) (.expr e')
  | declared {vs vs' value} : InList (InSome (InVar c)) vs vs' → InStmt c (.decl vs value) (.decl vs' value)
  | value {vs e e'} : InSome (InExpr c) e e' → InStmt c (.decl vs e) (.decl vs e')
  | block {s s' pre post} : InStmt c s s' → InStmt c (.block (pre ++ s :: post)) (.block (pre ++ s' :: post))
  | unchecked {s s' pre post} : InStmt c s s' → InStmt c (.unchecked (pre ++ s :: post)) (.unchecked (pre ++ s' :: post))
  | ifCondition {e e' t} : InExpr c e e' → InStmt c (.if_ e t) (.if_ e' t)
  | ifBody {e s s'} : InStmt c s s' → InStmt c (.if_ e s) (.if_ e s')
  | elseCondition {e e' t f} : InExpr c e e' → InStmt c (.ifElse e t f) (.ifElse e' t f)
  | elseBody {e s s' f} : InStmt c s s' → InStmt c (.ifElse e s f) (.ifElse e s' f)
  | elseOther {e t s s'} : InStmt c s s' → InStmt c (.ifElse e t s) (.ifElse e t s')
  | whileCondition {e e' b} : InExpr c e e' → InStmt c (.while_ e b) (.while_ e' b)
  | whileBody {e s s'} : InStmt c s s' → InStmt c (.while_ e s) (.while_ e s')
  | doCondition {b e e'} : InExpr c e e' → InStmt c (.doWhile b e) (.doWhile b e')
  | doBody {s s' e} : InStmt c s s' → InStmt c (.doWhile s e) (.doWhile s' e)
  | forInit {s s' e st b} : InStmt c s s' → InStmt c (.for_ s e st b) (.for_ s' e st b)
  | forCondition {i e e' st b} : InExpr c e e' → InStmt c (.for_ i e st b) (.for_ i e' st b)
  | forStep {i x e e' b} : InSome (InExpr c) e e' → InStmt c (.for_ i x e b) (.for_ i x e' b)
  | forBody {i e st s s'} : InStmt c s s' → InStmt c (.for_ i e st s) (.for_ i e st s')
  | result {e e'} : InSome (InExpr c) e e' → InStmt c (.return_ e) (.return_ e')
  | emit {e e'} : InExpr c e e' → InStmt c (.emit e) (.emit e')
  | revert {e e'} : InExpr c e e' → InStmt c (.revert e) (.revert e')
  | tried {e e' rs b cs} : InExpr c e e' → InStmt c (.try_ e rs b cs) (.try_ e' rs b cs)
  | tryReturns {e rs rs' b cs} : InList (InVar c) rs rs' → InStmt c (.try_ e rs b cs) (.try_ e rs' b cs)
  | tryBody {e rs b b' cs} : InStmt c (.block b) (.block b') → InStmt c (.try_ e rs b cs) (.try_ e rs b' cs)
  | tryClause {e rs b s s' pre post} : InStmt c s s' →
      InStmt c (.try_ e rs b (pre ++ s :: post)) (.try_ e rs b (pre ++ s' :: post))
  | clauseParams {n ps ps' b} : InSome (InList (InVar c)) ps ps' → InStmt c (.clause n ps b) (.clause n ps' b)
  | clauseBody {n ps b b'} : InStmt c (.block b) (.block b') → InStmt c (.clause n ps b) (.clause n ps b')

/-- The change happens at one place in the use of a modifier or base contract. -/
inductive InUse (c : Change) : Use → Use → Prop
  | args {u : Use} {es'} : InSome (InList (InExpr c)) u.args es' → InUse c u { u with args := es' }

/-- The change happens at one place in the body, as in a block. -/
def InBody (c : Change) : Option (List Stmt) → Option (List Stmt) → Prop := InSome fun b b' => InStmt c (.block b) (.block b')

/-- The change happens at one place in the function. -/
inductive InFn (c : Change) : Fn → Fn → Prop
  | params {f : Fn} {ps'} : InList (InVar c) f.params ps' → InFn c f { f with params := ps' }
  | modifiers {f : Fn} {us'} : InList (InUse c) f.modifiers us' → InFn c f { f with modifiers := us' }
  | returns {f : Fn} {rs'} : InList (InVar c) f.returns rs' → InFn c f { f with returns := rs' }
  | body {f : Fn} {b'} : InBody c f.body b' → InFn c f { f with body := b' }

/-- The change happens at one place in the member. -/
inductive InMember (c : Change) : Member → Member → Prop
  | state {v v' doc} : InVar c v v' → InMember c (.state v doc) (.state v' doc)
  | fn {f f' doc} : InFn c f f' → InMember c (.fn f doc) (.fn f' doc)
  | modifierParams {n ps ps' v b doc} : InList (InVar c) ps ps' → InMember c (.modifier n ps v b doc) (.modifier n ps' v b doc)
  | modifierBody {n ps v b b' doc} : InBody c b b' → InMember c (.modifier n ps v b doc) (.modifier n ps v b' doc)
  | event {n ps ps' a} : InList (InVar c) ps ps' → InMember c (.event n ps a) (.event n ps' a)
  | error {n ps ps'} : InList (InVar c) ps ps' → InMember c (.error n ps) (.error n ps')
  | struct {n vs vs'} : InList (InVar c) vs vs' → InMember c (.struct n vs) (.struct n vs')
  | using_ {l t t' g} : InTy c t t' → InMember c (.using_ l t g) (.using_ l t' g)
  | operators {fs t t' g} : InTy c t t' → InMember c (.operators fs t g) (.operators fs t' g)
  | type {n t t'} : InTy c t t' → InMember c (.type n t) (.type n t')

/-- The change happens at one place in the contract. -/
inductive InContract (c : Change) : Contract → Contract → Prop
  | here {k k'} : c.contract k k' → InContract c k k'
  | bases {k : Contract} {us'} : InList (InUse c) k.bases us' → InContract c k { k with bases := us' }
  | members {k : Contract} {ms'} : InList (InMember c) k.members ms' → InContract c k { k with members := ms' }

/-- The change happens at one place in the part of a file. -/
inductive InItem (c : Change) : Item → Item → Prop
  | contract {k k'} : InContract c k k' → InItem c (.contract k) (.contract k')
  | member {m m'} : InMember c m m' → InItem c (.member m) (.member m')

/-- The change happens at one place in the file. -/
inductive InFile (c : Change) : SourceFile → SourceFile → Prop
  | items {f : SourceFile} {is'} : InList (InItem c) f.items is' → InFile c f { f with items := is' }

end SolGrammar
end Mutagenyx
