import Verif.Spec.VyperNodes
import Verif.Spec.Tree

/-!
# One change in a Vyper program
-/

namespace Mutagenyx
namespace VyGrammar

/-! ### What is printed of a tree -/

/-- The fields of the nodes that hold parts of the program. -/
def partsTable : List (String × List String) :=
  [("Attribute", ["value"]), ("Subscript", ["value", "slice"]), ("Index", ["value"]), ("Tuple", ["elements"]),
   ("Call", ["func", "args", "keywords"]), ("List", ["elements"]), ("Dict", ["keys", "values"]), ("keyword", ["value"]),
   ("BinOp", ["left", "right"]), ("Compare", ["left", "right"]), ("BoolOp", ["values"]), ("UnaryOp", ["operand"]),
   ("Expr", ["value"]), ("Assign", ["target", "value"]), ("AugAssign", ["target", "value"]),
   ("AnnAssign", ["target", "annotation", "value"]), ("VariableDecl", ["target", "annotation", "value"]),
   ("Return", ["value"]), ("Raise", ["exc"]), ("Assert", ["test", "msg"]), ("Log", ["value"]),
   ("For", ["target", "iter", "body"]), ("If", ["test", "body", "orelse"]), ("arg", ["annotation"]),
   ("arguments", ["args", "defaults"]), ("FunctionDef", ["args", "returns", "decorator_list", "body"]),
   ("StructDef", ["body"]), ("EventDef", ["body"]), ("EnumDef", ["body"]), ("InterfaceDef", ["body"]), ("Module", ["body"]),
   ("Comment", ["value"])]

/-- The fields of nodes of a type that hold parts of the program. -/
def partsOf (type : String) : List String := (partsTable.lookup type).getD []

/-- The node at the position is part of the program: on the way to it are only fields that hold such parts.  The compiler
also stores information in other fields, like the types of expressions. -/
def visible : Pos → Json → Bool
  | [], _ => true
  | i :: p, .arr xs => match xs[i]? with
    | some v => visible p v
    | none => false
  | i :: p, .obj kvs => match kvs[i]?, Json.getStrForKey "ast_type" (.obj kvs) with
    | some (k, v), some t =>
      (kvs.map Prod.fst).findIdx? (· == k) == some i && (partsOf t).contains k && visible p v
    | _, _ => false
  | _, _ => false

/-! ### One change -/

/-- What one change does to an expression, to a statement on one line, to another statement, and to a function. -/
structure Change where
  expr : Expr → Expr → Prop := fun _ _ => False
  simple : Simple → Simple → Prop := fun _ _ => False
  stmt : Stmt → Stmt → Prop := fun _ _ => False
  decl : Decl → Decl → Prop := fun _ _ => False

/-- The change happens at one place in the expression. -/
inductive InExpr (c : Change) : Expr → Expr → Prop
  | here {e e'} : c.expr e e' → InExpr c e e'
  | attr {e e' id} : InExpr c e e' → InExpr c (.attr e id) (.attr e' id)
  | indexed {e e' is} : InExpr c e e' → InExpr c (.index e is) (.index e' is)
  | index {a e e' pre post} : InExpr c e e' → InExpr c (.index a (pre ++ e :: post)) (.index a (pre ++ e' :: post))
  | called {e e' args} : InExpr c e e' → InExpr c (.call e args) (.call e' args)
  | argument {f e e' pre post} : InExpr c e e' → InExpr c (.call f (pre ++ e :: post)) (.call f (pre ++ e' :: post))
  | item {e e' pre post} : InExpr c e e' → InExpr c (.list (pre ++ e :: post)) (.list (pre ++ e' :: post))
  | key {e e' v pre post} : InExpr c e e' →
      InExpr c (.dict (pre ++ .entry e v :: post)) (.dict (pre ++ .entry e' v :: post))
  | value {k e e' pre post} : InExpr c e e' →
      InExpr c (.dict (pre ++ .entry k e :: post)) (.dict (pre ++ .entry k e' :: post))
  | named {k e e'} : InExpr c e e' → InExpr c (.named k e) (.named k e')
  | left {e e' o r} : InExpr c e e' → InExpr c (.bin e o r) (.bin e' o r)
  | right {l o e e'} : InExpr c e e' → InExpr c (.bin l o e) (.bin l o e')
  | not {e e'} : InExpr c e e' → InExpr c (.not e) (.not e')
  | inv {e e'} : InExpr c e e' → InExpr c (.inv e) (.inv e')

/-- The change happens in one of the expressions. -/
inductive InRow (c : Change) : List Expr → List Expr → Prop
  | mk {e e' pre post} : InExpr c e e' → InRow c (pre ++ e :: post) (pre ++ e' :: post)

/-- The change happens in the expression, which is there. -/
inductive InOption (c : Change) : Option Expr → Option Expr → Prop
  | mk {e e'} : InExpr c e e' → InOption c (some e) (some e')

/-- The change happens at one place in the statement. -/
inductive InSimple (c : Change) : Simple → Simple → Prop
  | here {s s'} : c.simple s s' → InSimple c s s'
  | expr {e e'} : InExpr c e e' → InSimple c (.expr e) (.expr e')
  | target {es es' vs} : InRow c es es' → InSimple c (.assign es vs) (.assign es' vs)
  | value {ts es es'} : InRow c es es' → InSimple c (.assign ts es) (.assign ts es')
  | augTarget {e e' o v} : InExpr c e e' → InSimple c (.aug e o v) (.aug e' o v)
  | augValue {t o e e'} : InExpr c e e' → InSimple c (.aug t o e) (.aug t o e')
  | annTarget {e e' ty v} : InExpr c e e' → InSimple c (.ann e ty v) (.ann e' ty v)
  | annType {t e e' v} : InExpr c e e' → InSimple c (.ann t e v) (.ann t e' v)
  | annValue {t ty e e'} : InOption c e e' → InSimple c (.ann t ty e) (.ann t ty e')
  | ret {es es'} : InRow c es es' → InSimple c (.ret es) (.ret es')
  | raise {e e'} : InOption c e e' → InSimple c (.raise e) (.raise e')
  | test {e e' m} : InExpr c e e' → InSimple c (.assert e m) (.assert e' m)
  | message {t e e'} : InOption c e e' → InSimple c (.assert t e) (.assert t e')
  | log {e e'} : InExpr c e e' → InSimple c (.log e) (.log e')

/-- The change happens at one place in the statement. -/
inductive InStmt (c : Change) : Stmt → Stmt → Prop
  | here {s s'} : c.stmt s s' → InStmt c s s'
  | simple {s s'} : InSimple c s s' → InStmt c (.simple s) (.simple s')
  | quote {s s'} : InStmt c s s' → InStmt c (.quote s) (.quote s')
  | forType {x e e' it b} : InOption c e e' → InStmt c (.for_ x e it b) (.for_ x e' it b)
  | forOver {x ty e e' b} : InExpr c e e' → InStmt c (.for_ x ty e b) (.for_ x ty e' b)
  | forBody {x ty it s s' pre post} : InStmt c s s' →
      InStmt c (.for_ x ty it (pre ++ s :: post)) (.for_ x ty it (pre ++ s' :: post))
  | ifTest {e e' b els} : InExpr c e e' → InStmt c (.if_ e b els) (.if_ e' b els)
  | ifBody {t s s' pre post els} : InStmt c s s' →
      InStmt c (.if_ t (pre ++ s :: post) els) (.if_ t (pre ++ s' :: post) els)
  | ifElse {t b s s' pre post} : InStmt c s s' →
      InStmt c (.if_ t b (pre ++ s :: post)) (.if_ t b (pre ++ s' :: post))

/-- The change happens at one place in the parameter. -/
inductive InParam (c : Change) : Param → Param → Prop
  | type {x e e' v} : InExpr c e e' → InParam c ⟨x, e, v⟩ ⟨x, e', v⟩
  | value {x ty e e'} : InOption c e e' → InParam c ⟨x, ty, e⟩ ⟨x, ty, e'⟩

/-- The change happens at one place in the signature. -/
inductive InSig (c : Change) : Sig → Sig → Prop
  | params {n p p' pre post rs} : InParam c p p' → InSig c ⟨n, pre ++ p :: post, rs⟩ ⟨n, pre ++ p' :: post, rs⟩
  | results {n ps es es'} : InRow c es es' → InSig c ⟨n, ps, es⟩ ⟨n, ps, es'⟩

/-- The change happens at one place in the declaration. -/
inductive InDecl (c : Change) : Decl → Decl → Prop
  | here {d d'} : c.decl d d' → InDecl c d d'
  | simple {s s'} : InSimple c s s' → InDecl c (.simple s) (.simple s')
  | quote {d d'} : InDecl c d d' → InDecl c (.quote d) (.quote d')
  | field {k n s s' pre post} : InSimple c s s' →
      InDecl c (.block k n (pre ++ s :: post)) (.block k n (pre ++ s' :: post))
  | function {n g g' m pre post} : InSig c g g' →
      InDecl c (.interface n (pre ++ (g, m) :: post)) (.interface n (pre ++ (g', m) :: post))
  | decorator {es es' g doc b} : InRow c es es' → InDecl c (.fn es g doc b) (.fn es' g doc b)
  | sig {ds g g' doc b} : InSig c g g' → InDecl c (.fn ds g doc b) (.fn ds g' doc b)
  | body {ds g doc s s' pre post} : InStmt c s s' →
      InDecl c (.fn ds g doc (pre ++ s :: post)) (.fn ds g doc (pre ++ s' :: post))

/-- The change happens at one place in the program. -/
inductive InProgram (c : Change) : Program → Program → Prop
  | mk {doc d d' pre post} : InDecl c d d' → InProgram c ⟨doc, pre ++ d :: post⟩ ⟨doc, pre ++ d' :: post⟩

end VyGrammar
end Mutagenyx
