import Verif.Spec.VyperProgram

/-!
# Vyper programs as nodes of the AST, and which of them are printed as they are
-/

namespace Mutagenyx
namespace VyGrammar

/-! ### Nodes -/

/-- The node stands for the expression, or for several as a tuple. -/
def ShowRow (es : List Expr) (j : Json) : Prop :=
  (∃ e, es = [e] ∧ Shows e j) ∨
    (2 ≤ es.length ∧ IsA "Tuple" j ∧ ∃ vs, Json.field? "elements" j = some (.arr vs) ∧ ShowAll es vs)

/-- The field stands for the expression. -/
def ShowField (key : String) (e : Expr) (j : Json) : Prop := ∃ v, Json.field? key j = some v ∧ Shows e v

/-- The field stands for the expressions. -/
def ShowRowField (key : String) (es : List Expr) (j : Json) : Prop := ∃ v, Json.field? key j = some v ∧ ShowRow es v

/-- The field is missing or `null`. -/
def Absent (key : String) (j : Json) : Prop := Json.field? key j = none ∨ Json.field? key j = some .null

/-- The field stands for the expression, if there is one. -/
def ShowOption (key : String) (e : Option Expr) (j : Json) : Prop :=
  match e with
  | none => Absent key j
  | some e => ShowField key e j

/-- A type with the words around it that the compiler keeps as flags of the variable. -/
def modified (isPublic isConstant isImmutable : Bool) (t : Expr) : Expr :=
  let t := if isImmutable then .call (.leaf "immutable") [t] else t
  let t := if isConstant then .call (.leaf "constant") [t] else t
  if isPublic then .call (.leaf "public") [t] else t

/-- The flag of a variable. -/
def flag (key : String) (j : Json) : Bool := (j.getBoolForKey key).getD false

/-- The node stands for the statement. -/
def ShowsSimple : Simple → Json → Prop
  | .expr e, j => IsA "Expr" j ∧ ShowField "value" e j
  | .assign ts vs, j => IsA "Assign" j ∧ ShowRowField "target" ts j ∧ ShowRowField "value" vs j
  | .aug t o v, j =>
    IsA "AugAssign" j ∧ ShowField "target" t j ∧ (∃ x, Json.field? "op" j = some x ∧ IsA o.type x) ∧ ShowField "value" v j
  | .ann t ty v, j =>
    ShowField "target" t j ∧ ShowOption "value" v j ∧
      ((IsA "AnnAssign" j ∧ ShowField "annotation" ty j) ∨
        (IsA "VariableDecl" j ∧ flag "is_transient" j = false ∧ ∃ u, ShowField "annotation" u j ∧
          ty = modified (flag "is_public" j) (flag "is_constant" j) (flag "is_immutable" j) u))
  | .ret vs, j => IsA "Return" j ∧ ((vs = [] ∧ Absent "value" j) ∨ ShowRowField "value" vs j)
  | .raise e, j => IsA "Raise" j ∧ ShowOption "exc" e j
  | .assert e m, j => IsA "Assert" j ∧ ShowField "test" e j ∧ ShowOption "msg" m j
  | .pass, j => IsA "Pass" j
  | .break, j => IsA "Break" j
  | .continue, j => IsA "Continue" j
  | .log e, j => IsA "Log" j ∧ ShowField "value" e j
  | .import_ p a, j =>
    IsA "Import" j ∧ j.getStrForKey "name" = some (String.ofList (pathText p)) ∧ j.getStrForKey "alias" = a
  | .from_ level p n a, j =>
    IsA "ImportFrom" j ∧ j.getIntForKey "level" = some level ∧ j.getStrForKey "name" = some n ∧
      (Json.field? "alias" j).bind Json.asStr = a ∧
      Json.field? "module" j = some (if p = [] then .null else .str (String.ofList (pathText p)))

/-- The node stands for the comment. -/
def ShowsNote (t : String) (j : Json) : Prop := IsA "Comment" j ∧ Json.field? "value" j = some (.str t)

mutual
/-- The node stands for the statement. -/
def ShowsStmt : Stmt → Json → Prop
  | .simple s, j => ShowsSimple s j
  | .for_ x ty it body, j =>
    IsA "For" j ∧ ShowField "iter" it j ∧
      (∃ t, Json.field? "target" j = some t ∧ match ty with
        | none => Shows (.leaf x) t
        | some ty => IsA "AnnAssign" t ∧ ShowField "target" (.leaf x) t ∧ ShowField "annotation" ty t ∧ Absent "value" t) ∧
      ∃ bs, Json.field? "body" j = some (.arr bs) ∧ ShowStmts body bs
  | .if_ c body els, j =>
    IsA "If" j ∧ ShowField "test" c j ∧ (∃ bs, Json.field? "body" j = some (.arr bs) ∧ ShowStmts body bs) ∧
      ∃ bs, Json.field? "orelse" j = some (.arr bs) ∧ ShowStmts els bs
  | .comment t, j => ShowsNote t j
  | .quote s, j => IsA "Comment" j ∧ ∃ v, Json.field? "value" j = some v ∧ ShowsStmt s v
/-- The nodes stand for the statements. -/
def ShowStmts : List Stmt → List Json → Prop
  | [], [] => True
  | s :: ss, j :: js => ShowsStmt s j ∧ ShowStmts ss js
  | _, _ => False
end

/-- The node stands for name and type of the parameter. -/
def ShowsParam (p : Param) (j : Json) : Prop :=
  IsA "arg" j ∧ j.getStrForKey "arg" = some p.name ∧ ShowField "annotation" p.type j

/-- The nodes stand for parameters without default values. -/
def ShowPlain : List Param → List Json → Prop
  | [], [] => True
  | p :: ps, j :: js => ShowsParam p j ∧ p.value = none ∧ ShowPlain ps js
  | _, _ => False

/-- The nodes stand for parameters with default values. -/
def ShowDefaults : List Param → List (Json × Json) → Prop
  | [], [] => True
  | p :: ps, (a, d) :: js => ShowsParam p a ∧ (∃ e, p.value = some e ∧ Shows e d) ∧ ShowDefaults ps js
  | _, _ => False

/-- The node stands for the parameters; default values are those of the last ones. -/
def ShowParams (ps : List Param) (j : Json) : Prop :=
  IsA "arguments" j ∧ ∃ qs rs as ds, ps = qs ++ rs ∧ ShowPlain qs as ∧ ShowDefaults rs ds ∧
    Json.field? "args" j = some (.arr (as ++ ds.map (·.1))) ∧ Json.field? "defaults" j = some (.arr (ds.map (·.2)))

/-- The node stands for a function with the signature. -/
def ShowsSig (g : Sig) (j : Json) : Prop :=
  IsA "FunctionDef" j ∧ j.getStrForKey "name" = some g.name ∧
    (∃ a, Json.field? "args" j = some a ∧ ShowParams g.params a) ∧
    ((g.results = [] ∧ Absent "returns" j) ∨ ShowRowField "returns" g.results j)

/-- The node has the documentation. -/
def ShowDoc (doc : Option String) (j : Json) : Prop :=
  match doc with
  | none => Absent "doc_string" j
  | some t => ∃ x, Json.field? "doc_string" j = some x ∧ IsA "DocStr" x ∧ x.getStrForKey "value" = some t

/-- The nodes stand for the statements on one line. -/
def ShowSimples : List Simple → List Json → Prop
  | [], [] => True
  | s :: ss, j :: js => ShowsSimple s j ∧ ShowSimples ss js
  | _, _ => False

/-- The nodes stand for functions of an interface. -/
def ShowFunctions : List (Sig × String) → List Json → Prop
  | [], [] => True
  | (g, m) :: fs, j :: js =>
    (ShowsSig g j ∧ Json.field? "decorator_list" j = some (.arr []) ∧ ShowDoc none j ∧
      ∃ b, Json.field? "body" j = some (.arr [b]) ∧ IsA "Expr" b ∧ ShowField "value" (.leaf m) b) ∧ ShowFunctions fs js
  | _, _ => False

/-- The node type of a block. -/
def blockType (keyword : String) : String :=
  if keyword = "struct" then "StructDef" else if keyword = "event" then "EventDef" else "EnumDef"

/-- The node stands for the declaration. -/
def ShowsDecl : Decl → Json → Prop
  | .simple s, j => ShowsSimple s j
  | .block k n fs, j =>
    IsA (blockType k) j ∧ j.getStrForKey "name" = some n ∧ ∃ bs, Json.field? "body" j = some (.arr bs) ∧ ShowSimples fs bs
  | .interface n fs, j =>
    IsA "InterfaceDef" j ∧ j.getStrForKey "name" = some n ∧ ∃ bs, Json.field? "body" j = some (.arr bs) ∧ ShowFunctions fs bs
  | .fn ds g doc body, j =>
    ShowsSig g j ∧ (∃ vs, Json.field? "decorator_list" j = some (.arr vs) ∧ ShowAll ds vs) ∧ ShowDoc doc j ∧
      ∃ bs, Json.field? "body" j = some (.arr bs) ∧ ShowStmts body bs
  | .comment t, j => ShowsNote t j
  | .quote d, j => IsA "Comment" j ∧ ∃ v, Json.field? "value" j = some v ∧ ShowsDecl d v

/-- The nodes stand for the declarations. -/
def ShowDecls : List Decl → List Json → Prop
  | [], [] => True
  | x :: xs, j :: js => ShowsDecl x j ∧ ShowDecls xs js
  | _, _ => False

/-- The node stands for the program. -/
def ShowsProgram (p : Program) (j : Json) : Prop :=
  IsA "Module" j ∧ ShowDoc p.doc j ∧ ∃ bs, Json.field? "body" j = some (.arr bs) ∧ ShowDecls p.decls bs

/-- What the compiler writes for a file: the module and the name of the file. -/
def fileTree (name : String) (module_ : Json) : Json := .obj [("ast", module_), ("contract_name", .str name)]

/-! ### Which programs are considered -/

/-- An expression that is printed as it is (property C49). -/
def Fine (e : Expr) : Prop := Plain e ∧ proper e = true

/-- All of them. -/
def FineAll (es : List Expr) : Prop := ∀ e ∈ es, Fine e

/-- If there is one. -/
def FineOption (e : Option Expr) : Prop := ∀ x, e = some x → Fine x

/-- All of them are names. -/
def Names (ns : List String) : Prop := ∀ n ∈ ns, isName n = true

/-- No two blanks follow each other. -/
def single : List Char → Bool
  | [] => true
  | [_] => true
  | c :: d :: cs => !(c == ' ' && d == ' ') && single (d :: cs)

/-- A text on one line that is not changed. -/
def calm (t : String) : Bool := !t.toList.contains '\n' && single t.toList

/-- Statements on one line whose expressions are printed as they are.  Imports are absolute, or of the kind
`from . import`. -/
def Simple.Ok : Simple → Prop
  | .expr e => Fine e
  | .assign ts vs => ts ≠ [] ∧ vs ≠ [] ∧ FineAll ts ∧ FineAll vs
  | .aug t o v => Fine t ∧ o ∈ augmented ∧ Fine v
  | .ann t ty v => Fine t ∧ Fine ty ∧ FineOption v
  | .ret vs => FineAll vs
  | .raise e => FineOption e
  | .assert e m => Fine e ∧ FineOption m
  | .pass => True
  | .break => True
  | .continue => True
  | .log e => Fine e
  | .import_ p a => p ≠ [] ∧ Names p ∧ Names a.toList
  | .from_ level p n a =>
    ((level = 0 ∧ p ≠ []) ∨ (level = 1 ∧ p = [])) ∧ Names p ∧ isName n = true ∧ Names a.toList

/-- No line of the text is longer than 149 bytes, if `n` bytes are before it. -/
def fitsFrom : Nat → List Char → Bool
  | _, [] => true
  | n, c :: cs => if c = '\n' then fitsFrom 0 cs else decide (n + c.utf8Size ≤ 149) && fitsFrom (n + c.utf8Size) cs

/-- No line of the text is longer than 149 bytes. -/
def fits (t : List Char) : Bool := fitsFrom 0 t

mutual
/-- How deep dictionaries are nested. -/
def depthE : Expr → Nat
  | .leaf _ => 0
  | .str _ => 0
  | .attr e _ => depthE e
  | .index e is => max (depthE e) (depthAll is)
  | .call f args => max (depthE f) (depthAll args)
  | .list es => depthAll es
  | .dict es => depthAll es + 1
  | .named _ e => depthE e
  | .entry k v => max (depthE k) (depthE v)
  | .bin l _ r => max (depthE l) (depthE r)
  | .not e => depthE e
  | .inv e => depthE e
  | .neg _ => 0
/-- In all of them. -/
def depthAll : List Expr → Nat
  | [] => 0
  | e :: es => max (depthE e) (depthAll es)
end

/-- If there is one. -/
def depthOption : Option Expr → Nat
  | none => 0
  | some e => depthE e

/-- In a statement on one line. -/
def Simple.depth : Simple → Nat
  | .expr e => depthE e
  | .assign ts vs => max (depthAll ts) (depthAll vs)
  | .aug t _ v => max (depthE t) (depthE v)
  | .ann t ty v => max (depthE t) (max (depthE ty) (depthOption v))
  | .ret vs => depthAll vs
  | .raise e => depthOption e
  | .assert e m => max (depthE e) (depthOption m)
  | .log e => depthE e
  | _ => 0

mutual
/-- How deep statements and dictionaries are nested. -/
def Stmt.depth : Stmt → Nat
  | .simple s => s.depth
  | .for_ _ ty it body => max (max (depthOption ty) (depthE it)) (depthStmts body + 1)
  | .if_ c body els => max (depthE c) (max (depthStmts body) (depthStmts els) + 1)
  | .comment _ => 0
  | .quote _ => 0
/-- In all of them. -/
def depthStmts : List Stmt → Nat
  | [] => 0
  | s :: ss => max s.depth (depthStmts ss)
end

/-- In parameters. -/
def depthParams : List Param → Nat
  | [] => 0
  | p :: ps => max (max (depthE p.type) (depthOption p.value)) (depthParams ps)

/-- In a signature. -/
def Sig.depth (g : Sig) : Nat := max (depthParams g.params) (depthAll g.results)

/-- In statements on one line. -/
def depthSimples : List Simple → Nat
  | [] => 0
  | s :: ss => max s.depth (depthSimples ss)

/-- In the functions of an interface. -/
def depthFunctions : List (Sig × String) → Nat
  | [] => 0
  | f :: fs => max f.1.depth (depthFunctions fs)

/-- In a declaration. -/
def Decl.depth : Decl → Nat
  | .simple s => s.depth
  | .block _ _ fs => depthSimples fs + 1
  | .interface _ fs => depthFunctions fs + 1
  | .fn ds g _ body => max (max (depthAll ds) g.depth) (depthStmts body + 1)
  | .comment _ => 0
  | .quote _ => 0

mutual
/-- Statements whose parts are printed as they are, and whose bodies do not only consist of comments.  What is in a comment is
printed alone and has to fit on a page before it is put on one line. -/
def Stmt.Ok : Stmt → Prop
  | .simple s => s.Ok
  | .for_ x ty it body =>
    isName x = true ∧ (∀ t, ty = some t → Fine t ∧ primary t = true) ∧ Fine it ∧ OkAll body ∧ bareAll body ≠ []
  | .if_ c body els => Fine c ∧ OkAll body ∧ bareAll body ≠ [] ∧ OkAll els ∧ (els = [] ∨ bareAll els ≠ [])
  | .comment t => calm t = true
  | .quote s => s.Ok ∧ fits (textStmt 0 s) = true ∧ s.depth ≤ 36
/-- All of them. -/
def OkAll : List Stmt → Prop
  | [] => True
  | s :: ss => s.Ok ∧ OkAll ss
end

/-- A parameter of a name and expressions that are printed as they are. -/
def Param.Ok (p : Param) : Prop := isName p.name = true ∧ Fine p.type ∧ FineOption p.value

/-- A signature with such parameters. -/
def Sig.Ok (g : Sig) : Prop :=
  isName g.name = true ∧ (∀ p ∈ g.params, p.Ok) ∧ FineAll g.results ∧ (∀ r, g.results = [r] → primary r = true)

/-- Documentation without quotation marks and backslashes; on one line it is not changed and fits. -/
def DocOk (d : Nat) (t : String) : Prop :=
  (∀ c ∈ t.toList, c ≠ '"' ∧ c ≠ '\\') ∧ ('\n' ∉ t.toList → calm t = true ∧ fits (blanks d ++ tripled t.toList) = true)

/-- Declarations with such parts that fit on the page. -/
def Decl.Ok : Decl → Prop
  | .simple s => s.Ok ∧ fits (textSimple 0 s) = true
  | .block k n fs =>
    k ∈ keywords ∧ isName n = true ∧ fs ≠ [] ∧ (∀ s ∈ fs, s.Ok) ∧ fits (textDecl (.block k n fs)) = true
  | .interface n fs =>
    isName n = true ∧ fs ≠ [] ∧ (∀ f ∈ fs, f.1.Ok ∧ isName f.2 = true) ∧ fits (textDecl (.interface n fs)) = true
  | .fn ds g doc body =>
    FineAll ds ∧ g.Ok ∧ (∀ t, doc = some t → DocOk 1 t) ∧ OkAll body ∧ bareAll body ≠ [] ∧
      fits (textFront ds g) = true ∧ fits (textBody 1 body) = true
  | .comment t => calm t = true ∧ fits (textDecl (.comment t)) = true
  | .quote d => d.Ok ∧ d.depth ≤ 36 ∧ fits (textDecl (.quote d)) = true

/-- Programs with such declarations. -/
def Program.Ok (p : Program) : Prop := (∀ t, p.doc = some t → DocOk 0 t) ∧ ∀ x ∈ p.decls, x.Ok

/-- The levels of indentation are at most 36. -/
def Program.Shallow (p : Program) : Prop := ∀ x ∈ p.decls, x.depth ≤ 36

/-- The node, or what is quoted in a comment. -/
inductive Held : Json → Json → Prop
  | here {j} : Held j j
  | comment {j v x} : IsA "Comment" j → Json.field? "value" j = some v → Held v x → Held j x

end VyGrammar
end Mutagenyx
