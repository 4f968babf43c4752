import Verif.Spec.SolidityExpr

/-!
# Inline assembly: its tokens, and its nodes in the AST

The tokens are written from the grammar of Yul, without reference to the printer.
-/

namespace Mutagenyx
namespace SolGrammar

/-- Elements of two lists are related one by one. -/
def Pairwise₂ {α : Type} (r : α → Json → Prop) : List α → List Json → Prop
  | [], [] => True
  | a :: as, j :: js => r a j ∧ Pairwise₂ r as js
  | _, _ => False

/-! ### Expressions and statements -/

/-- Expressions.  A name may have dots in it, as `x.slot`; a `lit` is a number, `true` or `false`. -/
inductive YulExpr where
  | name (path : List String)
  | lit (text : String)
  | str (text : String)
  | call (f : String) (args : List YulExpr)
  deriving Repr

/-- Statements.  A `case_` only stands in a `switch`; `default` is a `case_` without value. -/
inductive YulStmt where
  | expr (e : YulExpr)
  | let_ (vars : List String) (value : Option YulExpr)
  | assign (vars : List (List String)) (value : YulExpr)
  | block (ss : List YulStmt)
  | if_ (c : YulExpr) (ss : List YulStmt)
  | switch (e : YulExpr) (cases : List YulStmt)
  | case_ (value : Option YulExpr) (ss : List YulStmt)
  | for_ (pre : List YulStmt) (c : YulExpr) (post body : List YulStmt)
  | function (name : String) (params returns : List String) (ss : List YulStmt)
  | break_
  | continue_
  | leave
  deriving Repr

/-! ### Tokens -/

mutual
/-- The tokens of an expression. -/
def YulExpr.toks : YulExpr → List String
  | .name p => pathToks p
  | .lit t => [t]
  | .str t => [quoted t]
  | .call f args => f :: "(" :: (yulArgs args ++ [")"])
/-- The tokens of arguments. -/
def yulArgs : List YulExpr → List String
  | [] => []
  | e :: es => e.toks ++ yulRest es
/-- The tokens of further arguments. -/
def yulRest : List YulExpr → List String
  | [] => []
  | e :: es => "," :: (e.toks ++ yulRest es)
end

/-- The names, separated by commas. -/
def namesToks (ns : List String) : List String := sepBy "," (ns.map fun n => [n])

/-- `-> names`. -/
def yulReturns : List String → List String
  | [] => []
  | ns => "->" :: namesToks ns

mutual
/-- The tokens of a statement. -/
def YulStmt.toks : YulStmt → List String
  | .expr e => e.toks
  | .let_ vs none => "let" :: namesToks vs
  | .let_ vs (some e) => "let" :: (namesToks vs ++ ":=" :: e.toks)
  | .assign vs e => sepBy "," (vs.map pathToks) ++ ":=" :: e.toks
  | .block ss => "{" :: (yulToks ss ++ ["}"])
  | .if_ c ss => "if" :: (c.toks ++ "{" :: (yulToks ss ++ ["}"]))
  | .switch e cs => "switch" :: (e.toks ++ yulToks cs)
  | .case_ none ss => "default" :: "{" :: (yulToks ss ++ ["}"])
  | .case_ (some v) ss => "case" :: (v.toks ++ "{" :: (yulToks ss ++ ["}"]))
  | .for_ pre c post body =>
    "for" :: "{" :: (yulToks pre ++ "}" :: (c.toks ++ "{" :: (yulToks post ++ "}" :: "{" :: (yulToks body ++ ["}"]))))
  | .function n ps rs ss => "function" :: n :: "(" :: (namesToks ps ++ ")" :: (yulReturns rs ++ "{" :: (yulToks ss ++ ["}"])))
  | .break_ => ["break"]
  | .continue_ => ["continue"]
  | .leave => ["leave"]
/-- The tokens of statements. -/
def yulToks : List YulStmt → List String
  | [] => []
  | s :: ss => s.toks ++ yulToks ss
end

/-! ### Nodes -/

mutual
/-- The node, as the compiler writes it, stands for the expression. -/
def ShowsYulExpr : YulExpr → Json → Prop
  | .name p, j => IsA "YulIdentifier" j ∧ j.getStrForKey "name" = some (dotted p)
  | .lit t, j => IsA "YulLiteral" j ∧ j.getStrForKey "value" = some t ∧
      (j.getStrForKey "kind" = some "number" ∨ j.getStrForKey "kind" = some "bool")
  | .str t, j => IsA "YulLiteral" j ∧ j.getStrForKey "value" = some t ∧ j.getStrForKey "kind" = some "string"
  | .call f args, j =>
    IsA "YulFunctionCall" j ∧
      (∃ v, Json.field? "functionName" j = some v ∧ IsA "YulIdentifier" v ∧ v.getStrForKey "name" = some f) ∧
      ∃ js, Json.field? "arguments" j = some (.arr js) ∧ ShowYulExprs args js
/-- The nodes stand for the expressions. -/
def ShowYulExprs : List YulExpr → List Json → Prop
  | [], [] => True
  | e :: es, j :: js => ShowsYulExpr e j ∧ ShowYulExprs es js
  | _, _ => False
end

/-- The node is a declared name. -/
def ShowsYulName (n : String) (j : Json) : Prop := IsA "YulTypedName" j ∧ j.getStrForKey "name" = some n

mutual
/-- The node stands for the statement.  All fields of an expression statement but the expression are texts. -/
def ShowsYul : YulStmt → Json → Prop
  | .expr e, j => IsA "YulExpressionStatement" j ∧
      ∃ before v after, j = .obj (before ++ ("expression", v) :: after) ∧ ShowsYulExpr e v ∧
        ∀ kv ∈ before ++ after, ∃ t, kv.2 = .str t
  | .let_ vs value, j =>
    IsA "YulVariableDeclaration" j ∧ (∃ js, Json.field? "variables" j = some (.arr js) ∧ Pairwise₂ ShowsYulName vs js) ∧
      match value with
      | none => Json.field? "value" j = none
      | some e => ∃ v, Json.field? "value" j = some v ∧ ShowsYulExpr e v
  | .assign vs e, j =>
    IsA "YulAssignment" j ∧
      (∃ js, Json.field? "variableNames" j = some (.arr js) ∧ Pairwise₂ (fun p x => ShowsYulExpr (.name p) x) vs js) ∧
      ∃ v, Json.field? "value" j = some v ∧ ShowsYulExpr e v
  | .block ss, j => IsA "YulBlock" j ∧ ∃ js, Json.field? "statements" j = some (.arr js) ∧ ShowYuls ss js
  | .if_ c ss, j =>
    IsA "YulIf" j ∧ (∃ v, Json.field? "condition" j = some v ∧ ShowsYulExpr c v) ∧
      ∃ v, Json.field? "body" j = some v ∧ IsA "YulBlock" v ∧
        ∃ js, Json.field? "statements" v = some (.arr js) ∧ ShowYuls ss js
  | .switch e cs, j =>
    IsA "YulSwitch" j ∧ (∃ v, Json.field? "expression" j = some v ∧ ShowsYulExpr e v) ∧
      ∃ js, j.getArrayForKey "cases" = some js ∧ ShowYuls cs js
  | .case_ value ss, j =>
    IsA "YulCase" j ∧
      (match value with
        | none => Json.field? "value" j = some (.str "default")
        | some e => ∃ kvs, Json.field? "value" j = some (.obj kvs) ∧ ShowsYulExpr e (.obj kvs)) ∧
      ∃ v, Json.field? "body" j = some v ∧ IsA "YulBlock" v ∧
        ∃ js, Json.field? "statements" v = some (.arr js) ∧ ShowYuls ss js
  | .for_ pre c post body, j =>
    IsA "YulForLoop" j ∧
      (∃ v, Json.field? "pre" j = some v ∧ IsA "YulBlock" v ∧
        ∃ js, Json.field? "statements" v = some (.arr js) ∧ ShowYuls pre js) ∧
      (∃ v, Json.field? "condition" j = some v ∧ ShowsYulExpr c v) ∧
      (∃ v, Json.field? "post" j = some v ∧ IsA "YulBlock" v ∧
        ∃ js, Json.field? "statements" v = some (.arr js) ∧ ShowYuls post js) ∧
      ∃ v, Json.field? "body" j = some v ∧ IsA "YulBlock" v ∧
        ∃ js, Json.field? "statements" v = some (.arr js) ∧ ShowYuls body js
  | .function n ps rs ss, j =>
    IsA "YulFunctionDefinition" j ∧ j.getStrForKey "name" = some n ∧
      (match ps with
        | [] => j.getArrayForKey "parameters" = none ∨ j.getArrayForKey "parameters" = some []
        | _ => ∃ js, j.getArrayForKey "parameters" = some js ∧ Pairwise₂ ShowsYulName ps js) ∧
      (match rs with
        | [] => j.getArrayForKey "returnVariables" = none ∨ j.getArrayForKey "returnVariables" = some []
        | _ => ∃ js, j.getArrayForKey "returnVariables" = some js ∧ Pairwise₂ ShowsYulName rs js) ∧
      ∃ v, Json.field? "body" j = some v ∧ IsA "YulBlock" v ∧
        ∃ js, Json.field? "statements" v = some (.arr js) ∧ ShowYuls ss js
  | .break_, j => IsA "YulBreak" j
  | .continue_, j => IsA "YulContinue" j
  | .leave, j => IsA "YulLeave" j
/-- The nodes stand for the statements. -/
def ShowYuls : List YulStmt → List Json → Prop
  | [], [] => True
  | s :: ss, j :: js => ShowsYul s j ∧ ShowYuls ss js
  | _, _ => False
end

/-! ### Names -/

/-- The names of the path are names. -/
def PlainPath (p : List String) : Prop := p ≠ [] ∧ ∀ n ∈ p, isName n = true

mutual
/-- Names are names, literals are literals, and the characters of strings need no escapes. -/
def YulExpr.Plain : YulExpr → Prop
  | .name p => PlainPath p
  | .lit t => isLeaf t = true
  | .str t => ∀ c ∈ t.toList, unescaped c = true
  | .call f args => isName f = true ∧ yulArgsPlain args
/-- All of them. -/
def yulArgsPlain : List YulExpr → Prop
  | [] => True
  | e :: es => e.Plain ∧ yulArgsPlain es
end

mutual
/-- The names are names, every `let` has a value, and no function has more than one result. -/
def YulStmt.Plain : YulStmt → Prop
  | .expr e => e.Plain
  | .let_ vs value => (∀ n ∈ vs, isName n = true) ∧ ∃ e, value = some e ∧ e.Plain
  | .assign vs e => (∀ p ∈ vs, PlainPath p) ∧ e.Plain
  | .block ss => yulPlain ss
  | .if_ c ss => c.Plain ∧ yulPlain ss
  | .switch e cs => e.Plain ∧ yulPlain cs
  | .case_ value ss => (∀ e, value = some e → e.Plain) ∧ yulPlain ss
  | .for_ pre c post body => yulPlain pre ∧ c.Plain ∧ yulPlain post ∧ yulPlain body
  | .function n ps rs ss =>
    isName n = true ∧ (∀ p ∈ ps, isName p = true) ∧ rs.length ≤ 1 ∧ (∀ r ∈ rs, isName r = true) ∧ yulPlain ss
  | _ => True
/-- All of them. -/
def yulPlain : List YulStmt → Prop
  | [] => True
  | s :: ss => s.Plain ∧ yulPlain ss
end

end SolGrammar
end Mutagenyx
