import Verif.Spec.Lex

/-!
# How Vyper reads expressions

Written from the grammar of the language (that of Python), without reference to the printer: operators by
increasing strength `or`, `and`, `not`, comparisons, `|`, `^`, `&`, `+ -`, `* / %`, `~` and the sign `-`, `**`; comparisons do
not associate, `**` associates to the right, all others to the left.  Blanks and newlines separate tokens.
-/

namespace Mutagenyx
namespace VyGrammar

/-- The operators of Vyper expressions. -/
inductive Operator where
  | add | sub | mult | div | mod | pow | bitAnd | bitOr | bitXor
  | eq | notEq | gt | gtE | lt | ltE | in_ | notIn
  | and_ | or_
  deriving DecidableEq, Repr

/-- Expressions.  A `leaf` is a name, a number or a constant, given by its text.  A `named` argument `k=e` may only be
among the arguments of a call, an `entry` `k: v` only in a `dict`. -/
inductive Expr where
  | leaf (text : String)
  | str (text : String)
  | attr (e : Expr) (id : String)
  | index (e : Expr) (is : List Expr)
  | call (f : Expr) (args : List Expr)
  | list (es : List Expr)
  | dict (es : List Expr)
  | named (k : String) (e : Expr)
  | entry (k v : Expr)
  | bin (l : Expr) (o : Operator) (r : Expr)
  | not (e : Expr)
  | inv (e : Expr)
  | neg (e : Expr)
  deriving Repr

/-! ### Tokens -/

/-- A character of a name or number. -/
def wordChar (c : Char) : Bool := c.isAlphanum || c == '_'

/-- The tokens of two characters that are not letters or digits. -/
def pairs : List (Char × Char) :=
  [('*', '*'), ('=', '='), ('!', '='), ('<', '='), ('>', '='), ('/', '/'), ('<', '<'), ('>', '>'), ('-', '>'),
   ('+', '='), ('-', '='), ('*', '='), ('/', '='), ('%', '='), ('|', '='), ('&', '='), ('^', '=')]

/-- The text behind a quotation mark does not contain the closing one. -/
def inString : List Char → Bool
  | [] => true
  | '\\' :: _ :: cs => inString cs
  | c :: cs => c != '"' && inString cs

/-- The text behind three quotation marks does not contain the closing three. -/
def inDoc : List Char → Bool
  | '\\' :: _ :: cs => inDoc cs
  | '"' :: '"' :: '"' :: _ => false
  | _ :: cs => inDoc cs
  | [] => true

/-- A text in quotation marks goes on after the first one and `ds` with `c`. -/
def quotes (ds : List Char) (c : Char) : Bool :=
  match ds with
  | '"' :: '"' :: es => inDoc es
  | ['"'] => c == '"'
  | _ => inString ds

/-- The character continues the token that has been read so far. -/
def joins (cur : List Char) (c : Char) : Bool :=
  match cur with
  | [] => true
  | d :: ds =>
    if wordChar d then wordChar c || (d.isDigit && c == '.')
    else if d == '"' then quotes ds c
    else if d == '#' then c != '\n'
    else match ds with
      | [] => pairs.contains (d, c)
      | e :: es => es.isEmpty && d == e && c == '=' && (d == '*' || d == '/' || d == '<' || d == '>')

/-- What has been read is a comment. -/
def comment : List Char → Bool
  | '#' :: _ => true
  | _ => false

/-- How texts are split. -/
def lexer : Lex.Lexer where
  joins := joins
  comment := comment

/-- The tokens of a text. -/
def tokens (text : List Char) : List String := Lex.tokens lexer text []

/-- Words that are not names. -/
def reserved : List String :=
  ["not", "and", "or", "in", "as", "assert", "break", "continue", "def", "elif", "else", "enum", "event", "for", "from",
   "if", "import", "interface", "log", "pass", "raise", "return", "struct"]

/-- The token is a name, number or constant. -/
def isLeaf (t : String) : Bool :=
  (match t.toList with
    | [] => false
    | c :: cs => wordChar c && cs.all fun d => wordChar d || (c.isDigit && d == '.')) &&
  !reserved.contains t

/-- The token is a name. -/
def isName (t : String) : Bool := isLeaf t && !(t.toList.head?.map Char.isDigit).getD false

/-- A text in quotation marks. -/
def quoted (t : String) : String := "\"" ++ t ++ "\""

/-- What is in quotation marks. -/
def unquote (t : String) : Option String :=
  match t.toList with
  | '"' :: cs => if cs.getLast? = some '"' then some (String.ofList cs.dropLast) else none
  | _ => none

/-! ### Operators -/

/-- The text of an operator. -/
def Operator.text : Operator → String
  | .add => "+" | .sub => "-" | .mult => "*" | .div => "/" | .mod => "%" | .pow => "**"
  | .bitAnd => "&" | .bitOr => "|" | .bitXor => "^"
  | .eq => "==" | .notEq => "!=" | .gt => ">" | .gtE => ">=" | .lt => "<" | .ltE => "<="
  | .in_ => "in" | .notIn => "not in" | .and_ => "and" | .or_ => "or"

/-- All operators. -/
def operators : List Operator :=
  [.add, .sub, .mult, .div, .mod, .pow, .bitAnd, .bitOr, .bitXor, .eq, .notEq, .gt, .gtE, .lt, .ltE, .in_,
   .notIn, .and_, .or_]

/-- How strongly the operator binds. -/
def Operator.level : Operator → Nat
  | .or_ => 1
  | .and_ => 2
  | .eq | .notEq | .gt | .gtE | .lt | .ltE | .in_ | .notIn => 4
  | .bitOr => 5
  | .bitXor => 6
  | .bitAnd => 7
  | .add | .sub => 9
  | .mult | .div | .mod => 10
  | .pow => 12

/-- How strongly `not` binds. -/
def notLevel : Nat := 3
/-- How strongly `~` binds. -/
def invLevel : Nat := 11

/-- How strongly the right operand must bind. -/
def Operator.right : Operator → Nat
  | .pow => invLevel
  | o => o.level + 1

/-- How strongly an operator may bind that has this operation as its left operand. -/
def Operator.left (o : Operator) : Nat :=
  if o.level = 4 then 3 else if o = .pow then 11 else o.level

/-- The operator at the start of the tokens, and what follows. -/
def operator? : List String → Option (Operator × List String)
  | t :: u :: ts =>
    if t = "not" ∧ u = "in" then some (.notIn, ts) else (operators.find? (·.text = t)).map (·, u :: ts)
  | [t] => (operators.find? (·.text = t)).map (·, [])
  | [] => none

/-! ### Reading -/

mutual
/-- Read an expression whose operators bind at least as strongly as `m`.  The first argument bounds the
recursion. -/
def readExpr : Nat → Nat → List String → Option (Expr × List String)
  | 0, _, _ => none
  | f + 1, m, ts => match readPrefix f m ts with
    | some (e, ts) => readOperators f m 12 e ts
    | none => none

/-- Read an expression up to the first operator. -/
def readPrefix : Nat → Nat → List String → Option (Expr × List String)
  | 0, _, _ => none
  | _ + 1, _, [] => none
  | f + 1, m, t :: ts =>
    if t = "not" then
      if m ≤ notLevel then (readExpr f notLevel ts).map fun (e, ts) => (.not e, ts) else none
    else if t = "~" then
      if m ≤ invLevel then (readExpr f invLevel ts).map fun (e, ts) => (.inv e, ts) else none
    else if t = "-" then
      if m ≤ invLevel then (readExpr f invLevel ts).map fun (e, ts) => (.neg e, ts) else none
    else if t = "(" then match readExpr f 0 ts with
      | some (e, u :: ts) => if u = ")" then readSuffixes f e ts else none
      | _ => none
    else if t = "[" then match readItems f "]" ts with
      | some (es, ts) => readSuffixes f (.list es) ts
      | none => none
    else if t = "{" then match readItems f "}" ts with
      | some (es, ts) => readSuffixes f (.dict es) ts
      | none => none
    else if isLeaf t then readSuffixes f (.leaf t) ts
    else match unquote t with
      | some s => readSuffixes f (.str s) ts
      | none => none

/-- Read what may follow the expression `e`: `.name`, `[index]`, `(arguments)`. -/
def readSuffixes : Nat → Expr → List String → Option (Expr × List String)
  | 0, _, _ => none
  | _ + 1, e, [] => some (e, [])
  | f + 1, e, t :: ts =>
    if t = "." then match ts with
      | id :: ts => if isName id then readSuffixes f (.attr e id) ts else none
      | [] => none
    else if t = "[" then match readItems f "]" ts with
      | some (i :: is, ts) => readSuffixes f (.index e (i :: is)) ts
      | _ => none
    else if t = "(" then match readItems f ")" ts with
      | some (args, ts) => readSuffixes f (.call e args) ts
      | none => none
    else some (e, t :: ts)

/-- Read what is between brackets up to the closing one. -/
def readItems : Nat → String → List String → Option (List Expr × List String)
  | 0, _, _ => none
  | _ + 1, _, [] => none
  | f + 1, close, t :: ts =>
    if t = close then some ([], ts)
    else match readItem f close (t :: ts) with
      | some (e, u :: ts) =>
        if u = close then some ([e], ts)
        else if u = "," then (readItems f close ts).map fun (es, ts) => (e :: es, ts)
        else none
      | _ => none

/-- Read an expression, a named argument in parentheses, or an entry in braces. -/
def readItem : Nat → String → List String → Option (Expr × List String)
  | 0, _, _ => none
  | f + 1, close, ts => match readExpr f 0 ts with
    | some (e, "=" :: ts) => match e with
      | .leaf k => if close = ")" ∧ isName k = true then (readExpr f 0 ts).map fun (e, ts) => (.named k e, ts) else none
      | _ => none
    | some (k, ":" :: ts) => if close = "}" then (readExpr f 0 ts).map fun (v, ts) => (.entry k v, ts) else none
    | some (e, ts) => if close = "}" then none else some (e, ts)
    | none => none

/-- Read operators and their right operands behind the left operand `e`. -/
def readOperators : Nat → Nat → Nat → Expr → List String → Option (Expr × List String)
  | 0, _, _, _, _ => none
  | f + 1, m, top, e, ts => match operator? ts with
    | none => some (e, ts)
    | some (o, rest) =>
      if m ≤ o.level ∧ o.level ≤ top then match readExpr f o.right rest with
        | some (r, ts) => readOperators f m o.left (.bin e o r) ts
        | none => none
      else some (e, ts)
end

/-- The expression that a text is read as, if it is an expression. -/
def read (text : List Char) : Option Expr :=
  match readExpr (4 * (tokens text).length + 4) 0 (tokens text) with
  | some (e, []) => some e
  | _ => none

/-! ### Examples -/

/-- Expressions in words, to compare them. -/
def Expr.show : Expr → String
  | .leaf t => t
  | .attr e id => "(" ++ e.show ++ "." ++ id ++ ")"
  | .str t => quoted t
  | .index e is => "(" ++ e.show ++ " at" ++ showAll is ++ ")"
  | .list es => "[" ++ showAll es ++ "]"
  | .dict es => "{" ++ showAll es ++ "}"
  | .named k e => k ++ "=" ++ e.show
  | .entry k v => k.show ++ ":" ++ v.show
  | .call f args => "(" ++ f.show ++ " applied to" ++ showAll args ++ ")"
  | .bin l o r => "(" ++ l.show ++ o.text ++ r.show ++ ")"
  | .not e => "(not " ++ e.show ++ ")"
  | .inv e => "(~" ++ e.show ++ ")"
  | .neg e => "(-" ++ e.show ++ ")"
where
  /-- Several expressions in words. -/
  showAll : List Expr → String
    | [] => ""
    | e :: es => " " ++ e.show ++ showAll es

example : (read "a + b * c ** d - e".toList).map Expr.show = some "((a+(b*(c**d)))-e)" := by decide +kernel
example : (read "not a == b and c not in d.e[]".toList).map Expr.show = none := by decide +kernel
example : (read "not a == b and c not in d.e[1.5](f, g)".toList).map Expr.show
    = some "((not (a==b))and(cnot in(((d.e) at 1.5) applied to f g)))" := by decide +kernel
example : (read "f([a, \"b c\"], x={u: v[w, z],\n y: \"\"})".toList).map Expr.show
    = some "(f applied to [ a \"b c\"] x={ u:(v at w z) y:\"\"})" := by decide +kernel
example : (read "[x=a]".toList).map Expr.show = none := by decide +kernel
example : (read "{a}".toList).map Expr.show = none := by decide +kernel
example : (read "~a ** b".toList).map Expr.show = some "(~(a**b))" := by decide +kernel
example : (read "a + not b".toList).map Expr.show = none := by decide +kernel
example : (read "a < b < c".toList).map Expr.show = none := by decide +kernel
example : (read "a ** ~b".toList).map Expr.show = some "(a**(~b))" := by decide +kernel
example : (read "-5 ** b - -1.5 * c".toList).map Expr.show = some "((-(5**b))-((-1.5)*c))" := by decide +kernel

end VyGrammar
end Mutagenyx
