import Verif.Spec.Lex

/-!
# How Solidity reads expressions

Written from the grammar of the language, without reference to the printer: by increasing strength the
assignments and `? :`, `||`, `&&`, `== !=`, `< > <= >=`, `|`, `^`, `&`, `<< >>`, `+ -`, `* / %`, `**`, the
prefix operators; assignments, `? :` and `**` associate to the right, all others to the left.  Blanks, newlines and
comments separate tokens.
-/

namespace Mutagenyx
namespace SolGrammar

/-- The operators of two operands. -/
inductive Operator where
  | add | sub | mul | div | mod | exp | shl | shr | bitAnd | bitXor | bitOr
  | lt | gt | le | ge | eq | ne | and_ | or_
  | set | setAdd | setSub | setMul | setDiv | setMod | setOr | setAnd | setXor | setShl | setShr
  deriving DecidableEq, Repr

/-- The operators in front of their operand. -/
inductive Prefix where
  | neg | not | bitNot | inc | dec | delete
  deriving DecidableEq, Repr

/-- The operators behind their operand. -/
inductive Postfix where
  | inc | dec
  deriving DecidableEq, Repr

/-- Expressions.  A `leaf` is a name, an elementary type, a number or a constant, given by its text; a `str` is a
string literal, given by the text between the quotation marks; a `hole` is a place of a tuple that is left out;
`new_ path dims` is `new` with a type, which may be an array. -/
inductive Expr where
  | leaf (text : String)
  | unit (number unit : String)
  | str (text : String)
  | new_ (path : List String) (dims : Nat)
  | hole
  | paren (e : Expr)
  | tuple (es : List Expr)
  | member (e : Expr) (id : String)
  | index (e i : Expr)
  | emptyIndex (e : Expr)
  | call (f : Expr) (args : List Expr)
  | named (f : Expr) (names : List String) (args : List Expr)
  | options (f : Expr) (names : List String) (args : List Expr)
  | post (e : Expr) (u : Postfix)
  | pre (u : Prefix) (e : Expr)
  | bin (l : Expr) (o : Operator) (r : Expr)
  | cond (c a b : Expr)
  deriving Repr

/-! ### Tokens -/

/-- A character of a name or number. -/
def wordChar (c : Char) : Bool := c.isAlphanum || c == '_' || c == '$'

/-- The tokens of two characters that are not letters or digits. -/
def pairs : List (Char × Char) :=
  [('*', '*'), ('=', '='), ('!', '='), ('<', '='), ('>', '='), ('<', '<'), ('>', '>'), ('&', '&'), ('|', '|'),
   ('+', '+'), ('-', '-'), ('+', '='), ('-', '='), ('*', '='), ('/', '='), ('%', '='), ('|', '='), ('&', '='),
   ('^', '='), ('=', '>'), ('/', '/'), ('/', '*'), (':', '='), ('-', '>')]

/-- The text behind a quotation mark does not contain the closing one. -/
def inString : List Char → Bool
  | [] => true
  | '\\' :: _ :: cs => inString cs
  | c :: cs => c != '"' && inString cs

/-- The text behind `/*` does not contain `*/`. -/
def inComment : List Char → Bool
  | '*' :: '/' :: _ => false
  | _ :: cs => inComment cs
  | [] => true

/-- The character continues the token or comment that has been read so far. -/
def joins (cur : List Char) (c : Char) : Bool :=
  match cur with
  | [] => true
  | d :: ds =>
    if wordChar d then wordChar c || (d.isDigit && c == '.' && !ds.contains '.')
    else if d == '"' then inString ds
    else match ds with
      | [] => pairs.contains (d, c)
      | e :: es =>
        if d == '/' && e == '/' then c != '\n'
        else if d == '/' && e == '*' then inComment es
        else es.isEmpty && c == '=' && d == e && (d == '<' || d == '>')

/-- What has been read is a comment. -/
def comment : List Char → Bool
  | '/' :: '/' :: _ => true
  | '/' :: '*' :: _ => true
  | _ => false

/-- How texts are split. -/
def lexer : Lex.Lexer where
  joins := joins
  comment := comment

/-- The tokens of a text. -/
def tokens (text : List Char) : List String := Lex.tokens lexer text []

/-- A string literal. -/
def quoted (t : String) : String := "\"" ++ t ++ "\""

/-- The text of a string literal, if the token is one. -/
def literal? (t : String) : Option String :=
  match t.toList with
  | '"' :: cs => if cs.getLast? = some '"' then some (String.ofList cs.dropLast) else none
  | _ => none

/-- The token is a name, an elementary type, a number or a constant. -/
def isLeaf (t : String) : Bool :=
  (match t.toList with
    | [] => false
    | c :: cs => wordChar c && cs.all (fun d => wordChar d || (c.isDigit && d == '.')) && cs.count '.' ≤ 1) &&
  !(t = "delete") && !(t = "new")

/-- The token does not begin with a digit. -/
def isName (t : String) : Bool := isLeaf t && !(t.toList.head?.map Char.isDigit).getD false

/-! ### Operators -/

/-- The text of an operator. -/
def Operator.text : Operator → String
  | .add => "+" | .sub => "-" | .mul => "*" | .div => "/" | .mod => "%" | .exp => "**"
  | .shl => "<<" | .shr => ">>" | .bitAnd => "&" | .bitXor => "^" | .bitOr => "|"
  | .lt => "<" | .gt => ">" | .le => "<=" | .ge => ">=" | .eq => "==" | .ne => "!=" | .and_ => "&&" | .or_ => "||"
  | .set => "=" | .setAdd => "+=" | .setSub => "-=" | .setMul => "*=" | .setDiv => "/=" | .setMod => "%="
  | .setOr => "|=" | .setAnd => "&=" | .setXor => "^=" | .setShl => "<<=" | .setShr => ">>="

/-- All operators. -/
def operators : List Operator :=
  [.add, .sub, .mul, .div, .mod, .exp, .shl, .shr, .bitAnd, .bitXor, .bitOr, .lt, .gt, .le, .ge, .eq, .ne, .and_,
   .or_, .set, .setAdd, .setSub, .setMul, .setDiv, .setMod, .setOr, .setAnd, .setXor, .setShl, .setShr]

/-- How strongly the operator binds. -/
def Operator.level : Operator → Nat
  | .exp => 12
  | .mul | .div | .mod => 11
  | .add | .sub => 10
  | .shl | .shr => 9
  | .bitAnd => 8
  | .bitXor => 7
  | .bitOr => 6
  | .lt | .gt | .le | .ge => 5
  | .eq | .ne => 4
  | .and_ => 3
  | .or_ => 2
  | _ => 1

/-- It associates to the right. -/
def Operator.toRight (o : Operator) : Bool := o.level == 12 || o.level == 1

/-- How strongly the left operand must bind. -/
def Operator.left (o : Operator) : Nat := if o.toRight then o.level + 1 else o.level
/-- How strongly the right operand must bind. -/
def Operator.right (o : Operator) : Nat := if o.toRight then o.level else o.level + 1
/-- How strongly an operator may bind that has this operation as its left operand. -/
def Operator.next (o : Operator) : Nat := if o.toRight then o.level - 1 else o.level

/-- The operator with a text. -/
def operator? (t : String) : Option Operator := operators.find? (·.text = t)

/-- The text of an operator. -/
def Prefix.text : Prefix → String
  | .neg => "-" | .not => "!" | .bitNot => "~" | .inc => "++" | .dec => "--" | .delete => "delete"

/-- The operator with a text. -/
def prefix? (t : String) : Option Prefix := [Prefix.neg, .not, .bitNot, .inc, .dec, .delete].find? (·.text = t)

/-- How strongly prefix operators bind. -/
def prefixLevel : Nat := 13

/-- The text of an operator. -/
def Postfix.text : Postfix → String
  | .inc => "++" | .dec => "--"

/-! ### Names with dots, units -/

/-- Lists of tokens with a token between each two. -/
def sepBy (t : String) : List (List String) → List String
  | [] => []
  | [ts] => ts
  | ts :: us :: rest => ts ++ t :: sepBy t (us :: rest)

/-- The tokens of a name with dots. -/
def pathToks (p : List String) : List String := sepBy "." (p.map fun n => [n])

/-- A name with dots. -/
def dotted : List String → String
  | [] => ""
  | [n] => n
  | n :: m :: p => n ++ "." ++ dotted (m :: p)

/-- Empty brackets. -/
def bracketToks : Nat → List String
  | 0 => []
  | n + 1 => "[" :: "]" :: bracketToks n

/-- The units of numbers. -/
def units : List String :=
  ["wei", "gwei", "szabo", "finney", "ether", "seconds", "minutes", "hours", "days", "weeks", "years"]

/-! ### Reading -/

/-- Read a name with dots. -/
def readPath : List String → Option (List String × List String)
  | [] => none
  | [n] => if isName n then some ([n], []) else none
  | [n, t] => if isName n && t ≠ "." then some ([n], [t]) else none
  | n :: t :: m :: ts =>
    if isName n then
      if t = "." then (readPath (m :: ts)).map fun (p, ts) => (n :: p, ts) else some ([n], t :: m :: ts)
    else none

/-- Read empty brackets. -/
def readBrackets : List String → Nat × List String
  | "[" :: "]" :: ts => ((readBrackets ts).1 + 1, (readBrackets ts).2)
  | ts => (0, ts)

mutual
/-- Read an expression whose operators bind at least as strongly as `m`.  The first argument bounds the
recursion. -/
def readExpr : Nat → Nat → List String → Option (Expr × List String)
  | 0, _, _ => none
  | f + 1, m, ts => match readPrefix f ts with
    | some (e, ts) => readOperators f m 12 e ts
    | none => none

/-- Read an expression up to the first operator of two operands. -/
def readPrefix : Nat → List String → Option (Expr × List String)
  | 0, _ => none
  | _ + 1, [] => none
  | f + 1, t :: ts => match prefix? t with
    | some u => (readExpr f prefixLevel ts).map fun (e, ts) => (.pre u e, ts)
    | none =>
      if t = "(" then match readPlaces f ts with
        | some ([.hole], _) => none
        | some ([e], ts) => readSuffixes f (.paren e) ts
        | some (es, ts) => readSuffixes f (.tuple es) ts
        | none => none
      else if t = "new" then match readPath ts with
        | some (p, ts) => readSuffixes f (.new_ p (readBrackets ts).1) (readBrackets ts).2
        | none => none
      else if isLeaf t then match ts with
        | u :: us => if u ∈ units then some (.unit t u, us) else readSuffixes f (.leaf t) (u :: us)
        | [] => readSuffixes f (.leaf t) []
      else match literal? t with
        | some s => readSuffixes f (.str s) ts
        | none => none

/-- Read the places of a tuple up to the closing parenthesis. -/
def readPlaces : Nat → List String → Option (List Expr × List String)
  | 0, _ => none
  | _ + 1, [] => none
  | f + 1, t :: ts =>
    match (if t = "," ∨ t = ")" then some (.hole, t :: ts) else readExpr f 0 (t :: ts)) with
    | some (e, u :: ts) =>
      if u = ")" then some ([e], ts)
      else if u = "," then (readPlaces f ts).map fun (es, ts) => (e :: es, ts)
      else none
    | _ => none

/-- Read named arguments up to the closing brace. -/
def readNamed : Nat → List String → Option (List String × List Expr × List String)
  | f + 1, n :: t :: ts =>
    if isName n && t = ":" then match readExpr f 0 ts with
      | some (e, u :: ts) =>
        if u = "}" then some ([n], [e], ts)
        else if u = "," then (readNamed f ts).map fun (ns, es, ts) => (n :: ns, e :: es, ts)
        else none
      | _ => none
    else none
  | _, _ => none

/-- Read what may follow the expression `e`: `.name`, `[index]`, `{options}`, `(arguments)`, `++`, `--`. -/
def readSuffixes : Nat → Expr → List String → Option (Expr × List String)
  | 0, _, _ => none
  | _ + 1, e, [] => some (e, [])
  | f + 1, e, t :: ts =>
    if t = "." then match ts with
      | id :: ts => if isName id then readSuffixes f (.member e id) ts else none
      | [] => none
    else if t = "[" then match ts with
      | "]" :: ts => readSuffixes f (.emptyIndex e) ts
      | ts => match readExpr f 0 ts with
        | some (i, u :: ts) => if u = "]" then readSuffixes f (.index e i) ts else none
        | _ => none
    else if t = "{" then match readNamed f ts with
      | some (ns, args, ts) => readSuffixes f (.options e ns args) ts
      | none => none
    else if t = "(" then match ts with
      | "{" :: ts => match readNamed f ts with
        | some (ns, args, u :: ts) => if u = ")" then readSuffixes f (.named e ns args) ts else none
        | _ => none
      | ts => match readArguments f ts with
        | some (args, ts) => readSuffixes f (.call e args) ts
        | none => none
    else if t = "++" then readSuffixes f (.post e .inc) ts
    else if t = "--" then readSuffixes f (.post e .dec) ts
    else some (e, t :: ts)

/-- Read arguments up to the closing parenthesis. -/
def readArguments : Nat → List String → Option (List Expr × List String)
  | 0, _ => none
  | _ + 1, [] => none
  | f + 1, t :: ts =>
    if t = ")" then some ([], ts)
    else match readExpr f 0 (t :: ts) with
      | some (e, u :: ts) =>
        if u = ")" then some ([e], ts)
        else if u = "," then (readArguments f ts).map fun (es, ts) => (e :: es, ts)
        else none
      | _ => none

/-- Read operators and their right operands behind the left operand `e`. -/
def readOperators : Nat → Nat → Nat → Expr → List String → Option (Expr × List String)
  | 0, _, _, _, _ => none
  | _ + 1, _, _, e, [] => some (e, [])
  | f + 1, m, top, e, t :: ts => match operator? t with
    | some o =>
      if m ≤ o.level ∧ o.level ≤ top then match readExpr f o.right ts with
        | some (r, ts) => readOperators f m o.next (.bin e o r) ts
        | none => none
      else some (e, t :: ts)
    | none =>
      if t = "?" ∧ m ≤ 1 ∧ 1 ≤ top then match readExpr f 0 ts with
        | some (a, u :: ts) =>
          if u = ":" then match readExpr f 1 ts with
            | some (b, ts) => readOperators f m 0 (.cond e a b) ts
            | none => none
          else none
        | _ => none
      else some (e, t :: ts)
end

/-- The expression that a text is read as, if it is an expression. -/
def read (text : List Char) : Option Expr :=
  match readExpr (4 * (tokens text).length + 4) 0 (tokens text) with
  | some (e, []) => some e
  | _ => none

/-! ### Examples -/

/-- Expressions in words, to compare them. -/
def Expr.show : Expr → String
  | .leaf t => t
  | .unit n u => n ++ " " ++ u
  | .str t => "string " ++ t
  | .new_ p n => "new " ++ dotted p ++ toString n
  | .hole => "_"
  | .tuple es => "tuple(" ++ showAll es ++ ")"
  | .emptyIndex e => "(" ++ e.show ++ "[])"
  | .named f ns args => "(" ++ f.show ++ " applied to" ++ showNamed ns args ++ ")"
  | .options f ns args => "(" ++ f.show ++ " with" ++ showNamed ns args ++ ")"
  | .paren e => "paren " ++ e.show
  | .member e id => "(" ++ e.show ++ "." ++ id ++ ")"
  | .index e i => "(" ++ e.show ++ "[" ++ i.show ++ "])"
  | .call f args => "(" ++ f.show ++ " applied to" ++ showAll args ++ ")"
  | .bin l o r => "(" ++ l.show ++ o.text ++ r.show ++ ")"
  | .pre u e => "(" ++ u.text ++ " " ++ e.show ++ ")"
  | .post e u => "(" ++ e.show ++ " " ++ u.text ++ ")"
  | .cond c a b => "(if " ++ c.show ++ " then " ++ a.show ++ " else " ++ b.show ++ ")"
where
  /-- Several expressions in words. -/
  showAll : List Expr → String
    | [] => ""
    | e :: es => " " ++ e.show ++ showAll es
  /-- Named expressions in words. -/
  showNamed : List String → List Expr → String
    | n :: ns, e :: es => " " ++ n ++ "=" ++ e.show ++ showNamed ns es
    | _, _ => ""

example : (read "a + b * c ** d ** e - f".toList).map Expr.show = some "((a+(b*(c**(d**e))))-f)" := by
  decide +kernel
example : (read "a = b ? c : d ? e : f = g".toList).map Expr.show
    = some "(a=(if b then c else (if d then e else (f=g))))" := by decide +kernel
example : (read "a = b || c && !d ? e : f ? g : h".toList).map Expr.show
    = some "(a=(if (b||(c&&(! d))) then e else (if f then g else h)))" := by decide +kernel
example : (read "x[i++].f(-1, (a << 2) & 3) >= y.z".toList).map Expr.show
    = some "((((x[(i ++)]).f) applied to (- 1) (paren (a<<2)&3))>=(y.z))" := by decide +kernel
example : (read "- -a".toList).map Expr.show = some "(- (- a))" := by decide +kernel
example : (read "--a".toList).map Expr.show = some "(-- a)" := by decide +kernel
example : (read "(a, , b) = new A.B[](3)".toList).map Expr.show = some "(tuple( a _ b)=(new A.B1 applied to 3))" := by
  decide +kernel
example : (read "f{value: 1 ether, gas: g}({x: y + 1})".toList).map Expr.show
    = some "((f with value=1 ether gas=g) applied to x=(y+1))" := by decide +kernel
example : (read "abi.decode(d, (uint[], address))".toList).map Expr.show
    = some "((abi.decode) applied to d tuple( (uint[]) address))" := by decide +kernel
example : (read "f(\"a // b\", /* c\n */ d) // e".toList).map Expr.show = some "(f applied to string a // b d)" := by
  decide +kernel
example : tokens "a/b/**/c\"x\\\"y\"d".toList = ["a", "/", "b", "c", "\"x\\\"y\"", "d"] := by decide +kernel
example : (read "(a)".toList).map Expr.show = some "paren a" := by decide +kernel
example : (read "()".toList).map Expr.show = none := by decide +kernel
example : (read "a + b)".toList).map Expr.show = none := by decide +kernel

end SolGrammar
end Mutagenyx
