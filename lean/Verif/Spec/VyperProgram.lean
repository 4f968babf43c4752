import Verif.Spec.VyperExpr

/-!
# Vyper programs: how they are read and how they are laid out

A program is read in three steps.  The text is cut into logical lines: a line break ends the line unless it is between
brackets or in a text in three quotation marks.  Of each line the indentation and the tokens matter; lines without
tokens, which are empty or comments, and documentation are left out.  Then the lines are read as
statements and declarations, where what is indented further belongs to the line before.

The layout is that of the language's style: four blanks for each level.
-/

namespace Mutagenyx
namespace VyGrammar

/-! ### Programs -/

/-- Statements on one line.  There are several expressions where tuples may be written without parentheses. -/
inductive Simple where
  | expr (e : Expr)
  | assign (ts vs : List Expr)
  | aug (t : Expr) (o : Operator) (v : Expr)
  | ann (t ty : Expr) (v : Option Expr)
  | ret (vs : List Expr)
  | raise (e : Option Expr)
  | assert (e : Expr) (msg : Option Expr)
  | pass
  | break
  | continue
  | log (e : Expr)
  | import_ (path : List String) (alias : Option String)
  | from_ (level : Nat) (path : List String) (name : String) (alias : Option String)
  deriving Repr

/-- Statements.  A `quote` is a comment that holds a statement that was commented out. -/
inductive Stmt where
  | simple (s : Simple)
  | for_ (x : String) (ty : Option Expr) (it : Expr) (body : List Stmt)
  | if_ (c : Expr) (body els : List Stmt)
  | comment (t : String)
  | quote (s : Stmt)
  deriving Repr

/-- A parameter of a function. -/
structure Param where
  name : String
  type : Expr
  value : Option Expr
  deriving Repr

/-- Name, parameters and results of a function. -/
structure Sig where
  name : String
  params : List Param
  results : List Expr
  deriving Repr

/-- Declarations.  A `block` is a `struct`, an `event` or an `enum`; a `quote` is a comment that holds a declaration that was
commented out. -/
inductive Decl where
  | simple (s : Simple)
  | block (keyword name : String) (fields : List Simple)
  | interface (name : String) (functions : List (Sig × String))
  | fn (decorators : List Expr) (sig : Sig) (doc : Option String) (body : List Stmt)
  | comment (t : String)
  | quote (d : Decl)
  deriving Repr

/-- A program. -/
structure Program where
  doc : Option String
  decls : List Decl
  deriving Repr

mutual
/-- The statement without comments. -/
def bare : Stmt → List Stmt
  | .simple s => [.simple s]
  | .for_ x ty it body => [.for_ x ty it (bareAll body)]
  | .if_ c body els => [.if_ c (bareAll body) (bareAll els)]
  | .comment _ => []
  | .quote _ => []
/-- Statements without comments. -/
def bareAll : List Stmt → List Stmt
  | [] => []
  | s :: ss => bare s ++ bareAll ss
end

/-- The declaration without comments and documentation. -/
def Decl.bare : Decl → List Decl
  | .simple s => [.simple s]
  | .block k n fs => [.block k n fs]
  | .interface n fs => [.interface n fs]
  | .fn ds g _ body => [.fn ds g none (bareAll body)]
  | .comment _ => []
  | .quote _ => []

/-- The program without comments and documentation. -/
def Program.bare (p : Program) : Program where
  doc := none
  decls := p.decls.flatMap Decl.bare

/-! ### Logical lines -/

/-- Where in a text a character is. -/
inductive Mode where
  | code
  /-- Behind a quotation mark. -/
  | opened
  /-- Behind two quotation marks. -/
  | closed
  | text
  | escape
  /-- In a text in three quotation marks, behind some quotation marks. -/
  | doc (n : Nat)
  | docEscape
  | note
  deriving DecidableEq, Repr

/-- How many brackets are open at a character, and where it is. -/
structure Scanner where
  depth : Nat := 0
  mode : Mode := .code
  deriving DecidableEq, Repr

/-- Behind a character of the program. -/
def codeStep (n : Nat) (c : Char) : Scanner :=
  if c = '"' then ⟨n, .opened⟩
  else if c = '#' then ⟨n, .note⟩
  else if c = '(' ∨ c = '[' ∨ c = '{' then ⟨n + 1, .code⟩
  else if c = ')' ∨ c = ']' ∨ c = '}' then ⟨n - 1, .code⟩
  else ⟨n, .code⟩

/-- Behind a character. -/
def Scanner.step (s : Scanner) (c : Char) : Scanner :=
  match s.mode with
  | .code => codeStep s.depth c
  | .opened => if c = '"' then { s with mode := .closed } else if c = '\\' then { s with mode := .escape } else { s with mode := .text }
  | .closed => if c = '"' then { s with mode := .doc 0 } else codeStep s.depth c
  | .text => if c = '"' then { s with mode := .code } else if c = '\\' then { s with mode := .escape } else s
  | .escape => { s with mode := .text }
  | .doc n =>
    if c = '"' then (if n = 2 then { s with mode := .code } else { s with mode := .doc (n + 1) })
    else if c = '\\' then { s with mode := .docEscape } else { s with mode := .doc 0 }
  | .docEscape => { s with mode := .doc 0 }
  | .note => if c = '\n' then { s with mode := .code } else s

/-- A line break ends the logical line here. -/
def Scanner.ends (s : Scanner) : Bool := s.depth == 0 && (s.mode == .code || s.mode == .closed || s.mode == .note)

/-- The logical lines of a text that goes on behind `cur`. -/
def cutLines : Scanner → List Char → List Char → List (List Char)
  | _, cur, [] => [cur]
  | s, cur, c :: cs => if c = '\n' ∧ s.ends = true then cur :: cutLines {} [] cs else cutLines (s.step c) (cur ++ [c]) cs

/-- The line has only documentation. -/
def isDoc : List String → Bool
  | [t] => match t.toList with
    | '"' :: '"' :: '"' :: _ => true
    | _ => false
  | _ => false

/-- Indentation and tokens of a line. -/
abbrev Line := Nat × List String

/-- Indentation and tokens of a line. -/
def lineOf (l : List Char) : Line := ((l.takeWhile (· == ' ')).length, tokens l)

/-- The line matters. -/
def matters (l : Line) : Bool := !l.2.isEmpty && !isDoc l.2

/-- Indentation and tokens of the logical lines that matter. -/
def logical (text : List Char) : List Line := ((cutLines {} [] text).map lineOf).filter matters

/-- The line has only a comment. -/
def isNote : List String → Bool
  | [t] => t.toList.head? == some '#'
  | _ => false

/-- The line is part of the program. -/
def isCode (l : Line) : Bool := !isDoc l.2 && !isNote l.2

/-- Indentation and tokens of a line, or the comment if it has only a comment. -/
def wholeLine (l : List Char) : Line :=
  match l.dropWhile (· == ' ') with
  | '#' :: cs => ((l.takeWhile (· == ' ')).length, [String.ofList ('#' :: cs)])
  | _ => lineOf l

/-- Indentation and tokens of the logical lines, with documentation and lines that have only a comment. -/
def wholeLines (text : List Char) : List Line := ((cutLines {} [] text).map wholeLine).filter fun l => !l.2.isEmpty

/-- The text of a line that has only a comment. -/
def note? (t : String) : Option String :=
  match t.toList with
  | '#' :: ' ' :: cs => some (String.ofList cs)
  | '#' :: cs => some (String.ofList cs)
  | _ => none

/-- The text in three quotation marks. -/
def doc? (t : String) : Option String :=
  match t.toList with
  | '"' :: '"' :: '"' :: cs => some (String.ofList (cs.take (cs.length - 3)))
  | _ => none

/-- The documentation at the start of the lines, and what follows. -/
def readDoc : List Line → Option String × List Line
  | (i, ts) :: ls => match ts with
    | [t] => match doc? t with
      | some d => (some d, ls)
      | none => (none, (i, ts) :: ls)
    | _ => (none, (i, ts) :: ls)
  | [] => (none, [])

example : wholeLines "# a\nif b: # c\n  # d#\n  e()\n\n  \"\"\"f\n# g\"\"\"".toList =
    [(0, ["# a"]), (0, ["if", "b", ":"]), (2, ["# d#"]), (2, ["e", "(", ")"]), (2, ["\"\"\"f\n# g\"\"\""])] := by decide +kernel

example : logical "if a:\n  f(\n\"x\", # )\n1) # d\n\n \"\"\"\n b\"\"\"\n  c = \"#\"".toList =
    [(0, ["if", "a", ":"]), (2, ["f", "(", "\"x\"", ",", "1", ")"]), (2, ["c", "=", "\"#\""])] := by decide +kernel

/-! ### Reading statements on one line -/

/-- The expression at the start of the tokens, and what follows. -/
def expr? (ts : List String) : Option (Expr × List String) := readExpr (4 * ts.length + 4) 0 ts

/-- The tokens are an expression. -/
def whole? (ts : List String) : Option Expr :=
  match expr? ts with
  | some (e, []) => some e
  | _ => none

/-- Expressions with commas between them; the first argument bounds their number. -/
def readRow : Nat → List String → Option (List Expr × List String)
  | 0, _ => none
  | f + 1, ts => match expr? ts with
    | some (e, u :: us) => if u = "," then (readRow f us).map fun (es, ts) => (e :: es, ts) else some ([e], u :: us)
    | some (e, []) => some ([e], [])
    | none => none

/-- The expressions at the start of the tokens. -/
def row? (ts : List String) : Option (List Expr × List String) := readRow ts.length ts

/-- The tokens are expressions with commas between them. -/
def wholeRow? (ts : List String) : Option (List Expr) :=
  match row? ts with
  | some (es, []) => some es
  | _ => none

/-- The operators of augmented assignments. -/
def augmented : List Operator := [.add, .sub, .mult, .div, .mod, .pow, .bitAnd, .bitOr, .bitXor]

/-- Names with dots between them. -/
def readPath : List String → Option (List String × List String)
  | [] => none
  | [n] => if isName n then some ([n], []) else none
  | n :: u :: ts =>
    if isName n then
      if u = "." then (readPath ts).map fun (ns, ts) => (n :: ns, ts) else some ([n], u :: ts)
    else none

/-- The end of an import. -/
def alias? : List String → Option (Option String)
  | [] => some none
  | [u, a] => if u = "as" ∧ isName a = true then some (some a) else none
  | _ => none

/-- How many dots are at the start, and what follows. -/
def dots : List String → Nat × List String
  | [] => (0, [])
  | t :: ts => if t = "." then ((dots ts).1 + 1, (dots ts).2) else (0, t :: ts)

/-- What follows `import` behind `from`. -/
def readNames (level : Nat) (path : List String) : List String → Option Simple
  | n :: ts => if isName n then (alias? ts).map (.from_ level path n) else none
  | [] => none

/-- What follows `from`. -/
def readFrom (ts : List String) : Option Simple :=
  match dots ts with
  | (level, u :: us) =>
    if u = "import" ∧ 0 < level then readNames level [] us
    else match readPath (u :: us) with
      | some (path, v :: vs) => if v = "import" then readNames level path vs else none
      | _ => none
  | _ => none

/-- What follows `target:`. -/
def readAnn (t : Expr) (ts : List String) : Option Simple :=
  match expr? ts with
  | some (ty, []) => some (.ann t ty none)
  | some (ty, u :: us) => if u = "=" then (whole? us).map fun v => .ann t ty (some v) else none
  | none => none

/-- What follows `assert`. -/
def readAssert (ts : List String) : Option Simple :=
  match expr? ts with
  | some (e, []) => some (.assert e none)
  | some (e, u :: us) => if u = "," then (whole? us).map fun m => .assert e (some m) else none
  | none => none

/-- Statements that do not start with a keyword. -/
def readOther (ts : List String) : Option Simple :=
  match row? ts with
  | some (es, []) => match es with
    | [e] => some (.expr e)
    | _ => none
  | some (es, u :: us) =>
    if u = "=" then (wholeRow? us).map (.assign es)
    else match es with
      | [e] =>
        if u = ":" then readAnn e us
        else match augmented.find? fun o => o.text ++ "=" = u with
          | some o => (whole? us).map (.aug e o)
          | none => none
      | _ => none
  | none => none

/-- The tokens are a statement on one line. -/
def readSimple : List String → Option Simple
  | [] => none
  | t :: ts =>
    if t = "pass" then if ts = [] then some .pass else none
    else if t = "break" then if ts = [] then some .break else none
    else if t = "continue" then if ts = [] then some .continue else none
    else if t = "return" then if ts = [] then some (.ret []) else (wholeRow? ts).map .ret
    else if t = "raise" then if ts = [] then some (.raise none) else (whole? ts).map fun e => .raise (some e)
    else if t = "assert" then readAssert ts
    else if t = "log" then (whole? ts).map .log
    else if t = "import" then match readPath ts with
      | some (p, us) => (alias? us).map (.import_ p)
      | none => none
    else if t = "from" then readFrom ts
    else readOther (t :: ts)

/-! ### Reading statements -/

/-- What follows `for`. -/
def readFor (ts : List String) : Option (String × Option Expr × Expr) :=
  match ts with
  | x :: u :: us =>
    if isName x then
      if u = "in" then match expr? us with
        | some (it, vs) => if vs = [":"] then some (x, none, it) else none
        | none => none
      else if u = ":" then match readExpr (4 * us.length + 4) 5 us with
        | some (ty, v :: vs) =>
          if v = "in" then match expr? vs with
            | some (it, ws) => if ws = [":"] then some (x, some ty, it) else none
            | none => none
          else none
        | _ => none
      else none
    else none
  | _ => none

mutual
/-- The statements with indentation `d` at the start of the lines, and what follows them; the first argument bounds the
recursion. -/
def readStmts : Nat → Nat → List Line → Option (List Stmt × List Line)
  | 0, _, _ => none
  | _ + 1, _, [] => some ([], [])
  | f + 1, d, (i, ts) :: ls =>
    if i < d then some ([], (i, ts) :: ls)
    else if d < i then none
    else match readStmt f d ts ls with
      | some (s, ls) => (readStmts f d ls).map fun (ss, ls) => (s :: ss, ls)
      | none => none

/-- The statement with the first line `ts`. -/
def readStmt : Nat → Nat → List String → List Line → Option (Stmt × List Line)
  | 0, _, _, _ => none
  | _ + 1, _, [], _ => none
  | f + 1, d, t :: ts, ls =>
    if isNote (t :: ts) then (note? t).map fun n => (.comment n, ls)
    else if t = "for" then match readFor ts with
      | some (x, ty, it) => (readBody f d ls).map fun (b, ls) => (.for_ x ty it b, ls)
      | none => none
    else if t = "if" then match expr? ts with
      | some (c, us) =>
        if us = [":"] then match readBody f d ls with
          | some (b, l :: ls) =>
            if l = (d, ["else", ":"]) then (readBody f d ls).map fun (e, ls) => (.if_ c b e, ls)
            else some (.if_ c b [], l :: ls)
          | some (b, []) => some (.if_ c b [], [])
          | none => none
        else none
      | none => none
    else (readSimple (t :: ts)).map fun s => (.simple s, ls)

/-- The statements that are indented further than `d`. -/
def readBody : Nat → Nat → List Line → Option (List Stmt × List Line)
  | 0, _, _ => none
  | _ + 1, _, [] => none
  | f + 1, d, (i, ts) :: ls => if d < i then readStmts f i ((i, ts) :: ls) else none
end

/-! ### Reading declarations -/

/-- What is behind a parameter; the argument bounds the number of parameters. -/
def readParams : Nat → List String → Option (List Param × List String)
  | 0, _ => none
  | _ + 1, [] => none
  | f + 1, x :: ts =>
    if x = ")" then some ([], ts)
    else match ts with
      | [] => none
      | u :: us =>
        if isName x = true ∧ u = ":" then match expr? us with
          | some (ty, v :: vs) =>
            if v = "=" then match expr? vs with
              | some (e, w :: ws) =>
                if w = ")" then some ([⟨x, ty, some e⟩], ws)
                else if w = "," then (readParams f ws).map fun (ps, ts) => (⟨x, ty, some e⟩ :: ps, ts)
                else none
              | _ => none
            else if v = ")" then some ([⟨x, ty, none⟩], vs)
            else if v = "," then (readParams f vs).map fun (ps, ts) => (⟨x, ty, none⟩ :: ps, ts)
            else none
          | _ => none
        else none

/-- The types of results behind `->`. -/
def readResults : List String → Option (List Expr × List String)
  | [] => none
  | t :: ts =>
    if t = "(" then match readItems (4 * ts.length + 4) ")" ts with
      | some (e :: es, ts) => some (e :: es, ts)
      | _ => none
    else (expr? (t :: ts)).map fun (e, ts) => ([e], ts)

/-- What follows `def`, up to the colon. -/
def readSig : List String → Option (Sig × List String)
  | n :: u :: ts =>
    if isName n = true ∧ u = "(" then match readParams (ts.length + 1) ts with
      | some (ps, v :: vs) =>
        if v = ":" then some (⟨n, ps, []⟩, vs)
        else if v = "->" then match readResults vs with
          | some (rs, w :: ws) => if w = ":" then some (⟨n, ps, rs⟩, ws) else none
          | _ => none
        else none
      | _ => none
    else none
  | _ => none

/-- The decorators at the start of the lines. -/
def readDecorators : List Line → Option (List Expr × List Line)
  | [] => some ([], [])
  | (i, ts) :: ls => match ts with
    | [] => none
    | t :: us =>
      if t = "@" then
        if i = 0 then match whole? us, readDecorators ls with
          | some e, some (es, ls) => some (e :: es, ls)
          | _, _ => none
        else none
      else some ([], (i, t :: us) :: ls)

/-- The functions of an interface. -/
def readFunctions (d : Nat) : List Line → Option (List (Sig × String) × List Line)
  | [] => some ([], [])
  | (i, ts) :: ls =>
    if i < d then some ([], (i, ts) :: ls)
    else if d < i then none
    else match ts with
      | t :: us =>
        if t = "def" then match readSig us with
          | some (g, [m]) => if isName m then (readFunctions d ls).map fun (fs, ls) => ((g, m) :: fs, ls) else none
          | _ => none
        else none
      | [] => none

/-- All of them are on one line. -/
def simples? : List Stmt → Option (List Simple)
  | [] => some []
  | .simple s :: ss => (simples? ss).map (s :: ·)
  | _ => none

/-- Words that start a block of statements on one line. -/
def keywords : List String := ["struct", "event", "enum"]

/-- The name between a keyword and the colon. -/
def name? : List String → Option String
  | [n, u] => if isName n = true ∧ u = ":" then some n else none
  | _ => none

/-- The declaration with the first line `ts`. -/
def readDecl (f : Nat) (ts : List String) (ls : List Line) : Option (Decl × List Line) :=
  match ts with
  | [] => none
  | t :: us =>
    if keywords.contains t then match name? us, readBody f 0 ls with
      | some n, some (ss, ls) => (simples? ss).map fun fs => (.block t n fs, ls)
      | _, _ => none
    else if t = "interface" then match name? us, ls with
      | some n, (i, ts) :: ls =>
        if 0 < i then (readFunctions i ((i, ts) :: ls)).map fun (fs, ls) => (.interface n fs, ls) else none
      | _, _ => none
    else (readSimple (t :: us)).map fun s => (.simple s, ls)

/-- Declarations; the first argument bounds their number and the nesting. -/
def readDecls : Nat → List Line → Option (List Decl)
  | 0, _ => none
  | _ + 1, [] => some []
  | f + 1, (i, ts) :: ls =>
    if i ≠ 0 then none
    else if isNote ts then (ts.head?.bind note?).bind fun n => (readDecls f ls).map (.comment n :: ·)
    else match readDecorators ((i, ts) :: ls) with
      | none => none
      | some (ds, rest) => match rest with
        | (j, t :: us) :: ls =>
          if t = "def" then
            if j = 0 then match readSig us, readBody f 0 (readDoc ls).2 with
              | some (g, []), some (body, ls') => (readDecls f ls').map (.fn ds g (readDoc ls).1 body :: ·)
              | _, _ => none
            else none
          else if ds.isEmpty then match readDecl f (t :: us) ls with
            | some (decl, ls) => (readDecls f ls).map (decl :: ·)
            | none => none
          else none
        | _ => none

/-- The program that a text is read as, without comments and documentation. -/
def readProgram (text : List Char) : Option Program :=
  (readDecls (4 * text.length + 4) (logical text)).map fun ds => ⟨none, ds⟩

/-- The program that a text is read as, with documentation and with the comments that have lines of their own. -/
def readWhole (text : List Char) : Option Program :=
  (readDecls (4 * text.length + 4) (readDoc (wholeLines text)).2).map fun ds => ⟨(readDoc (wholeLines text)).1, ds⟩

/-! ### Layout -/

/-- The indentation of a level. -/
def blanks (d : Nat) : List Char := List.replicate (4 * d) ' '

/-- In parentheses if needed. -/
def parens (b : Bool) (t : List Char) : List Char := if b then '(' :: (t ++ [')']) else t

mutual
/-- The text of an expression in a line of level `d`. -/
def textE (d : Nat) : Expr → List Char
  | .leaf t => t.toList
  | .str t => '"' :: (t.toList ++ ['"'])
  | .attr e id => textE d e ++ '.' :: id.toList
  | .index e is => textE d e ++ '[' :: (textRow d is ++ [']'])
  | .call f args => textE d f ++ '(' :: (textRow d args ++ [')'])
  | .list es => '[' :: (textRow d es ++ [']'])
  | .dict es => '{' :: (textEntries d es ++ ['}'])
  | .named k e => k.toList ++ '=' :: textE d e
  | .entry k v => textE d k ++ ':' :: ' ' :: textE d v
  | .bin l o r => parens (isBin l) (textE d l) ++ ' ' :: (o.text.toList ++ ' ' :: parens (isBin r) (textE d r))
  | .not e => 'n' :: 'o' :: 't' :: ' ' :: parens (isBin e) (textE d e)
  | .inv e => '~' :: parens (isBin e) (textE d e)
  | .neg e => '-' :: (numberText e).toList
/-- Expressions with commas between them. -/
def textRow (d : Nat) : List Expr → List Char
  | [] => []
  | e :: es => textE d e ++ textRest d es
/-- Further expressions. -/
def textRest (d : Nat) : List Expr → List Char
  | [] => []
  | e :: es => ',' :: ' ' :: (textE d e ++ textRest d es)
/-- The entries of a dictionary, each on a line. -/
def textEntries (d : Nat) : List Expr → List Char
  | [] => []
  | e :: es => '\n' :: (blanks (d + 1) ++ (textE (d + 1) e ++ (textMore (d + 1) es ++ '\n' :: blanks d)))
/-- Further entries. -/
def textMore (d : Nat) : List Expr → List Char
  | [] => []
  | e :: es => ',' :: '\n' :: (blanks d ++ (textE d e ++ textMore d es))
end

/-- Names with dots between them. -/
def pathText : List String → List Char
  | [] => []
  | [n] => n.toList
  | n :: ns => n.toList ++ '.' :: pathText ns

/-- `as` and the other name. -/
def aliasText : Option String → List Char
  | none => []
  | some a => " as ".toList ++ a.toList

/-- A separator and an expression, if there is one. -/
def textOption (d : Nat) (sep : String) : Option Expr → List Char
  | none => []
  | some e => sep.toList ++ textE d e

/-- The text of a statement on one line. -/
def textSimple (d : Nat) : Simple → List Char
  | .expr e => textE d e
  | .assign ts vs => textRow d ts ++ (" = ".toList ++ textRow d vs)
  | .aug t o v => textE d t ++ ' ' :: (o.text.toList ++ '=' :: ' ' :: textE d v)
  | .ann t ty v => textE d t ++ ':' :: ' ' :: (textE d ty ++ textOption d " = " v)
  | .ret vs => "return".toList ++ if vs = [] then [] else ' ' :: textRow d vs
  | .raise e => "raise".toList ++ ' ' :: textOption d "" e
  | .assert e m => "assert".toList ++ ' ' :: (textE d e ++ textOption d ", " m)
  | .pass => "pass".toList
  | .break => "break".toList
  | .continue => "continue".toList
  | .log e => "log".toList ++ ' ' :: textE d e
  | .import_ p a => "import".toList ++ ' ' :: (pathText p ++ aliasText a)
  | .from_ level p n a =>
    "from".toList ++ ' ' :: (List.replicate level '.' ++ (pathText p ++ (" import ".toList ++ (n.toList ++ aliasText a))))

/-- The text with one blank for several ones. -/
def squeeze : List Char → List Char
  | c :: d :: cs => if c = ' ' ∧ d = ' ' then squeeze (d :: cs) else c :: squeeze (d :: cs)
  | cs => cs

/-- The text on one line. -/
def onOneLine (t : List Char) : List Char := squeeze (t.map fun c => if c = '\n' then ' ' else c)

mutual
/-- The text of a statement of level `d`, without the indentation of its first line. -/
def textStmt (d : Nat) : Stmt → List Char
  | .simple s => textSimple d s
  | .for_ x ty it body =>
    "for ".toList ++ (x.toList ++ (textOption d ": " ty ++ (" in ".toList ++ (textE d it ++ ':' :: '\n' :: textLines (d + 1) body))))
  | .if_ c body els =>
    "if ".toList ++ (textE d c ++ ':' :: '\n' :: (textBody (d + 1) body ++
      if els = [] then [] else '\n' :: (blanks d ++ ("else:\n".toList ++ textBody (d + 1) els))))
  | .comment t => '#' :: ' ' :: t.toList
  | .quote s => '#' :: ' ' :: onOneLine (textStmt 0 s)
/-- Statements of level `d` with line breaks between them. -/
def textBody (d : Nat) : List Stmt → List Char
  | [] => []
  | s :: ss => blanks d ++ (textStmt d s ++ textFurther d ss)
/-- Further statements. -/
def textFurther (d : Nat) : List Stmt → List Char
  | [] => []
  | s :: ss => '\n' :: (blanks d ++ (textStmt d s ++ textFurther d ss))
/-- Statements of level `d` with line breaks behind them. -/
def textLines (d : Nat) : List Stmt → List Char
  | [] => []
  | s :: ss => blanks d ++ (textStmt d s ++ '\n' :: textLines d ss)
end

/-- The text of a parameter. -/
def textParam (d : Nat) (p : Param) : List Char :=
  p.name.toList ++ ':' :: ' ' :: (textE d p.type ++ textOption d "=" p.value)

/-- Parameters with commas between them. -/
def textParams (d : Nat) : List Param → List Char
  | [] => []
  | [p] => textParam d p
  | p :: ps => textParam d p ++ ',' :: ' ' :: textParams d ps

/-- The results of a function. -/
def textResults (d : Nat) : List Expr → List Char
  | [] => []
  | [e] => " -> ".toList ++ textE d e
  | es => " -> ".toList ++ '(' :: (textRow d es ++ [')'])

/-- The text of a signature. -/
def textSig (d : Nat) (g : Sig) : List Char :=
  "def ".toList ++ (g.name.toList ++ '(' :: (textParams d g.params ++ ')' :: (textResults d g.results ++ [':'])))

/-- A text in three quotation marks. -/
def tripled (t : List Char) : List Char := '"' :: '"' :: '"' :: (t ++ ['"', '"', '"'])

/-- Documentation of level `d`.  If it has several lines and is long, an empty line is before it. -/
def textDoc (d : Nat) (t : String) : List Char :=
  if '\n' ∈ t.toList ∧ 150 < 4 * d + 1 + ((tripled t.toList).map Char.utf8Size).sum then '\n' :: (blanks d ++ tripled t.toList)
  else tripled t.toList

/-- Decorators, each on a line. -/
def textDecorators : List Expr → List Char
  | [] => []
  | e :: es => '@' :: (textE 0 e ++ '\n' :: textDecorators es)

/-- Lines of level 1. -/
def textFields : List Simple → List Char
  | [] => []
  | s :: ss => blanks 1 ++ (textSimple 1 s ++ '\n' :: textFields ss)

/-- The functions of an interface. -/
def textFunctions : List (Sig × String) → List Char
  | [] => []
  | (g, m) :: fs => blanks 1 ++ (textSig 1 g ++ ' ' :: (m.toList ++ '\n' :: textFunctions fs))

/-- The first line of a block. -/
def textHead (keyword name : String) : List Char := keyword.toList ++ ' ' :: (name.toList ++ [':', '\n'])

/-- The part of a function before its documentation. -/
def textFront (ds : List Expr) (g : Sig) : List Char := textDecorators ds ++ textSig 0 g

/-- The text of a declaration.  The last line of a `struct` and of an interface is ended. -/
def textDecl : Decl → List Char
  | .simple s => textSimple 0 s
  | .block k n fs => textHead k n ++ if k = "struct" then textFields fs else textBody 1 (fs.map .simple)
  | .interface n fs => textHead "interface" n ++ textFunctions fs
  | .fn ds g doc body =>
    textFront ds g ++ ((match doc with
      | none => []
      | some t => '\n' :: (blanks 1 ++ (textDoc 1 t ++ ['\n']))) ++ '\n' :: textBody 1 body)
  | .comment t => '#' :: ' ' :: t.toList
  | .quote d => '#' :: ' ' :: onOneLine (textDecl d)

/-- Declarations with an empty line behind each. -/
def textDecls : List Decl → List Char
  | [] => []
  | x :: xs => textDecl x ++ '\n' :: '\n' :: textDecls xs

/-- The text of a program. -/
def textProgram (p : Program) : List Char :=
  (match p.doc with
    | none => []
    | some t => textDoc 0 t ++ ['\n', '\n']) ++ textDecls p.decls

/-! ### What is commented out -/

mutual
/-- The statement with what is commented out in it as comments. -/
def notedStmt : Stmt → Stmt
  | .simple s => .simple s
  | .for_ x ty it body => .for_ x ty it (notedAll body)
  | .if_ c body els => .if_ c (notedAll body) (notedAll els)
  | .comment t => .comment t
  | .quote s => .comment (String.ofList (onOneLine (textStmt 0 s)))
/-- Statements with what is commented out in them as comments. -/
def notedAll : List Stmt → List Stmt
  | [] => []
  | s :: ss => notedStmt s :: notedAll ss
end

/-- The declaration with what is commented out in it as comments. -/
def Decl.noted : Decl → Decl
  | .simple s => .simple s
  | .block k n fs => .block k n fs
  | .interface n fs => .interface n fs
  | .fn ds g doc body => .fn ds g doc (notedAll body)
  | .comment t => .comment t
  | .quote d => .comment (String.ofList (onOneLine (textDecl d)))

/-- The program with what is commented out in it as comments. -/
def Program.noted (p : Program) : Program where
  doc := p.doc
  decls := p.decls.map Decl.noted

end VyGrammar
end Mutagenyx
