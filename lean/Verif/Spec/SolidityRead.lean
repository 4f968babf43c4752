import Verif.Spec.SolidityChange

/-!
# How Solidity reads statements, declarations and files

Written from the grammar of the language, without reference to the printer.  Expressions are read as in
`Spec.SolidityGrammar`.
-/

namespace Mutagenyx
namespace SolGrammar

/-! ### Words -/

/-- The words for who may use something. -/
def visibilities : List String := ["public", "private", "internal", "external"]

/-- The words for where a value is. -/
def locations : List String := ["memory", "storage", "calldata"]

/-- The words for what a function may do. -/
def mutabilities : List String := ["pure", "view", "payable"]

/-- The words for functions. -/
def functionKinds : List String := ["function", "constructor", "fallback", "receive"]

/-- The words for contracts. -/
def contractKinds : List String := ["contract", "interface", "library"]

/-- The words with which statements begin that are neither expressions nor declarations. -/
def statementWords : List String :=
  ["unchecked", "if", "while", "do", "for", "return", "emit", "break", "continue", "try", "assembly", "else", "catch", "{", "}"]

/-- The words with which members of contracts and parts of files begin. -/
def memberWords : List String :=
  functionKinds ++ contractKinds ++ ["modifier", "event", "error", "struct", "enum", "using", "type", "pragma", "import", "abstract"]

/-- Words that are no names. -/
def reserved : List String :=
  visibilities ++ locations ++ mutabilities ++ statementWords ++ units ++
    ["constant", "indexed", "immutable", "virtual", "override", "returns", "mapping", "is", "as", "from", "anonymous", "global",
      "revert", "_"] ++
    functionKinds ++ contractKinds ++ ["modifier", "event", "struct", "enum", "using", "type", "pragma", "import", "abstract"]

/-- The name is that of a type of the language. -/
def elementary (t : String) : Bool :=
  t ∈ ["address", "bool", "string", "bytes", "byte", "int", "uint", "fixed", "ufixed", "var"] ||
    ["int", "uint", "bytes", "fixed", "ufixed"].any fun b =>
      b.toList.isPrefixOf t.toList && ((t.toList.drop b.length).all fun c => c.isDigit || c == 'x')

/-! ### Parts -/

/-- The token comes next. -/
def expect (t : String) : List String → Option (List String)
  | [] => none
  | u :: ts => if u = t then some ts else none

/-- Whether the token comes next; it is read if so. -/
def accept (t : String) : List String → Bool × List String
  | [] => (false, [])
  | u :: ts => if u = t then (true, ts) else (false, u :: ts)

/-- Read one of the words if it comes next. -/
def oneOf (ws : List String) : List String → Option String × List String
  | [] => (none, [])
  | u :: ts => if u ∈ ws then (some u, ts) else (none, u :: ts)

/-- Read a name if one comes next. -/
def optName : List String → Option String × List String
  | [] => (none, [])
  | u :: ts => if isName u = true ∧ u ∉ reserved then (some u, ts) else (none, u :: ts)

/-- Read a name. -/
def nameAt : List String → Option (String × List String)
  | [] => none
  | u :: ts => if isName u = true then some (u, ts) else none

/-- Read a string literal. -/
def literalAt : List String → Option (String × List String)
  | [] => none
  | u :: ts => (literal? u).map fun t => (t, ts)

/-- Read things with commas between them.  The number bounds how many there are. -/
def commas {α : Type} (p : List String → Option (α × List String)) : Nat → List String → Option (List α × List String)
  | 0, _ => none
  | n + 1, ts => match p ts with
    | none => none
    | some (a, us) =>
      if us.head? = some "," then (commas p n us.tail).map fun (as, vs) => (a :: as, vs) else some ([a], us)

/-- Read things up to the token, which is read, too.  The number bounds how many there are. -/
def upTo {α : Type} (stop : String) (p : List String → Option (α × List String)) : Nat → List String → Option (List α × List String)
  | 0, _ => none
  | n + 1, ts =>
    if ts.head? = some stop then some ([], ts.tail)
    else match p ts with
      | none => none
      | some (a, us) => (upTo stop p n us).map fun (as, vs) => (a :: as, vs)

/-- Read an expression. -/
def exprAt (ts : List String) : Option (Expr × List String) := readExpr (4 * ts.length + 4) 0 ts

/-! ### Types and declarations -/

/-- The type with the name. -/
def namedTy : List String → Ty
  | [t] => if elementary t then .elem t else .user [t]
  | p => .user p

mutual
/-- Read a type.  The first argument bounds the recursion. -/
def readTy : Nat → List String → Option (Ty × List String)
  | 0, _ => none
  | n + 1, ts =>
    if ts.head? = some "mapping" then do
      let ts ← expect "(" ts.tail
      let (k, ts) ← readTy n ts
      let ts ← expect "=>" ts
      let (v, ts) ← readTy n ts
      let ts ← expect ")" ts
      readDims n (.mapping k v) ts
    else if ts.head? = some "address" ∧ ts.tail.head? = some "payable" then readDims n .addressPayable ts.tail.tail
    else do
      let (p, ts) ← readPath ts
      readDims n (namedTy p) ts
/-- Read the brackets behind a type. -/
def readDims : Nat → Ty → List String → Option (Ty × List String)
  | 0, _, _ => none
  | n + 1, b, ts =>
    if ts.head? = some "[" then
      if ts.tail.head? = some "]" then readDims n (.array b) ts.tail.tail
      else do
        let (e, ts) ← exprAt ts.tail
        let ts ← expect "]" ts
        readDims n (.fixed b e) ts
    else some (b, ts)
end

/-- Read a type. -/
def tyAt (ts : List String) : Option (Ty × List String) := readTy (ts.length + 2) ts

/-- Read `= value` if it comes next. -/
def valueAt (ts : List String) : Option (Option Expr × List String) :=
  if ts.head? = some "=" then (exprAt ts.tail).map fun (e, ts) => (some e, ts) else some (none, ts)

/-- Read a declaration. -/
def varAt (ts : List String) : Option (Var × List String) :=
  match tyAt ts with
  | none => none
  | some (type, ts) =>
    let (visibility, ts) := oneOf visibilities ts
    let (constant, ts) := accept "constant" ts
    let (indexed, ts) := accept "indexed" ts
    let (immutable, ts) := accept "immutable" ts
    let (location, ts) := oneOf locations ts
    let (name, ts) := optName ts
    (valueAt ts).map fun (value, ts) => ({ type, visibility, constant, indexed, immutable, location, name, value }, ts)

/-- Read parameters in parentheses. -/
def paramsAt (ts : List String) : Option (List Var × List String) := do
  let ts ← expect "(" ts
  if ts.head? = some ")" then some ([], ts.tail)
  else do
    let (vs, ts) ← commas varAt ts.length ts
    let ts ← expect ")" ts
    some (vs, ts)

/-- Read the results. -/
def returnsAt (ts : List String) : Option (List Var × List String) :=
  if ts.head? = some "returns" then paramsAt ts.tail else some ([], ts)

/-! ### Assembly -/

mutual
/-- Read an expression. -/
def readYulExpr : Nat → List String → Option (YulExpr × List String)
  | 0, _ => none
  | _ + 1, [] => none
  | n + 1, t :: ts =>
    if isName t = true ∧ t ≠ "true" ∧ t ≠ "false" then
      if ts.head? = some "(" then (readYulArgs n ts.tail).map fun (as, ts) => (.call t as, ts)
      else (readPath (t :: ts)).map fun (p, ts) => (.name p, ts)
    else if isLeaf t then some (.lit t, ts)
    else (literal? t).map fun s => (.str s, ts)
/-- Read arguments up to the closing parenthesis. -/
def readYulArgs : Nat → List String → Option (List YulExpr × List String)
  | 0, _ => none
  | n + 1, ts =>
    if ts.head? = some ")" then some ([], ts.tail)
    else match readYulExpr n ts with
      | some (e, u :: us) =>
        if u = ")" then some ([e], us)
        else if u = "," then (readYulArgs n us).map fun (es, us) => (e :: es, us)
        else none
      | _ => none
end

/-- Read an expression. -/
def yulExprAt (ts : List String) : Option (YulExpr × List String) := readYulExpr (ts.length + 1) ts

/-- Read the results of a function. -/
def yulReturnsAt (ts : List String) : Option (List String × List String) :=
  if ts.head? = some "->" then commas nameAt ts.length ts.tail else some ([], ts)

/-- Read the parameters of a function. -/
def yulParamsAt (ts : List String) : Option (List String × List String) := do
  let ts ← expect "(" ts
  if ts.head? = some ")" then some ([], ts.tail)
  else do
    let (ns, ts) ← commas nameAt ts.length ts
    let ts ← expect ")" ts
    some (ns, ts)

mutual
/-- Read a statement. -/
def readYul : Nat → List String → Option (YulStmt × List String)
  | 0, _ => none
  | _ + 1, [] => none
  | n + 1, t :: ts =>
    if t = "{" then (readYuls n ts).map fun (ss, ts) => (.block ss, ts)
    else if t = "let" then do
      let (vs, ts) ← commas nameAt ts.length ts
      if ts.head? = some ":=" then (yulExprAt ts.tail).map fun (e, ts) => (.let_ vs (some e), ts) else some (.let_ vs none, ts)
    else if t = "if" then do
      let (c, ts) ← yulExprAt ts
      let ts ← expect "{" ts
      (readYuls n ts).map fun (ss, ts) => (.if_ c ss, ts)
    else if t = "switch" then do
      let (e, ts) ← yulExprAt ts
      (readCases n ts).map fun (cs, ts) => (.switch e cs, ts)
    else if t = "for" then do
      let ts ← expect "{" ts
      let (pre, ts) ← readYuls n ts
      let (c, ts) ← yulExprAt ts
      let ts ← expect "{" ts
      let (post, ts) ← readYuls n ts
      let ts ← expect "{" ts
      (readYuls n ts).map fun (body, ts) => (.for_ pre c post body, ts)
    else if t = "function" then do
      let (name, ts) ← nameAt ts
      let (ps, ts) ← yulParamsAt ts
      let (rs, ts) ← yulReturnsAt ts
      let ts ← expect "{" ts
      (readYuls n ts).map fun (ss, ts) => (.function name ps rs ss, ts)
    else if t = "break" then some (.break_, ts)
    else if t = "continue" then some (.continue_, ts)
    else if t = "leave" then some (.leave, ts)
    else do
      let (vs, us) ← commas readPath (ts.length + 1) (t :: ts)
      if us.head? = some ":=" then (yulExprAt us.tail).map fun (e, ts) => (.assign vs e, ts)
      else (yulExprAt (t :: ts)).map fun (e, ts) => (.expr e, ts)
/-- Read statements up to the closing brace. -/
def readYuls : Nat → List String → Option (List YulStmt × List String)
  | 0, _ => none
  | n + 1, ts =>
    if ts.head? = some "}" then some ([], ts.tail)
    else match readYul n ts with
      | none => none
      | some (s, ts) => (readYuls n ts).map fun (ss, ts) => (s :: ss, ts)
/-- Read the cases of a `switch`. -/
def readCases : Nat → List String → Option (List YulStmt × List String)
  | 0, _ => none
  | n + 1, ts =>
    if ts.head? = some "case" then do
      let (v, ts) ← yulExprAt ts.tail
      let ts ← expect "{" ts
      let (ss, ts) ← readYuls n ts
      (readCases n ts).map fun (cs, ts) => (.case_ (some v) ss :: cs, ts)
    else if ts.head? = some "default" then do
      let ts ← expect "{" ts.tail
      let (ss, ts) ← readYuls n ts
      (readCases n ts).map fun (cs, ts) => (.case_ none ss :: cs, ts)
    else some ([], ts)
end

/-! ### Statements -/

/-- Read one place of a declaration of several variables. -/
def slotAt (ts : List String) : Option (Option Var × List String) :=
  if ts.head? = some "," ∨ ts.head? = some ")" then some (none, ts)
  else (varAt ts).map fun (v, ts) => (some v, ts)

/-- Read a declaration statement. -/
def declAt (ts : List String) : Option (Stmt × List String) :=
  if ts.head? = some "(" then do
    let (vs, ts) ← commas slotAt ts.length ts.tail
    let ts ← expect ")" ts
    let (value, ts) ← valueAt ts
    let ts ← expect ";" ts
    some (.decl vs value, ts)
  else do
    let (v, ts) ← varAt ts
    let ts ← expect ";" ts
    some (.decl [some { v with value := none }] v.value, ts)

/-- Read an expression statement or a declaration statement. -/
def simpleAt (ts : List String) : Option (Stmt × List String) :=
  match exprAt ts with
  | some (e, us) => if us.head? = some ";" then some (.expr e, us.tail) else declAt ts
  | none => declAt ts

/-- Read an expression and the semicolon behind it. -/
def exprEnd (ts : List String) : Option (Expr × List String) := do
  let (e, ts) ← exprAt ts
  let ts ← expect ";" ts
  some (e, ts)

/-- Read an expression in parentheses. -/
def conditionAt (ts : List String) : Option (Expr × List String) := do
  let ts ← expect "(" ts
  let (e, ts) ← exprAt ts
  let ts ← expect ")" ts
  some (e, ts)

/-- Read the flags of inline assembly. -/
def flagsAt (ts : List String) : Option (List String × List String) :=
  if ts.head? = some "(" then do
    let (fs, ts) ← commas literalAt ts.length ts.tail
    let ts ← expect ")" ts
    some (fs, ts)
  else some ([], ts)

/-- Read the parameters of a clause if there are any. -/
def clauseParamsAt (ts : List String) : Option (Option (List Var) × List String) :=
  if ts.head? = some "(" then (paramsAt ts).map fun (vs, ts) => (some vs, ts) else some (none, ts)

/-- Read the last part of the head of a `for`. -/
def stepAt (ts : List String) : Option (Option Expr × List String) :=
  if ts.head? = some ")" then some (none, ts.tail)
  else do
    let (e, ts) ← exprAt ts
    let ts ← expect ")" ts
    some (some e, ts)

mutual
/-- Read a statement.  An `else` belongs to the last `if`. -/
def readStmt : Nat → List String → Option (Stmt × List String)
  | 0, _ => none
  | _ + 1, [] => none
  | n + 1, t :: ts =>
    if t = "{" then (readStmts n ts).map fun (ss, ts) => (.block ss, ts)
    else if t = "unchecked" then do
      let ts ← expect "{" ts
      (readStmts n ts).map fun (ss, ts) => (.unchecked ss, ts)
    else if t = "if" then do
      let (c, ts) ← conditionAt ts
      let (a, ts) ← readStmt n ts
      if ts.head? = some "else" then (readStmt n ts.tail).map fun (b, ts) => (.ifElse c a b, ts)
      else some (.if_ c a, ts)
    else if t = "while" then do
      let (c, ts) ← conditionAt ts
      (readStmt n ts).map fun (b, ts) => (.while_ c b, ts)
    else if t = "do" then do
      let (b, ts) ← readStmt n ts
      let ts ← expect "while" ts
      let (c, ts) ← conditionAt ts
      let ts ← expect ";" ts
      some (.doWhile b c, ts)
    else if t = "for" then do
      let ts ← expect "(" ts
      let (i, ts) ← simpleAt ts
      let (c, ts) ← exprEnd ts
      let (s, ts) ← stepAt ts
      (readStmt n ts).map fun (b, ts) => (.for_ i c s b, ts)
    else if t = "return" then
      if ts.head? = some ";" then some (.return_ none, ts.tail)
      else (exprEnd ts).map fun (e, ts) => (.return_ (some e), ts)
    else if t = "emit" then (exprEnd ts).map fun (e, ts) => (.emit e, ts)
    else if t = "revert" ∧ ts.head? ≠ some "(" then (exprEnd ts).map fun (e, ts) => (.revert e, ts)
    else if t = "break" then (expect ";" ts).map fun ts => (.break_, ts)
    else if t = "continue" then (expect ";" ts).map fun ts => (.continue_, ts)
    else if t = "_" ∧ ts.head? = some ";" then some (.placeholder, ts.tail)
    else if t = "try" then do
      let (e, ts) ← exprAt ts
      let (rs, ts) ← returnsAt ts
      let ts ← expect "{" ts
      let (b, ts) ← readStmts n ts
      (readClauses n ts).map fun (cs, ts) => (.try_ e rs b cs, ts)
    else if t = "assembly" then do
      let (fs, ts) ← flagsAt ts
      let ts ← expect "{" ts
      (readYuls n ts).map fun (ss, ts) => (.assembly fs ss, ts)
    else simpleAt (t :: ts)
/-- Read statements up to the closing brace. -/
def readStmts : Nat → List String → Option (List Stmt × List String)
  | 0, _ => none
  | n + 1, ts =>
    if ts.head? = some "}" then some ([], ts.tail)
    else match readStmt n ts with
      | none => none
      | some (s, ts) => (readStmts n ts).map fun (ss, ts) => (s :: ss, ts)
/-- Read the clauses of a `try`. -/
def readClauses : Nat → List String → Option (List Stmt × List String)
  | 0, _ => none
  | n + 1, ts =>
    if ts.head? = some "catch" then do
      let (name, ts) := optName ts.tail
      let (ps, ts) ← clauseParamsAt ts
      let ts ← expect "{" ts
      let (b, ts) ← readStmts n ts
      (readClauses n ts).map fun (cs, ts) => (.clause name ps b :: cs, ts)
    else some ([], ts)
end

/-! ### Members of contracts -/

/-- Read the arguments of a modifier if there are any. -/
def argsAt (ts : List String) : Option (Option (List Expr) × List String) :=
  if ts.head? = some "(" then (readArguments (4 * ts.length + 4) ts.tail).map fun (es, ts) => (some es, ts) else some (none, ts)

/-- Read the use of a modifier or of a base contract. -/
def useAt (ts : List String) : Option (Use × List String) := do
  let (name, ts) ← readPath ts
  let (args, ts) ← argsAt ts
  some ({ name, args }, ts)

/-- Read the uses of modifiers. -/
def readUses : Nat → List String → Option (List Use × List String)
  | 0, _ => none
  | n + 1, ts =>
    if ts.head? = some "returns" ∨ ts.head? = some "{" ∨ ts.head? = some ";" then some ([], ts)
    else match useAt ts with
      | none => none
      | some (u, ts) => (readUses n ts).map fun (us, ts) => (u :: us, ts)

/-- Read `override` with what is overridden, if it comes next. -/
def overrideAt (ts : List String) : Option (Option (List (List String)) × List String) :=
  if ts.head? = some "override" then
    if ts.tail.head? = some "(" then do
      let (ns, ts) ← commas readPath ts.length ts.tail.tail
      let ts ← expect ")" ts
      some (some ns, ts)
    else some (some [], ts.tail)
  else some (none, ts)

/-- Read the body of a function. -/
def bodyAt (ts : List String) : Option (Option (List Stmt) × List String) :=
  if ts.head? = some ";" then some (none, ts.tail)
  else do
    let ts ← expect "{" ts
    (readStmts (ts.length + 1) ts).map fun (ss, ts) => (some ss, ts)

/-- Read a function behind the word for it. -/
def fnAt (kind : String) (ts : List String) : Option (Fn × List String) :=
  let (name, ts) := optName ts
  match paramsAt ts with
  | none => none
  | some (params, ts) =>
    let (visibility, ts) := oneOf visibilities ts
    let (virtual, ts) := accept "virtual" ts
    let (mutability, ts) := oneOf mutabilities ts
    do
      let (override, ts) ← overrideAt ts
      let (modifiers, ts) ← readUses (ts.length + 1) ts
      let (returns, ts) ← returnsAt ts
      let (body, ts) ← bodyAt ts
      some ({ kind, name, params, visibility, virtual, mutability, override, modifiers, returns, body }, ts)

/-- Read a member of a struct. -/
def fieldAt (ts : List String) : Option (Var × List String) := do
  let (v, ts) ← varAt ts
  let ts ← expect ";" ts
  some (v, ts)

/-- Read an operator that a type is given. -/
def operatorAt (ts : List String) : Option ((List String × String) × List String) := do
  let (p, ts) ← readPath ts
  let ts ← expect "as" ts
  match ts with
  | [] => none
  | o :: ts => some ((p, o), ts)

/-- Read the type behind `for`, and `global`. -/
def usingAt (ts : List String) : Option (Ty × Bool × List String) := do
  let ts ← expect "for" ts
  let (t, ts) ← tyAt ts
  let (g, ts) := accept "global" ts
  let ts ← expect ";" ts
  some (t, g, ts)

/-- Read a member of a contract. -/
def memberAt : List String → Option (Member × List String)
  | [] => none
  | t :: ts =>
    if t ∈ functionKinds then (fnAt t ts).map fun (f, ts) => (.fn f, ts)
    else if t = "modifier" then do
      let (n, ts) ← nameAt ts
      let (ps, ts) ← paramsAt ts
      let (v, ts) := accept "virtual" ts
      let (b, ts) ← bodyAt ts
      some (.modifier n ps v b, ts)
    else if t = "event" then do
      let (n, ts) ← nameAt ts
      let (ps, ts) ← paramsAt ts
      let (a, ts) := accept "anonymous" ts
      let ts ← expect ";" ts
      some (.event n ps a, ts)
    else if t = "error" then do
      let (n, ts) ← nameAt ts
      let (ps, ts) ← paramsAt ts
      let ts ← expect ";" ts
      some (.error n ps, ts)
    else if t = "struct" then do
      let (n, ts) ← nameAt ts
      let ts ← expect "{" ts
      let (vs, ts) ← upTo "}" fieldAt ts.length ts
      some (.struct n vs, ts)
    else if t = "enum" then do
      let (n, ts) ← nameAt ts
      let ts ← expect "{" ts
      let (vs, ts) ← commas nameAt ts.length ts
      let ts ← expect "}" ts
      some (.enum n vs, ts)
    else if t = "using" then
      if ts.head? = some "{" then do
        let (fs, ts) ← commas operatorAt ts.length ts.tail
        let ts ← expect "}" ts
        let (t, g, ts) ← usingAt ts
        some (.operators fs t g, ts)
      else do
        let (l, ts) ← readPath ts
        let (t, g, ts) ← usingAt ts
        some (.using_ l t g, ts)
    else if t = "type" then do
      let (n, ts) ← nameAt ts
      let ts ← expect "is" ts
      let (t, ts) ← tyAt ts
      let ts ← expect ";" ts
      some (.type n t, ts)
    else do
      let (v, ts) ← fieldAt (t :: ts)
      some (.state v, ts)

/-! ### Files -/

/-- Read the base contracts. -/
def basesAt (ts : List String) : Option (List Use × List String) :=
  if ts.head? = some "is" then commas useAt ts.length ts.tail else some ([], ts)

/-- Read a contract behind the word for it. -/
def contractAt (abstract_ : Bool) (kind : String) (ts : List String) : Option (Contract × List String) := do
  let (name, ts) ← nameAt ts
  let (bases, ts) ← basesAt ts
  let ts ← expect "{" ts
  let (members, ts) ← upTo "}" memberAt ts.length ts
  some ({ abstract_, kind, name, bases, members }, ts)

/-- Read a token. -/
def tokenAt : List String → Option (String × List String)
  | [] => none
  | t :: ts => some (t, ts)

/-- Read a constraint on the version. -/
def versionAt (ts : List String) : Option (Version × List String) :=
  let (op, ts) := oneOf ["<", "<=", ">=", ">", "^"] ts
  do
    let (first, ts) ← tokenAt ts
    if ts.head? = some "." then do
      let (patch, ts) ← tokenAt ts.tail
      some ({ op, first, patch := some patch }, ts)
    else some ({ op, first }, ts)

/-- Read `as name` if it comes next. -/
def asAt (ts : List String) : Option (Option String × List String) :=
  if ts.head? = some "as" then (nameAt ts.tail).map fun (n, ts) => (some n, ts) else some (none, ts)

/-- Read an imported name. -/
def symbolAt (ts : List String) : Option ((String × Option String) × List String) := do
  let (n, ts) ← nameAt ts
  let (a, ts) ← asAt ts
  some ((n, a), ts)

/-- Read an import. -/
def importAt (ts : List String) : Option (Import × List String) :=
  if ts.head? = some "{" then do
    let (symbols, ts) ← commas symbolAt ts.length ts.tail
    let ts ← expect "}" ts
    let ts ← expect "from" ts
    let (file, ts) ← literalAt ts
    let (alias_, ts) ← asAt ts
    let ts ← expect ";" ts
    some ({ file, alias_, symbols }, ts)
  else do
    let (file, ts) ← literalAt ts
    let (alias_, ts) ← asAt ts
    let ts ← expect ";" ts
    some ({ file, alias_ }, ts)

/-- Read a part of a file. -/
def itemAt : List String → Option (Item × List String)
  | [] => none
  | t :: ts =>
    if t = "pragma" then do
      let ts ← expect "solidity" ts
      let (vs, ts) ← upTo ";" versionAt ts.length ts
      some (.pragma vs, ts)
    else if t = "import" then (importAt ts).map fun (i, ts) => (.import_ i, ts)
    else if t ∈ contractKinds then (contractAt false t ts).map fun (c, ts) => (.contract c, ts)
    else if t = "abstract" then match ts with
      | [] => none
      | k :: ts => if k ∈ contractKinds then (contractAt true k ts).map fun (c, ts) => (.contract c, ts) else none
    else (memberAt (t :: ts)).map fun (x, ts) => (.member x, ts)

/-- Read the parts of a file. -/
def readItems : Nat → List String → Option (List Item)
  | 0, _ => none
  | _ + 1, [] => some []
  | n + 1, t :: ts => match itemAt (t :: ts) with
    | none => none
    | some (x, us) => (readItems n us).map (x :: ·)

/-- The file that a text is read as.  Comments, among them documentation and the license, are not read. -/
def readFile (text : List Char) : Option SourceFile :=
  (readItems ((tokens text).length + 1) (tokens text)).map fun items => { items }

/-! ### Programs without comments -/

mutual
/-- The statement without comments. -/
def Stmt.bare : Stmt → Stmt
  | .block ss => .block (bareStmts ss)
  | .unchecked ss => .unchecked (bareStmts ss)
  | .if_ c t => .if_ c t.bare
  | .ifElse c t f => .ifElse c t.bare f.bare
  | .while_ c b => .while_ c b.bare
  | .doWhile b c => .doWhile b.bare c
  | .for_ i c s b => .for_ i.bare c s b.bare
  | .try_ e rs b cs => .try_ e rs (bareStmts b) (bareClauses cs)
  | .clause n ps b => .clause n ps (bareStmts b)
  | s => s
/-- The statements without comments. -/
def bareStmts : List Stmt → List Stmt
  | [] => []
  | .comment _ :: ss => bareStmts ss
  | s :: ss => s.bare :: bareStmts ss
/-- The clauses without comments. -/
def bareClauses : List Stmt → List Stmt
  | [] => []
  | s :: ss => s.bare :: bareClauses ss
end

/-- The function without comments. -/
def Fn.bare (f : Fn) : Fn := { f with body := f.body.map bareStmts }

/-- The member without comments, if it is none. -/
def Member.bare : Member → Option Member
  | .state v _ => some (.state v)
  | .fn f _ => some (.fn f.bare)
  | .modifier n ps v b _ => some (.modifier n ps v (b.map bareStmts))
  | .comment _ => none
  | x => some x

/-- The contract without comments. -/
def Contract.bare (c : Contract) : Contract := { c with doc := none, members := c.members.filterMap Member.bare }

/-- The part of a file without comments, if it is none. -/
def Item.bare : Item → Option Item
  | .contract c => some (.contract c.bare)
  | .member x => x.bare.map .member
  | x => some x

/-- The file without comments. -/
def SourceFile.bare (f : SourceFile) : SourceFile := { items := f.items.filterMap Item.bare }

/-- The one statement below another is put in a block. -/
def braced : Change where
  stmt s s' :=
    (∃ c t, s = .if_ c t ∧ s' = .if_ c (.block [t])) ∨
    (∃ c t f, s = .ifElse c t f ∧ s' = .ifElse c (.block [t]) f) ∨
    (∃ c t f, s = .ifElse c t f ∧ s' = .ifElse c t (.block [f])) ∨
    (∃ c t, s = .while_ c t ∧ s' = .while_ c (.block [t])) ∨
    (∃ c t, s = .doWhile t c ∧ s' = .doWhile (.block [t]) c) ∨
    ∃ i c st t, s = .for_ i c st t ∧ s' = .for_ i c st (.block [t])

/-! ### Programs that can be told from their tokens -/

/-- A name. -/
def FreeName (n : String) : Prop := isName n = true ∧ n ∉ reserved

/-- The names in the type say what kind of type it is, and its lengths are grouped as they are read. -/
def Ty.Clear : Ty → Prop
  | .elem t => isName t = true ∧ elementary t = true ∧ t ∉ reserved
  | .addressPayable => True
  | .user p => p ≠ [] ∧ (∀ n ∈ p, FreeName n) ∧ ∀ n, p = [n] → elementary n = false
  | .mapping k v => k.Clear ∧ v.Clear
  | .array b => b.Clear
  | .fixed b n => b.Clear ∧ SolGrammar.Plain n

/-- The parts of the declaration are what they can be. -/
structure Var.Clear (v : Var) : Prop where
  type : v.type.Clear
  visibility : ∀ t, v.visibility = some t → t ∈ visibilities
  location : ∀ t, v.location = some t → t ∈ locations
  name : ∀ t, v.name = some t → FreeName t
  value : ∀ e, v.value = some e → SolGrammar.Plain e

/-- The words of assembly. -/
def yulWords : List String :=
  ["let", "if", "switch", "case", "default", "for", "function", "break", "continue", "leave", "true", "false"]

/-- A name in assembly. -/
def YulName (n : String) : Prop := isName n = true ∧ n ∉ yulWords

mutual
/-- The names are names, and the literals are literals. -/
def YulExpr.Clear : YulExpr → Prop
  | .name p => p ≠ [] ∧ ∀ n ∈ p, YulName n
  | .lit t => isLeaf t = true ∧ (isName t = true → t = "true" ∨ t = "false")
  | .str _ => True
  | .call f args => YulName f ∧ yulArgsClear args
/-- All of them. -/
def yulArgsClear : List YulExpr → Prop
  | [] => True
  | e :: es => e.Clear ∧ yulArgsClear es
end

mutual
/-- The names are names, only calls are statements, and cases are only in `switch`. -/
def YulStmt.Clear : YulStmt → Prop
  | .expr (.call f args) => (YulExpr.call f args).Clear
  | .expr _ => False
  | .let_ vs value => vs ≠ [] ∧ (∀ n ∈ vs, YulName n) ∧ ∀ e, value = some e → e.Clear
  | .assign vs e => vs ≠ [] ∧ (∀ p ∈ vs, p ≠ [] ∧ ∀ n ∈ p, YulName n) ∧ e.Clear
  | .block ss => yulsClear ss
  | .if_ c ss => c.Clear ∧ yulsClear ss
  | .switch e cs => e.Clear ∧ casesClear cs
  | .case_ _ _ => False
  | .for_ pre c post body => yulsClear pre ∧ c.Clear ∧ yulsClear post ∧ yulsClear body
  | .function n ps rs ss => YulName n ∧ (∀ p ∈ ps, YulName p) ∧ (∀ r ∈ rs, YulName r) ∧ yulsClear ss
  | .break_ => True
  | .continue_ => True
  | .leave => True
/-- All of them. -/
def yulsClear : List YulStmt → Prop
  | [] => True
  | s :: ss => s.Clear ∧ yulsClear ss
/-- All of them are cases. -/
def casesClear : List YulStmt → Prop
  | [] => True
  | .case_ v ss :: cs => (∀ e, v = some e → e.Clear) ∧ yulsClear ss ∧ casesClear cs
  | _ :: _ => False
end

/-- An `else` behind the statement would belong to it. -/
def Stmt.open_ : Stmt → Bool
  | .if_ _ _ => true
  | .ifElse _ _ f => f.open_
  | .while_ _ b => b.open_
  | .for_ _ _ _ b => b.open_
  | _ => false

/-- The expression does not begin like another statement. -/
def ExprClear (e : Expr) : Prop :=
  Plain e ∧ (∀ t ∈ (strE e).head?, t ∉ statementWords) ∧ (strE e).head? ≠ some "{" ∧
    ((strE e).head? = some "revert" → (strE e)[1]? = some "(") ∧ (strE e).head? ≠ some "_"

/-- A variable that is declared in a statement. -/
def LocalClear (v : Var) : Prop := v.Clear ∧ v.visibility = none ∧ v.constant = false ∧ v.indexed = false ∧ v.immutable = false ∧
  v.value = none ∧ v.name ≠ none

/-- The statement is an expression or a declaration. -/
def SimpleClear : Stmt → Prop
  | .expr e => ExprClear e
  | .decl vs value => (∀ e, value = some e → Plain e) ∧ (∀ v, some v ∈ vs → LocalClear v) ∧ (∃ v, some v ∈ vs)
  | _ => False

mutual
/-- The expressions are grouped as they are read, an `else` stands behind its own `if`, clauses are only in `try`, which has
results, and there are no comments. -/
def Stmt.Clear : Stmt → Prop
  | .expr e => SimpleClear (.expr e)
  | .decl vs value => SimpleClear (.decl vs value)
  | .block ss => stmtsClear ss
  | .unchecked ss => stmtsClear ss
  | .if_ c t => Plain c ∧ t.Clear
  | .ifElse c t f => Plain c ∧ t.Clear ∧ t.open_ = false ∧ f.Clear
  | .while_ c b => Plain c ∧ b.Clear
  | .doWhile b c => Plain c ∧ b.Clear
  | .for_ i c s b => SimpleClear i ∧ Plain c ∧ (∀ e, s = some e → Plain e) ∧ b.Clear
  | .return_ e => ∀ x, e = some x → Plain x
  | .emit e => Plain e
  | .revert e => Plain e ∧ (strE e).head? ≠ some "("
  | .break_ => True
  | .continue_ => True
  | .placeholder => True
  | .try_ e rs b cs => Plain e ∧ rs ≠ [] ∧ (∀ v ∈ rs, v.Clear) ∧ stmtsClear b ∧ clausesClear cs
  | .clause _ _ _ => False
  | .assembly _ ss => yulsClear ss
  | .comment _ => False
/-- All of them. -/
def stmtsClear : List Stmt → Prop
  | [] => True
  | s :: ss => s.Clear ∧ stmtsClear ss
/-- All of them are clauses. -/
def clausesClear : List Stmt → Prop
  | [] => True
  | .clause n ps b :: cs =>
    (∀ t, n = some t → FreeName t) ∧ (∀ vs, ps = some vs → ∀ v ∈ vs, v.Clear) ∧ stmtsClear b ∧ clausesClear cs
  | _ :: _ => False
end

/-- The name is a name, and the arguments are grouped as they are read. -/
def Use.Clear (u : Use) : Prop := u.name ≠ [] ∧ (∀ n ∈ u.name, FreeName n) ∧ ∀ es, u.args = some es → PlainAll es

/-- The statements of the body are clear. -/
def bodyClear (b : Option (List Stmt)) : Prop := ∀ ss, b = some ss → stmtsClear ss

/-- The parts of the function are what they can be. -/
structure Fn.Clear (f : Fn) : Prop where
  kind : f.kind ∈ functionKinds
  name : ∀ t, f.name = some t → FreeName t
  params : ∀ v ∈ f.params, v.Clear
  visibility : ∀ t, f.visibility = some t → t ∈ visibilities
  mutability : ∀ t, f.mutability = some t → t ∈ mutabilities
  override : ∀ ns, f.override = some ns → ∀ p ∈ ns, p ≠ [] ∧ ∀ n ∈ p, FreeName n
  modifiers : ∀ u ∈ f.modifiers, u.Clear
  returns : ∀ v ∈ f.returns, v.Clear
  body : bodyClear f.body

/-- The parts of the member are what they can be. -/
def Member.Clear : Member → Prop
  | .state v doc => v.Clear ∧ doc = none ∧ ∀ t ∈ v.toks.head?, t ∉ memberWords
  | .fn f doc => f.Clear ∧ doc = none
  | .modifier n ps _ b doc => FreeName n ∧ (∀ v ∈ ps, v.Clear) ∧ bodyClear b ∧ doc = none
  | .event n ps _ => FreeName n ∧ ∀ v ∈ ps, v.Clear
  | .error n ps => FreeName n ∧ ∀ v ∈ ps, v.Clear
  | .struct n vs => FreeName n ∧ ∀ v ∈ vs, v.Clear
  | .enum n vs => FreeName n ∧ vs ≠ [] ∧ ∀ v ∈ vs, FreeName v
  | .using_ l t _ => (l ≠ [] ∧ ∀ n ∈ l, FreeName n) ∧ t.Clear
  | .operators fs t _ => fs ≠ [] ∧ (∀ f ∈ fs, f.1 ≠ [] ∧ ∀ n ∈ f.1, FreeName n) ∧ t.Clear
  | .type n t => FreeName n ∧ t.Clear
  | .comment _ => False

/-- The parts of the contract are what they can be. -/
structure Contract.Clear (c : Contract) : Prop where
  doc : c.doc = none
  kind : c.kind ∈ contractKinds
  name : FreeName c.name
  bases : ∀ u ∈ c.bases, u.Clear
  members : ∀ m ∈ c.members, m.Clear

/-- The operator is an operator, and the numbers are no other tokens of a pragma. -/
structure Version.Clear (v : Version) : Prop where
  op : ∀ o, v.op = some o → o ∈ ["<", "<=", ">=", ">", "^"]
  first : v.first ∉ [";", ".", "<", "<=", ">=", ">", "^"]

/-- The parts are what they can be. -/
def Item.Clear : Item → Prop
  | .pragma vs => ∀ v ∈ vs, v.Clear
  | .import_ i => (∀ n, i.alias_ = some n → FreeName n) ∧ ∀ s ∈ i.symbols, FreeName s.1 ∧ ∀ n, s.2 = some n → FreeName n
  | .contract c => c.Clear
  | .member x => x.Clear

/-- The parts are what they can be. -/
def SourceFile.Clear (f : SourceFile) : Prop := f.license = none ∧ ∀ x ∈ f.items, x.Clear

end SolGrammar
end Mutagenyx
