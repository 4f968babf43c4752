import Verif.Model.NodePrinter
import Verif.Model.VyperMutators

/-!
# The node printers of `mutagenyx_lib/src/vyper/pretty_printer.rs`
-/

namespace Mutagenyx
namespace VyPrint

open NodePrinter
open Vyper (symbolOf)

/-- The two settings of the factory (`vyper/pretty_printer.rs:1525-1526`); both are off by default
(`vyper/pretty_printer.rs:1548-1561`).  Simplified: two flags instead of a `Preferences` object. -/
structure PrintSettings where
  tupleParens : Bool := false
  interfaceForm : Bool := false
  deriving DecidableEq, Repr

/-- What a Vyper node printer does. -/
abbrev Ps := List (Piece PrintSettings)

/-- Models `write_value_assignment` (`vyper/pretty_printer.rs:110-122`). -/
def valueAssignment (s : PrintSettings) (node : Json) : Ps :=
  onField "value" node fun v => if v = .null then [] else tok " = " ++ [.sub s v]

/-- Models `write_body_as_nodes` (`vyper/pretty_printer.rs:133-148`). -/
def bodyAsNodes (s : PrintSettings) (node : Json) : Ps :=
  onArray "body" node fun xs => xs.flatMap fun v => ind ++ [.sub s v] ++ nl

/-- The loop of `write_indented_array` (`vyper/pretty_printer.rs:189-198`) at position `i` of an array of length `len`. -/
def indentedLoop (s : PrintSettings) (len : Nat) : Nat → List Json → Ps
  | _, [] => []
  | i, v :: vs => ind ++ ([.sub s v] ++ (when (i < len - 1) nl ++ indentedLoop s len (i + 1) vs))

/-- Models `write_indented_array` (`vyper/pretty_printer.rs:183-199`). -/
def indentedArray (s : PrintSettings) (xs : List Json) : Ps := indentedLoop s xs.length 0 xs

/-- Models `write_indented_body_array` (`vyper/pretty_printer.rs:160-171`). -/
def indentedBody (s : PrintSettings) (node : Json) : Ps := onArray "body" node (indentedArray s)

/-- Models `write_node_with_parens_maybe` (`vyper/pretty_printer.rs:211-229`). -/
def withParens (s : PrintSettings) (node : Json) : Ps :=
  onStr "ast_type" node fun t =>
    let needed := t = "BinOp" || t = "Compare" || t = "BoolOp"
    when needed (tok "(") ++ [.sub s node] ++ when needed (tok ")")

/-- Models `VariableDeclPrinter` (`vyper/pretty_printer.rs:290-345`). -/
def variableDecl (s : PrintSettings) (node : Json) : Ps :=
  onField "target" node fun target =>
    let isPublic := (node.getBoolForKey "is_public").getD false
    let isConstant := (node.getBoolForKey "is_constant").getD false
    let isImmutable := (node.getBoolForKey "is_immutable").getD false
    [.sub s target] ++ tok ":" ++ sp ++ when isPublic (tok "public" ++ tok "(") ++
      when isConstant (tok "constant" ++ tok "(") ++ when isImmutable (tok "immutable" ++ tok "(") ++
      field { s with tupleParens := true } "annotation" node ++
      when isPublic (tok ")") ++ when isConstant (tok ")") ++ when isImmutable (tok ")") ++
      valueAssignment s node

/-- The printing of a documentation string that the printers of functions and modules share
(`vyper/pretty_printer.rs:501-508`, `vyper/pretty_printer.rs:834-841`). -/
def docString (doc : String) : Ps :=
  if '\n' ∈ doc.toList then [.op (.triple doc.toList)]
  else tok "\"\"\"" ++ [.op (.flow doc.toList [])] ++ tok "\"\"\""

/-- The decorators in `on_entry` of `FunctionDefPrinter` (`vyper/pretty_printer.rs:434-455`). -/
def decorators (s : PrintSettings) (node : Json) : Ps :=
  onArray "decorator_list" node fun xs => match xs with
    | [] => []
    | d :: ds => tok "@" ++ [.sub s d] ++ nl ++ ds.flatMap fun d => ind ++ tok "@" ++ [.sub s d] ++ nl

/-- `has_decorators` after `on_entry` (`vyper/pretty_printer.rs:437`). -/
def hasDecorators (node : Json) : Bool :=
  match (Json.field? "decorator_list" node).bind Json.asArray with
  | some xs => !xs.isEmpty
  | none => false

/-- Models `FunctionDefPrinter::print_node` (`vyper/pretty_printer.rs:458-526`). -/
def functionDef (s : PrintSettings) (node : Json) : Ps :=
  when (hasDecorators node) ind ++ tok "def" ++ sp ++ strTok "name" node ++ tok "(" ++
    field s "args" node ++ tok ")" ++
    (onField "returns" node fun r => if r = .null then [] else
      sp ++ tok "->" ++ sp ++ [.sub { s with tupleParens := true } r]) ++
    tok ":" ++
    (onField "doc_string" node fun d => if d = .null then [] else
      inc ++ (onStr "value" d fun doc => nl ++ ind ++ docString doc ++ nl) ++ dec) ++
    if s.interfaceForm then sp ++ onArray "body" node (array s)
    else onArray "body" node fun xs => nl ++ (inc ++ indentedArray s xs ++ dec)

/-- The loop over the arguments (`vyper/pretty_printer.rs:551-566`) at position `i` of `len` arguments, the first `first` of which
have no default; `defaults` are the defaults not used yet. -/
def argumentLoop (s : PrintSettings) (len first : Nat) : Nat → List Json → List Json → Ps
  | _, [], _ => []
  | i, a :: as, ds =>
    if first ≤ i then match ds with
      | d :: ds => [.sub s a] ++ tok "=" ++ [.sub s d] ++ when (i < len - 1) (tok "," ++ sp) ++
          argumentLoop s len first (i + 1) as ds
      | [] => [.sub s a] ++ crash
    else [.sub s a] ++ when (i < len - 1) (tok "," ++ sp) ++ argumentLoop s len first (i + 1) as ds

/-- Models `ArgumentsPrinter` (`vyper/pretty_printer.rs:531-572`).  With more defaults than arguments the subtraction `vyper/pretty_printer.rs:550`
overflows: a panic when arithmetic is checked, else the wrapped-around value is larger than any index and no
default is printed. -/
def arguments (checks : Bool) (s : PrintSettings) (node : Json) : Ps :=
  onArray "defaults" node fun ds =>
    if ds.isEmpty then onArray "args" node (array s)
    else onArray "args" node fun as =>
      if as.length < ds.length then
        if checks then crash else argumentLoop s as.length as.length 0 as []
      else argumentLoop s as.length (as.length - ds.length) 0 as ds

/-- Models `AugAssignPrinter` (`vyper/pretty_printer.rs:650-675`). -/
def augAssign (s : PrintSettings) (node : Json) : Ps :=
  field s "target" node ++ sp ++
    (onField "op" node fun o => onStr "ast_type" o fun t => onSome (symbolOf t) tok) ++
    tok "=" ++ sp ++ field s "value" node

/-- Models `IntPrinter` (`vyper/pretty_printer.rs:679-693`). -/
def intNode (env : PrintEnv) (node : Json) : Ps :=
  match node.getIntForKey "value" with
  | some i => tok (toString i)
  | none => match node.get? "value" with
    | some (.num n) => tok (env.f64 n)
    | _ => []

/-- Models `BinOpPrinter` (`vyper/pretty_printer.rs:722-746`), also used for `Compare`. -/
def binOp (s : PrintSettings) (node : Json) : Ps :=
  onField "left" node (withParens s) ++
    (onField "op" node fun o => onStr "ast_type" o fun t => onSome (symbolOf t) fun sym => sp ++ tok sym ++ sp) ++
    onField "right" node (withParens s)

/-- Models `BoolOpPrinter` (`vyper/pretty_printer.rs:750-779`). -/
def boolOp (s : PrintSettings) (node : Json) : Ps :=
  onArray "values" node fun xs => match xs with
    | l :: r :: _ => withParens s l ++ sp ++ field s "op" node ++ sp ++ withParens s r
    | _ => []

/-- Models `AssertPrinter` (`vyper/pretty_printer.rs:783-804`). -/
def assertNode (s : PrintSettings) (node : Json) : Ps :=
  tok "assert" ++ sp ++ field s "test" node ++
    onField "msg" node fun m => when m.asObj.isSome (tok "," ++ sp ++ [.sub s m])

/-- Models `ModulePrinter` (`vyper/pretty_printer.rs:824-856`). -/
def moduleNode (s : PrintSettings) (node : Json) : Ps :=
  (onField "doc_string" node fun d => onStr "value" d fun doc => docString doc ++ nl ++ nl) ++
    onArray "body" node fun xs => xs.flatMap fun v => [.sub s v] ++ nl ++ nl

/-- Models `CallPrinter` (`vyper/pretty_printer.rs:898-922`). -/
def call (s : PrintSettings) (node : Json) : Ps :=
  field s "func" node ++ tok "(" ++ onArray "args" node (array s) ++
    (onArray "keywords" node fun ks => when (!ks.isEmpty) (tok "," ++ sp ++ array s ks)) ++ tok ")"

/-- Models `NameConstantPrinter` (`vyper/pretty_printer.rs:926-947`). -/
def nameConstant (node : Json) : Ps :=
  onField "value" node fun v => match v with
    | .bool true => tok "True"
    | .bool false => tok "False"
    | .null => tok "None"
    | _ => []

/-- The operator of a `UnaryOp` (`vyper/pretty_printer.rs:960-969`). -/
def unaryName (node : Json) : Option String := (Json.field? "op" node).bind (·.getStrForKey "ast_type")

/-- Models `UnaryOpPrinter` (`vyper/pretty_printer.rs:951-977`). -/
def unaryOp (s : PrintSettings) (node : Json) : Ps :=
  (if unaryName node = some "Not" then tok "not" else if unaryName node = some "Invert" then tok "~" else []) ++
    onField "operand" node fun n => when (unaryName node = some "Not") sp ++ withParens s n

/-- The start that the printers of interfaces and structs share (`vyper/pretty_printer.rs:989-996`, `vyper/pretty_printer.rs:1036-1043`). -/
def bodyEntry (keyword : String) (node : Json) : Ps :=
  tok keyword ++ sp ++ (onStr "name" node fun n => tok n ++ tok ":" ++ nl) ++ inc

/-- Models `ForPrinter` (`vyper/pretty_printer.rs:1069-1094`). -/
def forNode (s : PrintSettings) (node : Json) : Ps :=
  tok "for" ++ sp ++ field s "target" node ++ sp ++ tok "in" ++ sp ++ field s "iter" node ++ tok ":" ++ nl ++
    (inc ++ bodyAsNodes s node ++ dec)

/-- Models `IfPrinter` (`vyper/pretty_printer.rs:1114-1146`). -/
def ifNode (s : PrintSettings) (node : Json) : Ps :=
  tok "if" ++ sp ++ field s "test" node ++ tok ":" ++ nl ++ (inc ++ indentedBody s node ++ dec) ++
    onArray "orelse" node fun xs => when (!xs.isEmpty)
      (nl ++ ind ++ tok "else:" ++ nl ++ (inc ++ indentedArray s xs ++ dec))

/-- Models `ReturnPrinter` (`vyper/pretty_printer.rs:1192-1208`). -/
def returnNode (s : PrintSettings) (node : Json) : Ps :=
  tok "return" ++ onField "value" node fun v => if v = .null then [] else sp ++ [.sub s v]

/-- Models `ImportPrinter` (`vyper/pretty_printer.rs:1230-1250`). -/
def importNode (node : Json) : Ps :=
  tok "import" ++ sp ++ strTok "name" node ++ onStr "alias" node fun a => sp ++ tok "as" ++ sp ++ tok a

/-- Models `ImportFromPrinter` (`vyper/pretty_printer.rs:1254-1290`). -/
def importFrom (node : Json) : Ps :=
  tok "from" ++ sp ++
    (onField "module" node fun m => (if m = .null then tok "." else onSome m.asStr tok) ++ sp) ++
    tok "import" ++ sp ++ strTok "name" node ++
    onField "alias" node fun a => onSome a.asStr fun a => sp ++ tok "as" ++ sp ++ tok a

/-- Models `EventDefPrinter` (`vyper/pretty_printer.rs:1294-1313`) and `EnumDefPrinter` (`vyper/pretty_printer.rs:1502-1523`). -/
def listDef (keyword : String) (s : PrintSettings) (node : Json) : Ps :=
  tok keyword ++ sp ++ (onStr "name" node fun n => tok n ++ tok ":") ++ nl ++ (inc ++ indentedBody s node ++ dec)

/-- Models `LogPrinter` (`vyper/pretty_printer.rs:1317-1333`). -/
def logNode (s : PrintSettings) (node : Json) : Ps :=
  tok "log" ++ sp ++ onField "value" node fun v => if v = .null then [] else [.sub s v]

/-- Models `CommentPrinter` (`vyper/pretty_printer.rs:1342-1365`). -/
def comment (s : PrintSettings) (node : Json) : Ps :=
  onField "value" node fun v => match v with
    | .str t => tok "#" ++ sp ++ [.op (.flow t.toList "# ".toList)]
    | .obj kvs => tok "#" ++ sp ++ [.quote s (.obj kvs) "# ".toList]
    | _ => []

/-- Models `AndPrinter` (`vyper/pretty_printer.rs:1369-1385`). -/
def andOr (node : Json) : Ps :=
  onStr "ast_type" node fun t => if t = "And" then tok "and" else if t = "Or" then tok "or" else []

/-- Models `KeywordPrinter` (`vyper/pretty_printer.rs:1389-1405`). -/
def keyword (s : PrintSettings) (node : Json) : Ps :=
  onStr "arg" node fun a => tok a ++ tok "=" ++ field s "value" node

/-- The text cut into pieces of two bytes; `none` if that would cut a character. -/
def bytePairs : List Char → Option (List (List Char))
  | [] => some []
  | [c] => if c.utf8Size = 2 then some [[c]] else none
  | c :: d :: cs =>
    if c.utf8Size = 2 then (bytePairs (d :: cs)).map ([c] :: ·)
    else if c.utf8Size = 1 ∧ d.utf8Size = 1 then (bytePairs cs).map ([c, d] :: ·)
    else none

/-- Models `BytesPrinter` (`vyper/pretty_printer.rs:1409-1431`); the slice `vyper/pretty_printer.rs:1422` panics when it leaves the text or cuts a
character. -/
def bytesNode (node : Json) : Ps :=
  onStr "value" node fun v =>
    if utf8Len v.toList ≤ 2 then tok "b''"
    else match bytePairs v.toList with
      | some ps => [.op (.token ("b'".toList ++ (ps.drop 1).flatMap (fun p => "\\x".toList ++ p) ++ "'".toList))]
      | none => crash

/-- The loop over the entries of a `Dict` (`vyper/pretty_printer.rs:1463-1478`) at position `i` of `len` entries. -/
def dictLoop (s : PrintSettings) (len : Nat) : Nat → List Json → List Json → Ps
  | i, k :: ks, v :: vs =>
    ind ++ [.sub s k] ++ tok ":" ++ sp ++ [.sub s v] ++ when (i < len - 1) (tok "," ++ nl) ++
      dictLoop s len (i + 1) ks vs
  | _, _, _ => []

/-- Models `DictPrinter::print_node` (`vyper/pretty_printer.rs:1446-1487`). -/
def dict (s : PrintSettings) (node : Json) : Ps :=
  onArray "keys" node fun ks => onArray "values" node fun vs =>
    if ks.length ≠ vs.length then crash
    else when (!ks.isEmpty) (nl ++ (inc ++ dictLoop s ks.length 0 ks vs ++ dec) ++ nl ++ ind)

/-- Models `VyperNodePrinterFactory::printer_for` (`vyper/pretty_printer.rs:1564-1633`). -/
def layout (env : PrintEnv) (s : PrintSettings) (node : Json) : Layout PrintSettings :=
  match node.getStrForKey "ast_type" with
  | none => { visitChildren := true }
  | some t =>
    if t = "Name" then { body := strTok "id" node }
    else if t = "VariableDecl" then { body := variableDecl s node }
    else if t = "Subscript" then { body := field s "value" node ++ field s "slice" node }
    else if t = "Index" then
      { body := tok "[" ++ field { s with tupleParens := false } "value" node ++ tok "]" }
    else if t = "Tuple" then
      { body := when s.tupleParens (tok "(") ++ onArray "elements" node (array s) ++ when s.tupleParens (tok ")") }
    else if t = "FunctionDef" then { entry := decorators s node, body := functionDef s node }
    else if t = "arguments" then { body := arguments env.checks s node }
    else if t = "arg" then
      { body := strTok "arg" node ++
          onField "annotation" node fun a => if a = .null then [] else tok ":" ++ sp ++ [.sub s a] }
    else if t = "Assign" then { body := field s "target" node ++ tok " = " ++ field s "value" node }
    else if t = "Attribute" then { body := field s "value" node ++ tok "." ++ strTok "attr" node }
    else if t = "AugAssign" then { body := augAssign s node }
    else if t = "Int" then { body := intNode env node }
    else if t = "Decimal" then { body := strTok "value" node }
    else if t = "BinOp" then { body := binOp s node }
    else if t = "BoolOp" then { body := boolOp s node }
    else if t = "Compare" then { body := binOp s node }
    else if t = "Assert" then { body := assertNode s node }
    else if t = "Str" then { body := onStr "value" node fun v => [.op (.string v.toList)] }
    else if t = "Module" then { body := moduleNode s node }
    else if t = "AnnAssign" then
      { body := field s "target" node ++ (onField "annotation" node fun a => tok ":" ++ sp ++ [.sub s a]) ++
          valueAssignment s node }
    else if t = "Expr" then { body := field s "value" node }
    else if t = "Call" then { body := call s node }
    else if t = "NameConstant" then { body := nameConstant node }
    else if t = "UnaryOp" then { body := unaryOp s node }
    else if t = "InterfaceDef" then
      { entry := bodyEntry "interface" node, body := bodyAsNodes { s with interfaceForm := true } node, exit := dec }
    else if t = "StructDef" then { entry := bodyEntry "struct" node, body := bodyAsNodes s node, exit := dec }
    else if t = "For" then { body := forNode s node }
    else if t = "List" then { body := tok "[" ++ onArray "elements" node (array s) ++ tok "]" }
    else if t = "If" then { body := ifNode s node }
    else if t = "Break" then { body := tok "break" }
    else if t = "Continue" then { body := tok "continue" }
    else if t = "Pass" then { body := tok "pass" }
    else if t = "Return" then { body := returnNode s node }
    else if t = "Raise" then { body := tok "raise" ++ sp ++ field s "exc" node }
    else if t = "Import" then { body := importNode node }
    else if t = "ImportFrom" then { body := importFrom node }
    else if t = "EventDef" then { body := listDef "event" s node }
    else if t = "Log" then { body := logNode s node }
    else if t = "Comment" then { body := comment s node }
    else if t = "And" then { body := andOr node }
    else if t = "Or" then { body := andOr node }
    else if t = "keyword" then { body := keyword s node }
    else if t = "Bytes" then { body := bytesNode node }
    else if t = "Dict" then { entry := tok "{", body := dict s node, exit := tok "}" }
    else if t = "Hex" then { body := strTok "value" node }
    else if t = "EnumDef" then { body := listDef "enum" s node }
    else { visitChildren := true }

/-- The calls on the token printer that print a Vyper node. -/
def printOps (env : PrintEnv) (s : PrintSettings) (node : Json) : List Op := ops env.checks (layout env) s node

/-- The text of a Vyper node printed with the default settings on an empty page of 150 columns
(`vyper/language_interface.rs`, the same parameters as everywhere). -/
def printText (env : PrintEnv) (node : Json) : Outcome (List Char) :=
  match Printer.run env.checks (printOps env {} node) (Printer.new 4 150) with
  | .ok p => .ok p.out
  | .err e => .err e
  | .panic => .panic
  | .outOfFuel => .outOfFuel

end VyPrint
end Mutagenyx
