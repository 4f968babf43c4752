import Verif.Model.NodePrinter

/-!
# The node printers of `mutagenyx_lib/src/solidity/pretty_printer.rs`

Line numbers without a file name are of that file.  Loops of the form "print element `i`, then something if
`i < len - 1`" are written with `NodePrinter.arrayWith`, which is such a loop.
-/

namespace Mutagenyx
namespace SolPrint

open NodePrinter

/-- The settings of the factory (`solidity/pretty_printer.rs:2572-2574`) with their defaults (`solidity/pretty_printer.rs:2594-2612`).  Simplified: three flags
instead of a `Preferences` object. -/
structure PrintSettings where
  semicolon : Bool := true
  sameLine : Bool := false
  nonpayable : Bool := false
  deriving DecidableEq, Repr

/-- What a Solidity node printer does. -/
abbrev Ps := List (Piece PrintSettings)

/-! ### Helpers -/

/-- Models `print_documentation_helper` (`solidity/pretty_printer.rs:25-36`). -/
def documentation (s : PrintSettings) (node : Json) : Ps :=
  onField "documentation" node fun d => [.sub s d] ++ nl ++ ind

/-- Models `print_operator_helper` (`solidity/pretty_printer.rs:71-77`). -/
def operator (node : Json) : Ps := onStr "operator" node fun o => sp ++ tok o ++ sp

/-- Models `print_space_and_array_helper` (`solidity/pretty_printer.rs:87-99`) after `node.get(key)`. -/
def spaceAndArray (s : PrintSettings) (key : String) (node : Json) : Ps :=
  onArray key node fun xs => when (!xs.isEmpty) (sp ++ array s xs)

/-- Models `print_statements_helper` (`solidity/pretty_printer.rs:111-149`). -/
def statements (s : PrintSettings) (node : Json) : Ps :=
  onArray "statements" node fun xs =>
    if xs.length = 1 ∧ s.sameLine then xs.flatMap fun n => sp ++ [.sub s n] ++ sp
    else when (!xs.isEmpty) ((inc ++ (nl ++ arrayWith (fun n => ind ++ [.sub s n]) nl xs) ++ dec) ++ nl ++ ind)

/-- Models `print_arguments_helper` (`solidity/pretty_printer.rs:158-169`). -/
def arguments (s : PrintSettings) (node : Json) : Ps := onArray "arguments" node (array s)

/-- Models `print_return_parameters_helper` (`solidity/pretty_printer.rs:179-195`). -/
def returnParameters (s : PrintSettings) (node : Json) : Ps :=
  onField "returnParameters" node fun r => onSome (r.getArrayForKey "parameters") fun xs =>
    when (!xs.isEmpty) (sp ++ tok "returns" ++ sp ++ [.sub s r])

/-- Lower-case hexadecimal digits (`format!("{:x}", n)`). -/
def hexDigits (n : Nat) : List Char := Nat.toDigits 16 n

/-- One character of `unencode_string` (`solidity/pretty_printer.rs:206-250`). -/
def unencodeChar (c : Char) : List Char :=
  if c.toNat < 32 then
    if c.toNat = 8 then ['\\', 'b']
    else if c.toNat = 9 then ['\\', 't']
    else if c.toNat = 10 then ['\\', 'n']
    else if c.toNat = 11 then ['\\', 'v']
    else if c.toNat = 12 then ['\\', 'f']
    else if c.toNat = 13 then ['\\', 'r']
    else ['\\', 'x'] ++ hexDigits c.toNat
  else if c.toNat < 127 then [c]
  else ['\\', 'u'] ++ hexDigits c.toNat

/-- Models `unencode_string` (`solidity/pretty_printer.rs:202-254`). -/
def unencode (s : List Char) : List Char := s.flatMap unencodeChar

/-- Models `contains_digits_and_or_dots` (`solidity/pretty_printer.rs:261-271`). -/
def digitsOrDots (s : String) : Bool :=
  !s.toList.isEmpty && s.toList.all fun c => c.isDigit || c = '.'

/-- The pieces of a text between newlines (`str::split('\n')`). -/
def splitLines : List Char → List (List Char)
  | [] => [[]]
  | c :: cs =>
    if c = '\n' then [] :: splitLines cs
    else match splitLines cs with
      | [] => [[c]]
      | l :: ls => (c :: l) :: ls

/-- The loop "print the element, then `,`, then a space unless the next element is null" of variable
declarations (`solidity/pretty_printer.rs:895-909`) and tuples (`solidity/pretty_printer.rs:1677-1689`). -/
def nullableList (s : PrintSettings) : List Json → Ps
  | [] => []
  | [n] => [.sub s n]
  | n :: m :: ns => [.sub s n] ++ (tok "," ++ (when (decide (m ≠ .null)) sp ++ nullableList s (m :: ns)))

/-! ### Declarations -/

/-- Models `SourceUnitPrinter` (`solidity/pretty_printer.rs:284-339`). -/
def sourceUnit (s : PrintSettings) (node : Json) : Layout PrintSettings where
  entry := onStr "license" node fun l =>
    tok "//" ++ sp ++ tok "SPDX-License-Identifier" ++ tok ":" ++ sp ++ tok l ++ nl
  body := onArray "nodes" node fun xs => arrayWith (fun n => ind ++ [.sub s n]) (nl ++ nl) xs ++ nl
  exit := nl

/-- The loop over the literals of a pragma (`solidity/pretty_printer.rs:358-380`) at position `i` of `len`; `prev` is the previous
token. -/
def pragmaLoop (len : Nat) : Nat → String → List Json → Ps
  | _, _, [] => []
  | i, prev, v :: vs => match v.asStr with
    | none => pragmaLoop len (i + 1) prev vs
    | some t =>
      let needsSpace := !(prev ∈ ["<", "<=", ">=", ">", "^"] || (digitsOrDots prev && digitsOrDots t))
      when (i < len - 1 && needsSpace) sp ++ tok t ++ pragmaLoop len (i + 1) t vs

/-- Models `PragmaDirectivePrinter` (`solidity/pretty_printer.rs:343-386`). -/
def pragma (node : Json) : Ps :=
  onArray "literals" node fun vs => tok "pragma" ++ pragmaLoop vs.length 0 "pragma" vs ++ tok ";"

/-- Models `ContractDefinitionPrinter` (`solidity/pretty_printer.rs:390-469`). -/
def contract (s : PrintSettings) (node : Json) : Layout PrintSettings where
  entry := documentation s node ++ when (node.getBoolForKey "abstract" = some true) (tok "abstract" ++ sp) ++
    tok ((node.getStrForKey "contractKind").getD "contract") ++ sp ++ strTok "name" node ++
    onArray "baseContracts" node fun xs => when (!xs.isEmpty) (sp ++ tok "is" ++ sp ++ array s xs)
  body := sp ++ tok "{" ++
    (onSome (node.getArrayForKey "nodes") fun xs => when (!xs.isEmpty)
      ((inc ++ (nl ++ arrayWith (fun n => ind ++ [.sub s n] ++
        when (n.getStrForKey "nodeType" = some "VariableDeclaration") (tok ";")) (nl ++ nl) xs ++ nl) ++ dec) ++ ind)) ++
    tok "}"

/-- Models `StructDefinitionPrinter` (`solidity/pretty_printer.rs:473-521`). -/
def structDef (s : PrintSettings) (node : Json) : Layout PrintSettings where
  body := tok "struct" ++ sp ++ strTok "name" node ++ sp ++ tok "{" ++ nl ++ inc ++
    onArray "members" node (arrayWith (fun n => ind ++ [.sub s n] ++ tok ";") nl)
  exit := dec ++ nl ++ ind ++ tok "}"

/-- Models `ElementaryTypeNamePrinter` (`solidity/pretty_printer.rs:525-542`). -/
def elementaryType (node : Json) : Ps :=
  strTok "name" node ++ when (node.getStrForKey "stateMutability" = some "payable") (sp ++ tok "payable")

/-- Models `MappingPrinter` (`solidity/pretty_printer.rs:546-571`). -/
def mapping (s : PrintSettings) (node : Json) : Ps :=
  tok "mapping" ++ tok "(" ++ field s "keyType" node ++ sp ++ tok "=>" ++ sp ++ field s "valueType" node ++ tok ")"

/-- Models `UserDefinedTypeNamePrinter` (`solidity/pretty_printer.rs:575-589`). -/
def userType (node : Json) : Ps :=
  match Json.field? "pathNode" node with
  | some p => strTok "name" p
  | none => strTok "name" node

/-- Models `VariableDeclarationPrinter` (`solidity/pretty_printer.rs:593-667`). -/
def variableDeclaration (s : PrintSettings) (node : Json) : Layout PrintSettings where
  body := documentation s node ++ field s "typeName" node ++
    (onStr "visibility" node fun v => when (decide (v ≠ "internal")) (sp ++ tok v)) ++
    when (node.getBoolForKey "constant" = some true) (sp ++ tok "constant") ++
    when (node.getBoolForKey "indexed" = some true) (sp ++ tok "indexed") ++
    field s "overrides" node ++
    onStr "mutability" node fun m => when (m = "immutable") (sp ++ tok m)
  exit := (onStr "storageLocation" node fun l =>
      when (l = "memory" || l = "storage" || l = "calldata") (sp ++ tok l)) ++
    (onStr "name" node fun n => when (!n.toList.isEmpty) (sp ++ tok n)) ++
    onField "value" node fun v => sp ++ tok "=" ++ sp ++ [.sub s v]

/-- Models `FunctionDefinitionPrinter` (`solidity/pretty_printer.rs:686-774`). -/
def functionDefinition (s : PrintSettings) (node : Json) : Layout PrintSettings where
  entry := documentation s node ++ onStr "kind" node fun k =>
    if k = "function" ∨ k = "freeFunction" then tok "function" ++ sp ++ strTok "name" node
    else when (k = "constructor" || k = "receive" || k = "fallback") (tok k)
  body := field s "parameters" node ++ (onStr "visibility" node fun v => sp ++ tok v) ++
    when (node.getBoolForKey "virtual" = some true) (sp ++ tok "virtual") ++
    (onStr "stateMutability" node fun m => when (m ≠ "nonpayable" || s.nonpayable) (sp ++ tok m)) ++
    (onField "overrides" node fun o => sp ++ [.sub s o]) ++
    spaceAndArray s "modifiers" node ++ returnParameters s node ++
    (onField "body" node fun b => sp ++ [.sub s b]) ++
    when (node.getBoolForKey "implemented" = some false) (tok ";")

/-- Models `ParameterListPrinter` (`solidity/pretty_printer.rs:778-812`). -/
def parameterList (s : PrintSettings) (node : Json) : Layout PrintSettings where
  entry := tok "("
  body := onArray "parameters" node (array s)
  exit := tok ")"

/-- Models `ImportDirectivePrinter` (`solidity/pretty_printer.rs:1276-1352`). -/
def importDirective (s : PrintSettings) (node : Json) : Layout PrintSettings where
  entry := tok "import"
  body := (onArray "symbolAliases" node fun xs => when (!xs.isEmpty)
      (sp ++ tok "{" ++ arrayWith (fun a => field s "foreign" a ++
        onStr "local" a fun l => sp ++ tok "as" ++ sp ++ tok l) (tok "," ++ sp) xs ++ tok "}")) ++
    sp ++ (onArray "symbolAliases" node fun xs => when (!xs.isEmpty) (tok "from" ++ sp)) ++
    (onStr "file" node fun f => [.op (.string f.toList)]) ++
    (onStr "unitAlias" node fun a => when (!a.toList.isEmpty) (sp ++ tok "as" ++ sp ++ tok a)) ++ tok ";"

/-- Models `InheritanceSpecifierPrinter` (`solidity/pretty_printer.rs:1356-1373`). -/
def inheritance (s : PrintSettings) (node : Json) : Ps :=
  field s "baseName" node ++ onSome (node.getArrayForKey "arguments") fun xs => tok "(" ++ array s xs ++ tok ")"

/-- Models `ModifierInvocationPrinter` (`solidity/pretty_printer.rs:1377-1399`). -/
def modifierInvocation (s : PrintSettings) (node : Json) : Ps :=
  field s "modifierName" node ++
    onArray "arguments" node fun xs => tok "(" ++ when (!xs.isEmpty) (array s xs) ++ tok ")"

/-- Models `UsingForDirectivePrinter` (`solidity/pretty_printer.rs:1403-1471`). -/
def usingFor (s : PrintSettings) (node : Json) : Ps :=
  tok "using" ++ (onField "libraryName" node fun l => sp ++ [.sub s l]) ++
    (onArray "functionList" node fun xs => when (!xs.isEmpty)
      (sp ++ tok "{" ++ (inc ++ (nl ++ ind ++ arrayWith (fun n =>
        (onField "definition" n fun d => strTok "name" d) ++
          onStr "operator" n fun o => sp ++ tok "as" ++ sp ++ tok o) (tok "," ++ nl ++ ind) xs ++ nl) ++ dec) ++
        ind ++ tok "}")) ++
    sp ++ tok "for" ++ sp ++ field s "typeName" node ++
    when (node.getBoolForKey "global" = some true) (sp ++ tok "global") ++ tok ";"

/-- Models `ModifierDefinitionPrinter` (`solidity/pretty_printer.rs:1475-1515`). -/
def modifierDefinition (s : PrintSettings) (node : Json) : Layout PrintSettings where
  entry := documentation s node ++ tok "modifier" ++ sp ++ strTok "name" node ++ field s "parameters" node
  body := when (node.getBoolForKey "virtual" = some true) (sp ++ tok "virtual") ++ field s "overrides" node ++
    onField "body" node fun b => sp ++ [.sub s b]

/-- Models `StructuredDocumentationPrinter` (`solidity/pretty_printer.rs:1519-1562`). -/
def structuredDoc (node : Json) : Layout PrintSettings where
  entry := tok "/**"
  body := onStr "text" node fun t => (splitLines t.toList).flatMap fun l =>
    nl ++ ind ++ sp ++ tok "*" ++ sp ++ [.op (.flow l " *   ".toList)]
  exit := nl ++ ind ++ sp ++ tok "*/"

/-- Models `OverrideSpecifierPrinter` (`solidity/pretty_printer.rs:1619-1636`). -/
def overrideSpecifier (s : PrintSettings) (node : Json) : Ps :=
  tok "override" ++ onSome (node.getArrayForKey "overrides") fun xs =>
    when (!xs.isEmpty) (tok "(" ++ array s xs ++ tok ")")

/-- Models `FunctionTypeNamePrinter` (`solidity/pretty_printer.rs:2034-2055`). -/
def functionTypeName (s : PrintSettings) (node : Json) : Ps :=
  tok "function" ++ field s "parameterTypes" node ++
    (onStr "visibility" node fun v => when (v = "external") (sp ++ tok v)) ++ returnParameters s node

/-- Models `EventDefinitionPrinter` (`solidity/pretty_printer.rs:2059-2081`). -/
def eventDefinition (s : PrintSettings) (node : Json) : Ps :=
  tok "event" ++ sp ++ strTok "name" node ++ field s "parameters" node ++
    when (node.getBoolForKey "anonymous" = some true) (sp ++ tok "anonymous") ++ tok ";"

/-- Models `EnumDefinitionPrinter` (`solidity/pretty_printer.rs:2104-2145`). -/
def enumDefinition (s : PrintSettings) (node : Json) : Ps :=
  tok "enum" ++ sp ++ strTok "name" node ++ onArray "members" node fun xs => when (!xs.isEmpty)
    (sp ++ tok "{" ++ (inc ++ arrayWith (fun n => nl ++ ind ++ [.sub s n]) (tok "," ++ sp) xs ++ dec) ++
      nl ++ ind ++ tok "}")

/-! ### Statements -/

/-- Models `BlockPrinter` (`solidity/pretty_printer.rs:836-878`). -/
def block (s : PrintSettings) (node : Json) : Layout PrintSettings where
  entry := when (node.getStrForKey "nodeType" = some "UncheckedBlock") (tok "unchecked" ++ sp) ++ tok "{"
  body := statements s node
  exit := tok "}"

/-- Models `VariableDeclarationStatementPrinter` (`solidity/pretty_printer.rs:882-925`). -/
def variableDeclarationStatement (s : PrintSettings) (node : Json) : Ps :=
  (onArray "declarations" node fun xs =>
    when (decide (1 < xs.length)) (tok "(") ++ nullableList s xs ++ when (decide (1 < xs.length)) (tok ")")) ++
    (onField "initialValue" node fun v => sp ++ tok "=" ++ sp ++ [.sub s v]) ++ tok ";"

/-- A body that is printed indented on a line of its own unless it is a `Block`: the part for other nodes
(`solidity/pretty_printer.rs:1243-1247`, `solidity/pretty_printer.rs:1263-1267`, `solidity/pretty_printer.rs:1786-1790`). -/
def indentedStatement (s : PrintSettings) (n : Json) : Ps := nl ++ (inc ++ (ind ++ [.sub s n]) ++ dec)

/-- Models `IfStatementPrinter` (`solidity/pretty_printer.rs:1220-1272`). -/
def ifStatement (s : PrintSettings) (node : Json) : Ps :=
  tok "if" ++ tok "(" ++ field s "condition" node ++ tok ")" ++ sp ++
    (onField "trueBody" node fun b => onStr "nodeType" b fun t =>
      if t = "Block" then [.sub s b] else indentedStatement s b) ++
    onField "falseBody" node fun b => onStr "nodeType" b fun t =>
      if t = "Block" then sp ++ tok "else" ++ sp ++ [.sub s b]
      else nl ++ ind ++ tok "else" ++ indentedStatement s b

/-- Models `ReturnPrinter` (`solidity/pretty_printer.rs:1581-1596`). -/
def returnStatement (s : PrintSettings) (node : Json) : Ps :=
  tok "return" ++ (onField "expression" node fun e => sp ++ [.sub s e]) ++ tok ";"

/-- Models `EmitStatementPrinter` (`solidity/pretty_printer.rs:1600-1615`). -/
def emitStatement (s : PrintSettings) (node : Json) : Ps :=
  onField "eventCall" node fun e => tok "emit" ++ sp ++ [.sub s e] ++ tok ";"

/-- Models `CommentPrinter` (`solidity/pretty_printer.rs:1704-1725`). -/
def comment (s : PrintSettings) (node : Json) : Ps :=
  tok "//" ++ sp ++
    (onStr "text" node fun t => when (!t.toList.isEmpty) [.op (.flow t.toList "// ".toList)]) ++ field s "value" node

/-- Models `ForStatementPrinter` (`solidity/pretty_printer.rs:1751-1795`). -/
def forStatement (s : PrintSettings) (node : Json) : Ps :=
  tok "for(" ++ field s "initializationExpression" node ++
    (onField "condition" node fun c => sp ++ [.sub s c] ++ tok ";") ++
    (onField "loopExpression" node fun l => sp ++ [.sub { s with semicolon := false } l]) ++ tok ")" ++
    onField "body" node fun b => onStr "nodeType" b fun t =>
      if t = "Block" then sp ++ [.sub s b] else indentedStatement s b

/-- Models `InlineAssemblyPrinter` (`solidity/pretty_printer.rs:1820-1874`). -/
def inlineAssembly (s : PrintSettings) (node : Json) : Layout PrintSettings where
  entry := onStr "documentation" node fun d =>
    tok "///" ++ sp ++ [.op (.flow d.toList "/// ".toList)] ++ nl ++ ind
  body := tok "assembly" ++ sp ++ (onArray "flags" node fun xs => when (!xs.isEmpty)
      (tok "(" ++ arrayWith (fun n => onSome n.asStr fun t => [.op (.string (unencode t.toList))]) (tok "," ++ sp) xs ++
        tok ")" ++ sp)) ++
    field s "AST" node

/-- The loop over the clauses of a `try` (`solidity/pretty_printer.rs:2285-2296`) at position `i`.  The test `i < len` in it
(`solidity/pretty_printer.rs:2292`) is always true, so there is a space after the last clause too. -/
def clauseLoop (s : PrintSettings) : Nat → List Json → Ps
  | _, [] => []
  | i, c :: cs => when (decide (1 ≤ i)) (tok "catch" ++ sp) ++ ([.sub s c] ++ (sp ++ clauseLoop s (i + 1) cs))

/-- Models `TryStatementPrinter` (`solidity/pretty_printer.rs:2269-2299`). -/
def tryStatement (s : PrintSettings) (node : Json) : Ps :=
  tok "try" ++ sp ++ (onField "externalCall" node fun c => [.sub s c] ++ sp) ++
    onSome (node.getArrayForKey "clauses") (clauseLoop s 0)

/-- Models `TryCatchClausePrinter` (`solidity/pretty_printer.rs:2303-2326`). -/
def tryCatchClause (s : PrintSettings) (node : Json) : Ps :=
  (onStr "errorName" node fun e => when (!e.toList.isEmpty) (tok e)) ++
    (onField "parameters" node fun p => [.sub s p] ++ sp) ++ field s "block" node

/-- Models `WhileStatementPrinter` (`solidity/pretty_printer.rs:2330-2350`). -/
def whileStatement (s : PrintSettings) (node : Json) : Ps :=
  tok "while" ++ sp ++ (onField "condition" node fun c => tok "(" ++ [.sub s c] ++ tok ")") ++
    onField "body" node fun b => sp ++ [.sub s b]

/-- Models `DoWhileStatementPrinter` (`solidity/pretty_printer.rs:2354-2377`). -/
def doWhileStatement (s : PrintSettings) (node : Json) : Ps :=
  tok "do" ++ (onField "body" node fun b => sp ++ [.sub s b]) ++
    (onField "condition" node fun c => sp ++ tok "while" ++ sp ++ tok "(" ++ [.sub s c] ++ tok ")") ++ tok ";"

/-! ### Expressions -/

/-- Models `BinaryOperationPrinter` (`solidity/pretty_printer.rs:929-947`). -/
def binaryOperation (s : PrintSettings) (node : Json) : Ps :=
  field s "leftExpression" node ++ operator node ++ field s "rightExpression" node

/-- Models `LiteralPrinter` (`solidity/pretty_printer.rs:951-980`). -/
def literal (node : Json) : Ps :=
  (onStr "value" node fun v => match node.getStrForKey "kind" with
    | some k =>
      if k = "string" then [.op (.string (unencode v.toList))]
      else if k = "unicodeString" then tok "unicode" ++ [.op (.string v.toList)]
      else tok v
    | none => tok v) ++
    onStr "subdenomination" node fun d => sp ++ tok d

/-- Models `AssignmentPrinter` (`solidity/pretty_printer.rs:1022-1040`). -/
def assignment (s : PrintSettings) (node : Json) : Ps :=
  field s "leftHandSide" node ++ operator node ++ field s "rightHandSide" node

/-- The loop over named arguments (`solidity/pretty_printer.rs:1091-1105`) at position `i` of `len`. -/
def namedLoop (s : PrintSettings) (len : Nat) : Nat → List Json → List Json → Ps
  | i, n :: ns, a :: as => match n.asStr with
    | none => crash
    | some t => nl ++ ind ++ tok t ++ tok ":" ++ sp ++ [.sub s a] ++ when (i < len - 1) (tok ",") ++
        namedLoop s len (i + 1) ns as
  | _, _, _ => []

/-- Models `FunctionCallPrinter` (`solidity/pretty_printer.rs:1060-1135`). -/
def functionCall (s : PrintSettings) (node : Json) : Layout PrintSettings where
  entry := onField "expression" node fun e => [.sub s e] ++ tok "("
  body := match node.getArrayForKey "names" with
    | some (n :: ns) => onSome (node.getArrayForKey "arguments") fun as =>
        if (n :: ns).length ≠ as.length then crash
        else tok "{" ++ (inc ++ namedLoop s (n :: ns).length 0 (n :: ns) as ++ dec) ++ nl ++ ind ++ tok "}"
    | _ => arguments s node
  exit := tok ")" ++ when (node.getBoolForKey "tryCall" = some true) (sp ++ tok "returns")

/-- Models `UnaryOperationPrinter` (`solidity/pretty_printer.rs:1139-1170`). -/
def unaryOperation (s : PrintSettings) (node : Json) : Ps :=
  onSome (node.getBoolForKey "prefix") fun prefixed =>
    when prefixed (onStr "operator" node fun o => if o = "delete" then tok "delete" ++ sp else tok o) ++
      field s "subExpression" node ++ when (!prefixed) (strTok "operator" node)

/-- Models `ElementaryTypeNameExpressionPrinter` (`solidity/pretty_printer.rs:1640-1661`). -/
def typeNameExpression (s : PrintSettings) (node : Json) : Ps :=
  when (node.getBoolForKey "isPure" = some true) (onField "typeName" node fun t =>
    match t.getStrForKey "stateMutability" with
    | some m => tok m
    | none => [.sub s t])

/-- Models `TupleExpressionPrinter` (`solidity/pretty_printer.rs:1665-1695`). -/
def tuple (s : PrintSettings) (node : Json) : Ps :=
  onArray "components" node fun xs => when (!xs.isEmpty) (tok "(" ++ nullableList s xs ++ tok ")")

/-- Models `ConditionalPrinter` (`solidity/pretty_printer.rs:2190-2217`). -/
def conditional (s : PrintSettings) (node : Json) : Ps :=
  field s "condition" node ++ sp ++ tok "?" ++ sp ++ field s "trueExpression" node ++ sp ++ tok ":" ++ sp ++
    field s "falseExpression" node

/-- The loop over call options (`solidity/pretty_printer.rs:2244-2259`) at position `i` of `len`. -/
def optionLoop (s : PrintSettings) (len : Nat) : Nat → List Json → List Json → Ps
  | i, n :: ns, o :: os => match n.asStr with
    | none => crash
    | some t => tok t ++ tok ":" ++ sp ++ [.sub s o] ++ when (i < len - 1) (tok "," ++ sp) ++
        optionLoop s len (i + 1) ns os
  | _, _, _ => []

/-- Models `FunctionCallOptionsPrinter` (`solidity/pretty_printer.rs:2221-2265`). -/
def functionCallOptions (s : PrintSettings) (node : Json) : Ps :=
  field s "expression" node ++ onSome (node.getArrayForKey "names") fun ns =>
    onSome (node.getArrayForKey "options") fun os =>
      if ns.length ≠ os.length then crash
      else when (!ns.isEmpty) (tok "{" ++ optionLoop s ns.length 0 ns os ++ tok "}")

/-! ### Yul -/

/-- Models `YulVariableDeclarationPrinter` (`solidity/pretty_printer.rs:1878-1900`). -/
def yulVariableDeclaration (s : PrintSettings) (node : Json) : Ps :=
  tok "let" ++ sp ++ (onArray "variables" node fun xs => array s xs ++ sp) ++ tok ":=" ++ sp ++ field s "value" node

/-- Models `YulAssignmentPrinter` (`solidity/pretty_printer.rs:1942-1962`). -/
def yulAssignment (s : PrintSettings) (node : Json) : Ps :=
  (onArray "variableNames" node fun xs => array s xs ++ sp) ++ tok ":=" ++ sp ++ field s "value" node

/-- Models `YulLiteralPrinter` (`solidity/pretty_printer.rs:1966-1986`). -/
def yulLiteral (node : Json) : Ps :=
  onStr "kind" node fun k =>
    if k = "number" ∨ k = "bool" then strTok "value" node
    else if k = "string" then onStr "value" node fun v => [.op (.string v.toList)]
    else []

/-- Models `YulForLoopPrinter` (`solidity/pretty_printer.rs:1990-2030`). -/
def yulFor (s : PrintSettings) (node : Json) : Ps :=
  tok "for" ++ (inc ++ ((onField "pre" node fun n => nl ++ ind ++ [.sub { s with sameLine := true } n]) ++
      (onField "condition" node fun n => nl ++ ind ++ [.sub s n]) ++
      onField "post" node fun n => nl ++ ind ++ [.sub { s with sameLine := true } n]) ++ dec) ++
    nl ++ ind ++ field s "body" node

/-- Models `YulSwitchPrinter` (`solidity/pretty_printer.rs:2433-2459`). -/
def yulSwitch (s : PrintSettings) (node : Json) : Ps :=
  tok "switch" ++ sp ++ (onField "expression" node fun e => [.sub s e] ++ sp) ++
    onSome (node.getArrayForKey "cases") fun xs => when (!xs.isEmpty)
      (inc ++ (xs.flatMap fun v => nl ++ ind ++ [.sub s v]) ++ dec)

/-- Models `YulCasePrinter` (`solidity/pretty_printer.rs:2463-2488`). -/
def yulCase (s : PrintSettings) (node : Json) : Ps :=
  (onField "value" node fun v => match v with
    | .obj kvs => tok "case" ++ sp ++ [.sub s (.obj kvs)] ++ sp
    | .str t => when (t = "default") (tok t ++ sp)
    | _ => []) ++
    field s "body" node

/-- Models `YulFunctionDefinitionPrinter` (`solidity/pretty_printer.rs:2492-2529`). -/
def yulFunction (s : PrintSettings) (node : Json) : Ps :=
  tok "function" ++ sp ++ strTok "name" node ++ tok "(" ++ onSome (node.getArrayForKey "parameters") (array s) ++
    tok ")" ++ sp ++
    (onSome (node.getArrayForKey "returnVariables") fun xs => when (!xs.isEmpty)
      (tok "->" ++ sp ++ when (decide (1 < xs.length)) (tok "(") ++ array s xs ++
        when (decide (1 < xs.length)) (tok ")") ++ sp)) ++
    field s "body" node

/-- Models `SolidityNodePrinterFactory::printer_for` (`solidity/pretty_printer.rs:2616-2707`), with the one-line node printers
inlined. -/
def layout (s : PrintSettings) (node : Json) : Layout PrintSettings :=
  match node.getStrForKey "nodeType" with
  | none => { visitChildren := true }
  | some t =>
    if t = "ArrayTypeName" then { body := field s "baseType" node ++ tok "[" ++ field s "length" node ++ tok "]" }
    else if t = "Assignment" then { body := assignment s node }
    else if t = "BinaryOperation" then { body := binaryOperation s node }
    else if t = "Block" then block s node
    else if t = "Break" then { body := tok "break" ++ tok ";" }
    else if t = "Comment" then { body := comment s node }
    else if t = "Conditional" then { body := conditional s node }
    else if t = "Continue" then { body := tok "continue" ++ tok ";" }
    else if t = "ContractDefinition" then contract s node
    else if t = "DoWhileStatement" then { body := doWhileStatement s node }
    else if t = "ElementaryTypeName" then { body := elementaryType node }
    else if t = "ElementaryTypeNameExpression" then { body := typeNameExpression s node }
    else if t = "EmitStatement" then { body := emitStatement s node }
    else if t = "EnumDefinition" then { body := enumDefinition s node }
    else if t = "EnumValue" then { body := strTok "name" node }
    else if t = "ErrorDefinition" then
      { body := tok "error" ++ sp ++ strTok "name" node ++ field s "parameters" node ++ tok ";" }
    else if t = "EventDefinition" then { body := eventDefinition s node }
    else if t = "ExpressionStatement" then { body := field s "expression" node, exit := when s.semicolon (tok ";") }
    else if t = "ForStatement" then { body := forStatement s node }
    else if t = "FunctionCall" then functionCall s node
    else if t = "FunctionCallOptions" then { body := functionCallOptions s node }
    else if t = "FunctionDefinition" then functionDefinition s node
    else if t = "FunctionTypeName" then { body := functionTypeName s node }
    else if t = "Identifier" then { body := strTok "name" node }
    else if t = "IdentifierPath" then { body := strTok "name" node }
    else if t = "IfStatement" then { body := ifStatement s node }
    else if t = "ImportDirective" then importDirective s node
    else if t = "IndexAccess" then
      { body := field s "baseExpression" node ++ tok "[" ++ field s "indexExpression" node ++ tok "]" }
    else if t = "InheritanceSpecifier" then { body := inheritance s node }
    else if t = "InlineAssembly" then inlineAssembly s node
    else if t = "Literal" then { body := literal node }
    else if t = "Mapping" then { body := mapping s node }
    else if t = "MemberAccess" then { body := field s "expression" node ++ tok "." ++ strTok "memberName" node }
    else if t = "ModifierDefinition" then modifierDefinition s node
    else if t = "ModifierInvocation" then { body := modifierInvocation s node }
    else if t = "NewExpression" then { body := tok "new" ++ onField "typeName" node fun n => sp ++ [.sub s n] }
    else if t = "OverrideSpecifier" then { body := overrideSpecifier s node }
    else if t = "ParameterList" then parameterList s node
    else if t = "PlaceholderStatement" then { body := tok "_" ++ tok ";" }
    else if t = "PragmaDirective" then { body := pragma node }
    else if t = "Return" then { body := returnStatement s node }
    else if t = "RevertStatement" then { body := tok "revert" ++ sp ++ field s "errorCall" node ++ tok ";" }
    else if t = "SourceUnit" then sourceUnit s node
    else if t = "StructDefinition" then structDef s node
    else if t = "StructuredDocumentation" then structuredDoc node
    else if t = "TryCatchClause" then { body := tryCatchClause s node }
    else if t = "TryStatement" then { body := tryStatement s node }
    else if t = "TupleExpression" then { body := tuple s node }
    else if t = "UnaryOperation" then { body := unaryOperation s node }
    else if t = "UncheckedBlock" then block s node
    else if t = "UserDefinedTypeName" then { body := userType node }
    else if t = "UserDefinedValueTypeDefinition" then
      { body := tok "type" ++ sp ++ strTok "name" node ++ sp ++ tok "is" ++ sp ++ field s "underlyingType" node ++
          tok ";" }
    else if t = "UsingForDirective" then { body := usingFor s node }
    else if t = "VariableDeclaration" then variableDeclaration s node
    else if t = "VariableDeclarationStatement" then { body := variableDeclarationStatement s node }
    else if t = "WhileStatement" then { body := whileStatement s node }
    else if t = "YulAssignment" then { body := yulAssignment s node }
    else if t = "YulBlock" then block s node
    else if t = "YulBreak" then { body := tok "break" }
    else if t = "YulCase" then { body := yulCase s node }
    else if t = "YulContinue" then { body := tok "continue" }
    else if t = "YulForLoop" then { body := yulFor s node }
    else if t = "YulFunctionCall" then { body := field s "functionName" node ++ tok "(" ++ arguments s node ++ tok ")" }
    else if t = "YulFunctionDefinition" then { body := yulFunction s node }
    else if t = "YulIdentifier" then { body := strTok "name" node }
    else if t = "YulIf" then
      { body := tok "if" ++ sp ++ field s "condition" node ++ onField "body" node fun b => sp ++ [.sub s b] }
    else if t = "YulLeave" then { body := tok "leave" }
    else if t = "YulLiteral" then { body := yulLiteral node }
    else if t = "YulSwitch" then { body := yulSwitch s node }
    else if t = "YulTypedName" then { body := strTok "name" node }
    else if t = "YulVariableDeclaration" then { body := yulVariableDeclaration s node }
    else { visitChildren := true }

/-- The calls on the token printer that print a Solidity node. -/
def printOps (checks : Bool) (s : PrintSettings) (node : Json) : List Op := ops checks layout s node

/-- The text of a Solidity node printed with the default settings on an empty page of 150 columns
(`pretty_printing.rs`, the same parameters as everywhere). -/
def printText (checks : Bool) (node : Json) : Outcome (List Char) :=
  match Printer.run checks (printOps checks {} node) (Printer.new 4 150) with
  | .ok p => .ok p.out
  | .err e => .err e
  | .panic => .panic
  | .outOfFuel => .outOfFuel

end SolPrint
end Mutagenyx
