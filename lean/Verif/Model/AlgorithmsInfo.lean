import Verif.Model.Common
import Verif.Model.Operators
import Verif.Model.PrinterOps

/-!
# The `algorithms` command: `mutagenyx/src/mutations_info.rs` and the table of descriptions of
`mutagenyx_lib/src/mutation.rs`

Not modelled: the reading of the command line (exactly one of `--list` and `--describe` is accepted,
`main.rs:37-50`) and the query for the size of the terminal, which is a parameter.
-/

namespace Mutagenyx

/-- A literal for the list of the characters of a text (easier on the kernel than `String.toList`). -/
macro "chars!" s:str : term => do
  let cs := s.getString.toList.map Lean.Syntax.mkCharLit
  `([$(cs.toArray),*])

/-- Models `MutationAlgorithmDescription` (`mutation.rs:317-326`). -/
structure Description where
  summary : List Char
  extraDetails : List Char
  operators : List String
  examples : List Char
  deriving DecidableEq, Repr

/-- Models the values of the map made by `all_algorithm_descriptions` (`mutation.rs:329-539`). -/
def MutationType.description : MutationType → Description
  | .arithmeticBinaryOp => {
      summary := chars! "Randomly replace the arithmetic operator in a binary expression."
      extraDetails := chars! "This algorithm will replace the operators in the operator list with another operator \
        from the same list."
      operators := arithmeticOperators
      examples := chars! "a + b might become a - b, a * y might become a / b" }
  | .logicalBinaryOp => {
      summary := chars! "Randomly replace the logical operator in a binary expression."
      extraDetails := chars! "This algorithm will replace the operators in the operator list with another operator \
        from the same list."
      operators := logicalOperators
      examples := chars! "a || b might become a && b" }
  | .bitwiseBinaryOp => {
      summary := chars! "Randomly replaces a bitwise operator in a binary expression."
      extraDetails := chars! "Find bitwise binary operation expressions in the program and replace the operator in \
        the expression with another operator from the list of bitwise operators."
      operators := bitwiseOperators
      examples := chars! "a & b might become a | b" }
  | .bitshiftBinaryOp => {
      summary := chars! "Randomly replaces a bitshift operator in a binary expression."
      extraDetails := chars! "Find bitshift binary operator expressions in the program and replace the operator in \
        the expression with another operator from the list of bitshift operators."
      operators := bitshiftOperators
      examples := chars! "a << b might become a >> b" }
  | .comparisonBinaryOp => {
      summary := chars! "Randomly replace the comparison operator in a binary expression"
      extraDetails := chars! "Find logical binary operator expressions in the program and replace the operator in the \
        expression with another operator from the list of logical operators."
      operators := comparisonOperators
      examples := chars! "a < b might become a > b, a == b might become a <= b" }
  | .assignment => {
      summary := chars! "Replace right hand side of assignment expressions with type appropriate random \
        alternative values."
      extraDetails := chars! "Find assignment expressions in the program and evaluate the left hand side for type. \
        After finding the type, attempt to replace the right hand size of the expression with a \
        randomly generated type appropriate value. This algorithm currently only operates on \
        expressions that have integer, floating-point, or boolean types."
      operators := []
      examples := chars! "a = b + 10; where a is of type uint, might become a = 29494243244;" }
  | .deleteStatement => {
      summary := chars! "Randomly select a statement in a program block and delete the statement."
      extraDetails := chars! "For languages that have variable declarations and return statements the algorithm will \
        not delete declarations or return statements in order to minimize compilation issues \
        caused by the mutation."
      operators := []
      examples := chars! "" }
  | .functionCall => {
      summary := chars! "Replace function calls with one of the randomly selected arguments to the function call."
      extraDetails := chars! "For function calls that have one or more arguments, randomly select an argument from \
        the argument list and replace the entire function call in the expression with the \
        selected argument. This mutation algorithm will attempt to select arguments of the \
        correct type (the return type of the function call) to minimize compilation issues \
        caused by the mutation."
      operators := []
      examples := chars! "a = foo(b, c); might become a = c;" }
  | .ifStatement => {
      summary := chars! "Replace the condition expression in an if(c) statement with true, false, or the logical \
        negation of the condition if(!(c))."
      extraDetails := chars! ""
      operators := []
      examples := chars! "if(a > b) might become if(true), if(c == 10) might become if(! (c == 1))" }
  | .integer => {
      summary := chars! "Randomly replace integer constants with random values."
      extraDetails := chars! "The mutation algorithm chooses between three possible behaviors when mutating the \
        constant: add one to the existing value, subtract one from the existing value, or \
        select a random integer value between 0:max(type of the constant)."
      operators := []
      examples := chars! "a = 10; might become a = 11;, a = 10 might become a = 9;, a = 10 might become a = 2932;" }
  | .swapFunctionArguments => {
      summary := chars! "Randomly swap two arguments in a function call."
      extraDetails := chars! "Find function calls in the program with two or more arguments, randomly select two \
        arguments, and swap them.  When possible, the mutation algorithm will select arguments \
        with the same type to avoid compilation issues."
      operators := []
      examples := chars! "a = foo(bar, bat, bug); might become a = foo(but, bat, bar);" }
  | .swapOperatorArguments => {
      summary := chars! "Swap left and right hand sides of binary expressions with non-commutative operators."
      extraDetails := chars! "Select a random binary expression that has a non-commutative operator and swap the left \
        and right hand sides of the expression."
      operators := nonCommutativeOperators
      examples := chars! "thing = a - b; might become thing = b - a;, this = that << 5; might become this = 5 << \
        that;" }
  | .swapLines => {
      summary := chars! "Randomly select two statements in a block and swap the two statements."
      extraDetails := chars! "The mutation algorithm will attempt to identify expression statements and to avoid \
        return statements when selecting statements to swap."
      operators := []
      examples := chars! "a = foo - bar(); ... foo += 8; might become foo += 8; ... a = foo - bar();" }
  | .unaryOp => {
      summary := chars! "Random replace unary operators for both prefix and postfix expressions with operators \
        from the unary operator list."
      extraDetails := chars! "This mutation algorithm will not convert a prefix unary expression into a postfix unary \
        expression."
      operators := prefixOperators
      examples := chars! "++a; might become ~a;, a-- might become a++." }
  | .require => {
      summary := chars! "Randomly select a use of the Solidity require() function and replace the argument with \
        the logical negation of the argument expression."
      extraDetails := chars! "This mutation algorithm only works for Solidity programs."
      operators := []
      examples := chars! "require(b > 10); would become require(!(b > 0));" }
  | .uncheckedBlock => {
      summary := chars! "Randomly select an expression statement in a block of statements and decorate the \
        statement with the Solidity unchecked{} block."
      extraDetails := chars! "This mutation algorithm only works for Solidity programs."
      operators := []
      examples := chars! "a = b + c; would become unchecked{ a = b + c; }" }
  | .elimDelegateCall => {
      summary := chars! "Replace delegatecall() functions with call()."
      extraDetails := chars! "This mutation algorithm only works for Solidity programs."
      operators := []
      examples := chars! "let a := foo.delegatecall() would become let a := foo.call()" }

namespace AlgorithmsInfo

/-- The length of the longest name (`mutations_info.rs:71-82`, `:142-152`). -/
def nameWidth (keys : List MutationType) : Nat :=
  keys.foldl (fun w k => if utf8Len k.toStr.toList > w then utf8Len k.toStr.toList else w) 0

/-- `format!("{:?}", operators)` (`mutations_info.rs:210`).  Simplified: no operator has a character that is
escaped. -/
def debugList (ops : List String) : List Char :=
  '[' :: List.intercalate [',', ' '] (ops.map fun o => '"' :: o.toList ++ ['"']) ++ [']']

/-- What is written for one algorithm of the short list (`mutations_info.rs:97-121`). -/
def listEntry (width : Nat) (last : Bool) (t : MutationType) : List Op :=
  let name := t.toStr.toList
  [.token name, .spaces (width - utf8Len name), .space, .incrBy (width + 1),
    .flow t.description.summary [], .decrBy (width + 1)] ++
  if last then [] else [.newline, .newline]

/-- The loop over the sorted algorithms (`mutations_info.rs:97-123`, `:169-252`). -/
def entries (entry : Bool → MutationType → List Op) : List MutationType → List Op
  | [] => []
  | [t] => entry true t
  | t :: ts => entry false t ++ entries entry ts

/-- Models `display_simple_algorithm_list` (`mutations_info.rs:61-126`); `order` is the iteration order of the
map of descriptions. -/
def listOps (order : List MutationType) : List Op :=
  entries (listEntry (nameWidth order)) (MutationType.getAll order) ++ [.newline]

/-- Models `write_lines` (`mutations_info.rs:269-303`). -/
def writeLines (width : Nat) (category text : List Char) (doIndent : Bool) : List Op :=
  [.incrBy width] ++
  (if doIndent then [.indent, .space] else []) ++
  (if category = [] then []
   else [.token category, .newline, .indent, .space, .tokens ['-'] (utf8Len category),
     .newline, .newline, .indent, .space]) ++
  [.incr, .flow text [], .decrBy (width + 1)]

/-- What is written for one algorithm by `display_algorithm_descriptions` (`mutations_info.rs:169-252`). -/
def describeEntry (width : Nat) (last : Bool) (t : MutationType) : List Op :=
  let name := t.toStr.toList
  let d := t.description
  [.token name, .spaces (width - utf8Len name), .space] ++
  writeLines width [] d.summary false ++
  (if d.extraDetails = [] then []
   else [.newline, .newline] ++ writeLines width [] d.extraDetails true) ++
  (if d.operators = [] then []
   else [.newline, .newline] ++ writeLines width (chars! "Operators:") (debugList d.operators) true) ++
  (if d.examples = [] then []
   else [.newline, .newline] ++ writeLines width (chars! "Examples:") d.examples true) ++
  (if last then [] else [.newline, .newline, .newline])

/-- Models `display_algorithm_descriptions` (`mutations_info.rs:129-255`). -/
def describeOps (order : List MutationType) : List Op :=
  entries (describeEntry (nameWidth order)) (MutationType.getAll order) ++ [.newline]

/-- Models `display_mutations_info` (`mutations_info.rs:26-39`): the calls made on a printer with tab width 1 and
the width of the terminal (`mutations_info.rs:69`, `:138`). -/
def infoOps (order : List MutationType) (list describe : Bool) : List Op :=
  if list then listOps order else if describe then describeOps order else []

/-- What the `algorithms` command writes on a terminal with `cols` columns (80 if the output is no terminal,
`mutations_info.rs:44-57`). -/
def algorithms (checks : Bool) (order : List MutationType) (cols : Nat) (list describe : Bool) :
    Outcome (List Char) :=
  match Printer.run checks (infoOps order list describe) (Printer.new 1 cols) with
  | .ok p => .ok p.out
  | .err e => .err e
  | .panic => .panic
  | .outOfFuel => .outOfFuel

end AlgorithmsInfo
end Mutagenyx
