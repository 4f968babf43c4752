import Verif.Spec.DemoNodes
import Verif.Spec.DemoSystem
import Verif.Spec.Trace

/-!
# A small machine for runs of the tool

It has one Solidity program and a compiler that refuses the mutants with `a - b`.
-/

namespace Mutagenyx
namespace DemoMachine

open DemoSystem (Disk put drop)

/-- A variable. -/
def variable_ (id : Nat) (name : String) : Json :=
  .obj [("id", .num (.int id)), ("isPure", .bool false), ("name", .str name), ("nodeType", .str "Identifier")]

/-- A sum. -/
def sum (id : Nat) (l r : Json) : Json :=
  .obj [("id", .num (.int id)), ("leftExpression", l), ("nodeType", .str "BinaryOperation"), ("operator", .str "+"),
    ("rightExpression", r)]

/-- An expression as a statement. -/
def statement (id : Nat) (e : Json) : Json :=
  .obj [("expression", e), ("id", .num (.int id)), ("nodeType", .str "ExpressionStatement")]

/-- The syntax tree of the program. -/
def tree : Json :=
  .obj [("id", .num (.int 1)), ("nodeType", .str "SourceUnit"), ("nodes", .arr [
    .obj [("abstract", .bool false), ("baseContracts", .arr []), ("contractKind", .str "contract"), ("id", .num (.int 2)),
      ("name", .str "C"), ("nodeType", .str "ContractDefinition"), ("nodes", .arr [
        .obj [("body", .obj [("id", .num (.int 4)), ("nodeType", .str "Block"), ("statements", .arr [
            statement 5 (sum 6 (variable_ 7 "a") (variable_ 8 "b"))])]),
          ("id", .num (.int 3)), ("implemented", .bool true), ("kind", .str "function"), ("modifiers", .arr []),
          ("name", .str "f"), ("nodeType", .str "FunctionDefinition"),
          ("parameters", .obj [("id", .num (.int 9)), ("nodeType", .str "ParameterList"), ("parameters", .arr [])]),
          ("returnParameters", .obj [("id", .num (.int 10)), ("nodeType", .str "ParameterList"), ("parameters", .arr [])]),
          ("stateMutability", .str "nonpayable"), ("virtual", .bool false), ("visibility", .str "public")]])]])]

/-- The text of the program and of its syntax tree. -/
def program : String := "program"
def treeText : String := "tree"

/-- The text that is printed for the mutant with this operation. -/
def mutant (op : String) : String :=
  "contract C {\n    function f() public {\n        // ArithmeticBinaryOp Mutator: changed '+' to '" ++ op ++ "'\n        a " ++
    op ++ " b;\n    }\n}\n\n"

/-- The compiler. -/
def exec (program : String) (args : List String) (d : Disk) : Option (Bool × String) × Disk :=
  if program = "solc" then
    if args.getLast? = some "/in/b.sol" ∧ d.lookup "/in/b.sol" = some DemoMachine.program then
      (some (true, ""), put "/tmp/b.sol_json.ast" treeText d)
    else (some (d.lookup "/tmp/b.sol" ≠ some (mutant "-"), ""), d)
  else (none, d)

def machine : Machine Disk ListRand where
  exec := exec
  readJson f d := (d.lookup f).bind fun t => if t = treeText then some tree else none
  write f t d := (true, put f t d)
  remove := drop
  tmp := "/tmp"
  dashO _ := .ok false
  stdout t d := put "stdout" ((d.lookup "stdout").getD "" ++ t) d
  print := Language.print ⟨true, fun _ => ""⟩
  env := { DemoNodes.env with digest := fun ps => ps.foldr (fun p s => (match p with | .text t => t | _ => "") ++ s) "" }
  configText _ := "config"
  shuffle l := l

def disk : Disk := [("/in/b.sol", program)]

def params : Params ListRand where
  fileName := "/in/b.sol"
  numberOfMutants := 2
  rngSeed := 0
  rng := ⟨[0, 0, 0, 0, 0, 0, 1, 0, 0, 2, 0, 0]⟩
  outputDirectory := "out"
  useStdout := false
  mutations := [.arithmeticBinaryOp]
  verify := true
  printOriginal := true
  saveConfig := true
  preferences := [("Solidity", .map [("compiler", .map [("path", .str "solc")])])]
  functions := []

end DemoMachine
end Mutagenyx
