import Verif.Spec.DemoNodes
import Verif.Spec.DemoSystem
import Verif.Spec.VyperNodes
import Verif.Model.Tool

/-!
# A small machine for runs of the tool with a Vyper program
-/

namespace Mutagenyx
namespace DemoVyper

open DemoSystem (Disk put drop)

/-- A node. -/
def node (type : String) (id : Nat) (fields : List (String × Json)) : Json :=
  .obj (("ast_type", .str type) :: ("node_id", .num (.int id)) :: fields)

/-- A name. -/
def name (id : Nat) (text : String) : Json := node "Name" id [("id", .str text)]

/-- A function without documentation. -/
def function (id : Nat) (name_ : String) (decorators args body : List Json) : Json :=
  node "FunctionDef" id [("args", node "arguments" (id + 1) [("args", .arr args), ("defaults", .arr [])]),
    ("body", .arr body), ("decorator_list", .arr decorators), ("doc_string", .null), ("name", .str name_),
    ("returns", name (id + 2) "uint256")]

/-- A parameter. -/
def param (id : Nat) (text : String) : Json := node "arg" id [("annotation", name (id + 1) "uint256"), ("arg", .str text)]

/-- An interface, and a function that returns the expression. -/
def module_ (e : Json) : Json :=
  node "Module" 1 [("body", .arr [
    node "InterfaceDef" 2 [("body", .arr [function 3 "g" [] [] [node "Expr" 6 [("value", name 7 "view")]]]), ("name", .str "I")],
    function 8 "f" [name 11 "external"] [param 12 "a", param 14 "b"] [node "Return" 16 [("value", e)]]]),
    ("doc_string", .null)]

/-- `a * b` -/
def product (a b : Json) : Json := node "BinOp" 17 [("left", a), ("op", node "Mult" 18 []), ("right", b)]

/-- `~a` -/
def inverted (a : Json) : Json := node "UnaryOp" 19 [("op", node "Invert" 20 []), ("operand", a)]

/-- The compiler, for a program whose syntax tree is `tree`. -/
def exec (program : String) (args : List String) (d : Disk) : Option (Bool × String) × Disk :=
  if program = "vyper" then
    if args = ["--version"] then (some (true, "0.3.7\n"), d)
    else if args = ["-f", "ast", "/in/x.vy"] then (some (true, "tree"), d)
    else (some (true, ""), d)
  else (none, d)

/-- The machine. -/
def machine (tree : Json) : Machine Disk ListRand where
  exec := exec
  readJson f d := (d.lookup f).bind fun t => if t = "tree" then some tree else none
  write f t d := (true, put f t d)
  remove := drop
  tmp := "/tmp"
  dashO _ := .ok false
  stdout t d := put "stdout" ((d.lookup "stdout").getD "" ++ t) d
  print := Language.print ⟨true, fun _ => ""⟩
  env := { DemoNodes.env with
    pp := fun j => match Language.print ⟨true, fun _ => ""⟩ .vyper j with | .ok t => t | _ => ""
    digest := fun ps => ps.foldr (fun p s => (match p with | .text t => t | _ => "") ++ s) "" }
  configText _ := "config"
  shuffle l := l

def disk : Disk := [("/in/x.vy", "program")]

def params : Params ListRand where
  fileName := "/in/x.vy"
  numberOfMutants := 1
  rngSeed := 0
  rng := ⟨[0, 0, 0, 0, 0, 0]⟩
  outputDirectory := "out"
  useStdout := false
  mutations := [.arithmeticBinaryOp]
  verify := true
  printOriginal := true
  saveConfig := false
  preferences := [("Vyper", .map [("compiler", .map [("path", .str "vyper")])])]
  functions := []

/-- The text of a program, from the last statement. -/
def text (result : String) : String :=
  "interface I:\n    def g() -> uint256: view\n\n\n@external\ndef f(a: uint256, b: uint256) -> uint256:\n    " ++ result ++ "\n\n"

/-- The program with these statements in the function. -/
def programOf (body : List VyGrammar.Stmt) : VyGrammar.Program where
  doc := none
  decls := [.interface "I" [(⟨"g", [], [.leaf "uint256"]⟩, "view")],
    .fn [.leaf "external"] ⟨"f", [⟨"a", .leaf "uint256", none⟩, ⟨"b", .leaf "uint256", none⟩], [.leaf "uint256"]⟩ none body]

/-- The program with this result of the function. -/
def program (result : VyGrammar.Expr) : VyGrammar.Program := programOf [.simple (.ret [result])]

/-- The result of the last function, with all parentheses. -/
def result (p : VyGrammar.Program) : Option String :=
  match p.decls.getLast? with
  | some (.fn _ _ _ body) => match body.getLast? with
    | some (.simple (.ret [e])) => some e.show
    | _ => none
  | _ => none

end DemoVyper
end Mutagenyx
