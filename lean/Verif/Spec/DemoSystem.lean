import Verif.Model.System

/-!
# A small machine for examples

Files are texts.  There is a Solidity compiler that knows one program and a Vyper compiler that knows another.
-/

namespace Mutagenyx
namespace DemoSystem

/-- Files with their texts. -/
abbrev Disk := List (String × String)

/-- Write a file. -/
def put (file text : String) (d : Disk) : Disk := (file, text) :: d.filter fun e => e.1 ≠ file

/-- Remove a file. -/
def drop (file : String) (d : Disk) : Disk := d.filter fun e => e.1 ≠ file

/-- The text of the Solidity program and of its syntax tree. -/
def solProgram : String := "contract C {}"
def solTree : String := "{\"nodeType\":\"SourceUnit\"}"

/-- The text of the Vyper program and of its syntax tree. -/
def vyProgram : String := "x: uint256"
def vyTree : String := "{\"contract_name\":\"x.vy\",\"ast\":{}}"

/-- The text of a configuration file. -/
def config : String := "{\"language\":\"Vyper\"}"

/-- A Solidity program with a mistake that is only found after parsing. -/
def solWrong : String := "contract C { uint x = true; }"

/-- The JSON that some texts denote. -/
def json (text : String) : Option Json :=
  if text = solTree then some (.obj [("nodeType", .str "SourceUnit")])
  else if text = vyTree then some (.obj [("ast", .obj []), ("contract_name", .str "x.vy")])
  else if text = config then some (.obj [("language", .str "Vyper")])
  else none

/-- The compilers. -/
def exec (program : String) (args : List String) (d : Disk) : Option (Bool × String) × Disk :=
  if program = "solc" then
    if args.drop 1 = ["--overwrite", "-o", "/tmp", "/in/a.sol"] ∧ d.lookup "/in/a.sol" = some solProgram then
      (some (true, ""), put "/tmp/a.sol_json.ast" solTree d)
    else if args.getLast? = some "parsing" then (some (true, ""), d)
    else (some (false, ""), d)
  else if program = "vyper" then
    if args = ["--version"] then (some (true, "0.3.7\n"), d)
    else if args = ["-f", "ast", "/in/x.vy"] ∧ d.lookup "/in/x.vy" = some vyProgram then (some (true, vyTree), d)
    else (some (false, ""), d)
  else (none, d)

/-- The machine. -/
def sys : Sys Disk where
  exec := exec
  readJson := fun f d => (d.lookup f).bind json
  write := fun f t d => (true, put f t d)
  remove := drop
  tmp := "/tmp"
  dashO := fun _ => .ok false

/-- Files of every kind. -/
def disk : Disk :=
  [("/in/a.sol", solProgram), ("/in/x.vy", vyProgram), ("/in/t.json", vyTree), ("/in/c.mgnx", config), ("/in/.mgnx", config),
    ("/in/readme", "text")]

end DemoSystem
end Mutagenyx
