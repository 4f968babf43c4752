/-!
# How compilers read their command lines

The parts of the command line of `solc` that matter here: options with a value (`--base-path`, `--include-path`,
`--allow-paths`, `--stop-after`, `-o`), switches, and positional arguments, which are remappings if they contain an
equals sign and input files if they do not.  Only `--include-path` may be given more than once.  A value does not begin
with a dash.  Likewise for `vyper`, with `-p`, `-f` and `-o`.  Stated without the functions of the model.
-/

namespace Mutagenyx

/-- What `solc` is asked to do. -/
structure SolcCall where
  base : Option String := none
  includes : List String := []
  /-- The value of `--allow-paths`: paths with commas between them. -/
  allow : Option String := none
  remappings : List String := []
  stop : Option String := none
  out : Option String := none
  switches : List String := []
  inputs : List String := []
  deriving DecidableEq, Repr

/-- The argument begins with a dash. -/
def IsDashed (a : String) : Prop := a.toList.head? = some '-'

instance (a : String) : Decidable (IsDashed a) := by unfold IsDashed; infer_instance

/-- The switches. -/
def solcSwitches : List String := ["--ast-compact-json", "--overwrite"]

/-- The argument by itself, before the others. -/
def SolcCall.single (a : String) (c : SolcCall) : Option SolcCall :=
  if IsDashed a then if a ∈ solcSwitches then some { c with switches := a :: c.switches } else none
  else if '=' ∈ a.toList then some { c with remappings := a :: c.remappings }
  else some { c with inputs := a :: c.inputs }

/-- The option with its value, before the others; `none` for an option that is already there. -/
def SolcCall.option (a v : String) (c : SolcCall) : Option SolcCall :=
  if IsDashed v then none
  else if a = "--include-path" then some { c with includes := v :: c.includes }
  else if a = "--base-path" then if c.base = none then some { c with base := some v } else none
  else if a = "--allow-paths" then if c.allow = none then some { c with allow := some v } else none
  else if a = "--stop-after" then if c.stop = none then some { c with stop := some v } else none
  else if a = "-o" then if c.out = none then some { c with out := some v } else none
  else none

/-- The options that have a value. -/
def solcOptions : List String := ["--include-path", "--base-path", "--allow-paths", "--stop-after", "-o"]

/-- What a command line asks `solc` to do; `none` if it is not understood. -/
def readSolc : List String → Option SolcCall
  | [] => some {}
  | [a] => if a ∈ solcOptions then none else SolcCall.single a {}
  | a :: v :: rest =>
    if a ∈ solcOptions then (readSolc rest).bind (SolcCall.option a v)
    else (readSolc (v :: rest)).bind (SolcCall.single a)

/-- What `vyper` is asked to do. -/
structure VyperCall where
  root : Option String := none
  format : Option String := none
  out : Option String := none
  inputs : List String := []
  deriving DecidableEq, Repr

/-- The option with its value, before the others; `none` for an option that is already there. -/
def VyperCall.option (a v : String) (c : VyperCall) : Option VyperCall :=
  if IsDashed v then none
  else if a = "-p" then if c.root = none then some { c with root := some v } else none
  else if a = "-f" then if c.format = none then some { c with format := some v } else none
  else if c.out = none then some { c with out := some v }
  else none

/-- What a command line asks `vyper` to do; `none` if it is not understood. -/
def readVyper : List String → Option VyperCall
  | [] => some {}
  | [a] => if IsDashed a then none else some { inputs := [a] }
  | a :: v :: rest =>
    if a ∈ ["-p", "-f", "-o"] then (readVyper rest).bind (VyperCall.option a v)
    else if IsDashed a then none
    else (readVyper (v :: rest)).map fun c => { c with inputs := a :: c.inputs }

/-- What docker is asked to do: the directory of the machine and where it is in the container, the image, and the
arguments of the program in it. -/
structure DockerCall where
  host : String
  guest : String
  image : String
  args : List String
  deriving DecidableEq, Repr

/-- What a command line asks docker to do: `run -v HOST:GUEST IMAGE ARGS`; `none` for other command lines. -/
def readDocker : List String → Option DockerCall
  | "run" :: "-v" :: m :: image :: args =>
    if m.toList.count ':' = 1 then
      some { host := String.ofList (m.toList.takeWhile (· ≠ ':')),
             guest := String.ofList ((m.toList.dropWhile (· ≠ ':')).drop 1), image, args }
    else none
  | _ => none

/-- The file of the machine that a program in the container finds under this path, if any: only the mounted directory is
there. -/
def DockerCall.finds (c : DockerCall) (path : String) : Option String :=
  if (c.guest.toList ++ ['/']).isPrefixOf path.toList then
    some (String.ofList (c.host.toList ++ path.toList.drop c.guest.toList.length))
  else none

end Mutagenyx
