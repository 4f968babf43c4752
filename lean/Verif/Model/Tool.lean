import Verif.Model.SolidityPrinter
import Verif.Model.System
import Verif.Model.VyperPrinter

/-!
# The command `mutate` on a machine

The mutation generator (`mutagenyx/src/mutation_generator.rs`) again, here with its effects on the machine that it runs
on: recognition and loading of inputs call compilers, mutants are printed, tried with the compiler and written to files.
`Model/Driver.lean` has the same code with an outside world that only answers; `Proofs/Tool.lean` relates the two.
-/

namespace Mutagenyx

/-! ### The texts that are printed -/

/-- The text of the calls on a new token printer. -/
def printedText (checks : Bool) (ops : List Op) : Outcome String :=
  match Printer.run checks ops (Printer.new 4 150) with
  | .ok p => .ok (String.ofList p.out)
  | .err e => .err e
  | .panic => .panic
  | .outOfFuel => .outOfFuel

/-- Models `pretty_print_ast_to_stream` (`json_ast_language_interface.rs:204-219`) with the token printers that its
callers make (`pretty_printing.rs:183`, `:202`, `json_ast_language_interface.rs:263`): the text for a syntax tree. -/
def Language.print (env : PrintEnv) : Language → Json → Outcome String
  | solidity, ast => printedText env.checks (NodePrinter.ops env.checks SolPrint.layout {} ast)
  | vyper, ast => printedText env.checks (NodePrinter.ops env.checks (VyPrint.layout env) {} ast)

/-! ### Machines -/

/-- The machine that the tool runs on, with what the model leaves open. -/
structure Machine (S R : Type) extends Sys S where
  /-- Write to standard output. -/
  stdout : String → S → S
  /-- The text printed for a syntax tree, `Language.print`. -/
  print : Language → Json → Outcome String
  /-- What the mutators use from elsewhere. -/
  env : MutEnv
  /-- The text of a configuration file. -/
  configText : Config → String
  /-- Iteration order of the mutator table, a hash map. -/
  shuffle : List (Mutator R) → List (Mutator R)

variable {S R : Type}

/-- Put a text to a file or, without one, to standard output.  Making the directory (`pretty_printing.rs:180`,
`config_file.rs:292`) is a part of creating the file. -/
def Machine.deliver (m : Machine S R) (dest : Option String) (text : String) : Act S Unit :=
  match dest with
  | none => fun s => (.ok (), m.stdout text s)
  | some f => do if ← m.toSys.create f text then pure () else Act.lift (.err .io)

/-- The text of something that is put out. -/
def Machine.text (m : Machine S R) (lang : Language) : Item → Outcome String
  | .original ast => m.print lang ast
  | .mutant ast _ => m.print lang ast
  | .config c => .ok (m.configText c)

/-- Put something out.  Simplified: if printing crashes, the part that was printed before is not in the file. -/
def Machine.putOut (m : Machine S R) (lang : Language) (dest : Option String) (item : Item) : Act S Unit := do
  let text ← Act.lift (m.text lang item)
  m.deliver dest text

/-- Models `mutant_compiles` (`json_ast_language_interface.rs:249-280`). -/
def Machine.tryMutant (m : Machine S R) (lang : Language) (file : String) (p : Prefs) (ast : Json) : Act S Bool := do
  let text ← Act.lift (m.print lang ast)
  mutantCompiles m.toSys lang file text p

/-! ### One input file -/

/-- Print the original if asked (`mutation_generator.rs:289-302`). -/
def Machine.originalAct (m : Machine S R) (lang : Language) (p : Params R) (ast : Json) : Act S Unit :=
  if p.printOriginal then
    if p.useStdout then m.putOut lang none (.original ast)
    else do
      let f ← Act.unwrap (printTarget lang.ext p.fileName p.outputDirectory)
      m.putOut lang (some f) (.original ast)
  else pure ()

/-- Save the configuration if asked (`mutation_generator.rs:306-362`). -/
def Machine.configAct (m : Machine S R) (lang : Language) (p : Params R) : Act S Unit :=
  if p.saveConfig then do
    let f ← Act.unwrap (configTarget p.fileName p.outputDirectory)
    if p.useStdout then m.putOut lang none (.config (savedConfig defaultCompiler lang p))
    else m.putOut lang (some f) (.config (savedConfig defaultCompiler lang p))
  else pure ()

/-- How far the mutation loops are (`mutation_generator.rs:452-454`). -/
structure Progress (R : Type) where
  todo : List MutationType
  written : Nat := 0
  attempts : Nat := 0
  observed : List MutatorResult := []
  rng : R

/-- What the mutation loops use that does not change. -/
structure Job (R : Type) where
  language : Language
  params : Params R
  mutators : List (Mutator R)
  table : CountTable
  paths : PathMap
  ast : Json

/-- Write mutant number `n` (`mutation_generator.rs:502-526`). -/
def Machine.writeMutant (m : Machine S R) (j : Job R) (n : Nat) (ast : Json) (res : MutatorResult) : Act S Unit :=
  if j.params.useStdout then m.putOut j.language none (.mutant ast res)
  else do
    let f ← Act.unwrap (mutantTarget j.language.ext j.params.fileName j.params.outputDirectory n)
    m.putOut j.language (some f) (.mutant ast res)

/-- Keep a mutant (`mutation_generator.rs:500-531`). -/
def Machine.keep (m : Machine S R) (j : Job R) (g : Progress R) (rest : List MutationType) (ast : Json) (res : MutatorResult)
    (r : R) : Act S (Option (Progress R)) := do
  m.writeMutant j g.written ast res
  pure (some { todo := rest, written := g.written + 1, attempts := 0, observed := g.observed ++ [res], rng := r })

/-- Try a mutant if asked and keep it if it compiles (`mutation_generator.rs:488-531`). -/
def Machine.judge (m : Machine S R) (j : Job R) (g : Progress R) (rest : List MutationType) (ast : Json) (res : MutatorResult)
    (r : R) : Act S (Option (Progress R)) :=
  if j.params.verify then do
    let good ← m.tryMutant j.language j.params.fileName j.params.preferences ast
    if good then m.keep j g rest ast res r
    else pure (some { g with rng := r, attempts := g.attempts + 1 })
  else m.keep j g rest ast res r

/-- One iteration of the mutation loops (`mutation_generator.rs:456-540`), flattened as in `mutStep`; `none` at the
end. -/
def Machine.turn [Rand R] (m : Machine S R) (j : Job R) (g : Progress R) : Act S (Option (Progress R)) :=
  match g.todo with
  | [] => pure none
  | t :: rest =>
    if g.attempts < maxAttempts then do
      let n ← Act.unwrap (j.table.get? t)
      let (ast, res, r) ← Act.lift (mutateAst (j.language.delegate m.env) j.mutators
        (functionPermissions j.params.functions) j.paths j.ast t (pickIndex n g.rng).1 (pickIndex n g.rng).2)
      if g.observed.contains res then pure (some { g with rng := r, attempts := g.attempts + 1 })
      else m.judge j g rest ast res r
    else pure (some { g with attempts := 0, todo := rest })

/-- The mutation loops for at most the given number of iterations. -/
def Machine.turns [Rand R] (m : Machine S R) (j : Job R) : Nat → Progress R → Act S Unit
  | 0, _ => Act.lift .outOfFuel
  | n + 1, g => do
    match ← m.turn j g with
    | none => pure ()
    | some g' => m.turns j n g'

/-- Models `generate_mutations` (`mutation_generator.rs:252-543`).  `fuel` bounds the selection loop; the bound of the
mutation loops suffices (`C04_loop_ends`). -/
def Machine.generate [Rand R] (m : Machine S R) (fuel : Nat) (p : Params R) : Act S Unit := do
  let (language, fileType) ← recognizeFile m.toSys p.fileName p.preferences
  let ast ← loadAst m.toSys language fileType p.fileName p.preferences
  let lang : Lang R := language.delegate m.env
  let ps := functionPermissions p.functions
  let ms := m.shuffle (selectMutators lang p.mutations)
  let table := countMutableNodes lang.ctx ps ms ast
  let paths := calculateNodePaths lang.ctx ps ast
  if table.isEmpty then Act.lift (.err .noMutableNode)
  else do
    m.originalAct language p ast
    m.configAct language p
    let (todo, rng) ← Act.lift (selectAlgorithms fuel table p.numberOfMutants p.rng)
    m.turns ⟨language, p, ms, table, paths, ast⟩ (51 * todo.length + 1) { todo := todo, rng := rng }

/-! ### All inputs -/

/-- The loop over the input files (`mutation_generator.rs:130-234`).  `order` is the iteration order of the table of all
algorithms. -/
def Machine.collect (m : Machine S R) (st : Start R) (order : List MutationType) (a : Args) :
    List String → Nat → Act S (List (Params R))
  | [], _ => pure []
  | f :: fs, seed => do
    let (lang, ft) ← recognizeFile m.toSys f a.preferences
    match ft with
    | .config => do
      let c ← fun s => (Config.newFromFile f (m.readJson f s), s)
      let (ps, seed') := configParams st order a lang c seed
      let rest ← m.collect st order a fs seed'
      pure (ps ++ rest)
    | _ => do
      let rest ← m.collect st order a fs seed
      pure (plainParams st order a f seed :: rest)

/-- The loop over the parameters (`mutation_generator.rs:237-239`). -/
def Machine.generateAll [Rand R] (m : Machine S R) (fuel : Nat) : List (Params R) → Act S Unit
  | [] => pure ()
  | p :: ps => do
    m.generate fuel p
    m.generateAll fuel ps

/-- Models `generate_mutants` (`mutation_generator.rs:80-242`), the command `mutate`. -/
def Machine.mutate [Rand R] (m : Machine S R) (st : Start R) (order : List MutationType) (fuel : Nat) (a : Args) :
    Act S Unit := do
  let ps ← m.collect st order a a.files (argSeed st a)
  m.generateAll fuel ps

end Mutagenyx
