import Verif.Model.Tool
import Verif.Model.AlgorithmsInfo

/-!
# What the tool says: the messages of the commands and `main` (`mutagenyx/src/main.rs`)

Standard output gets the messages of the tool and, with `--stdout`, the texts.  Not modelled: the log (`log::…`), which goes to
standard error, and the parsing of the command line by `clap`.
-/

namespace Mutagenyx

/-- Something on standard output. -/
inductive Line where
  /-- A text: a program or a configuration. -/
  | text (text : String)
  /-- "Pretty-printing original file … to …" (`mutation_generator.rs:296-300`). -/
  | original (name directory : String)
  /-- "Writing configuration file …" (`mutation_generator.rs:356-359`). -/
  | config (file : String)
  /-- "Of the requested mutation algorithms, the AST contains nodes for …" (`mutation_generator.rs:374-377`). -/
  | nodesFor (algorithms : List MutationType)
  /-- "AST supports at most … different mutations using the requested mutation algorithms" (`mutation_generator.rs:414-417`). -/
  | atMost (count : Nat)
  /-- "Reached the limit of mutable nodes in the AST, lowering requested mutants by … to …" (`mutation_generator.rs:437`). -/
  | lowering (count remaining : Nat)
  /-- "… used to create mutant written to …" (`mutation_generator.rs:517-521`). -/
  | mutant (algorithm : MutationType) (file : String)
  /-- "Unable to generate mutations: …" (`main.rs:205`). -/
  | failed (e : Err)
  /-- "Unable to pretty-print …: …" (`pretty_printing.rs:49`, `:60`); the reason is left out. -/
  | unprinted (file : String)
  /-- "Elapsed time: …s" (`main.rs:213-216`). -/
  | elapsed
  deriving DecidableEq, Repr

/-- The machine with standard output written down; otherwise unchanged. -/
def Machine.told {S R : Type} (m : Machine S R) : Machine (S × List Line) R where
  exec program args s := let r := m.exec program args s.1; (r.1, (r.2, s.2))
  readJson f s := m.readJson f s.1
  write f t s := let r := m.write f t s.1; (r.1, (r.2, s.2))
  remove f s := (m.remove f s.1, s.2)
  stdout t s := (m.stdout t s.1, s.2 ++ [.text t])
  tmp := m.tmp
  dashO := m.dashO
  print := m.print
  env := m.env
  configText := m.configText
  shuffle := m.shuffle

variable {S R : Type}

/-- `println!`. -/
def say (l : Line) : Act (S × List Line) Unit := fun s => (.ok (), (s.1, s.2 ++ [l]))

/-! ### `generate_mutations` with its messages -/

/-- Print the original if asked, and say so (`mutation_generator.rs:289-302`). -/
def Machine.originalSaid (m : Machine S R) (lang : Language) (p : Params R) (ast : Json) : Act (S × List Line) Unit := do
  m.told.originalAct lang p ast
  if p.printOriginal && !p.useStdout then do
    let name ← Act.unwrap (Path.fileName p.fileName)
    say (.original name p.outputDirectory)
  else pure ()

/-- Save the configuration if asked, and say so before (`mutation_generator.rs:306-362`). -/
def Machine.configSaid (m : Machine S R) (lang : Language) (p : Params R) : Act (S × List Line) Unit :=
  if p.saveConfig then do
    let f ← Act.unwrap (configTarget p.fileName p.outputDirectory)
    if p.useStdout then m.told.putOut lang none (.config (savedConfig defaultCompiler lang p))
    else do
      say (.config f)
      m.told.putOut lang (some f) (.config (savedConfig defaultCompiler lang p))
  else pure ()

/-- The selection with its messages (`mutation_generator.rs:364-450`). -/
def selectSaid [Rand R] (fuel : Nat) (table : CountTable) (requested : Nat) (rng : R) :
    Act (S × List Line) (List MutationType × R) := do
  let types := usableTypes table
  say (.nodesFor types)
  let map : SelMap := types.map (fun t => (t, 0, (table.get? t).getD 0))
  let available := (map.map (fun e => e.2.2)).sum
  say (.atMost available)
  let s ← Act.lift (selLoop types available fuel { remaining := requested, map := map, rng := rng })
  -- The loop ends with mutants remaining only at the `break` that follows the message.
  if s.remaining > 0 then say (.lowering s.remaining s.todo.length) else pure ()
  pure (s.todo, s.rng)

/-- Keep a mutant, and say so if it goes to a file (`mutation_generator.rs:500-531`). -/
def Machine.keepSaid (m : Machine S R) (j : Job R) (g : Progress R) (t : MutationType) (rest : List MutationType) (ast : Json)
    (res : MutatorResult) (r : R) : Act (S × List Line) (Option (Progress R)) := do
  m.told.writeMutant j g.written ast res
  if j.params.useStdout then pure ()
  else do
    let f ← Act.unwrap (mutantTarget j.language.ext j.params.fileName j.params.outputDirectory g.written)
    say (.mutant t f)
  pure (some { todo := rest, written := g.written + 1, attempts := 0, observed := g.observed ++ [res], rng := r })

/-- As `Machine.judge`. -/
def Machine.judgeSaid (m : Machine S R) (j : Job R) (g : Progress R) (t : MutationType) (rest : List MutationType) (ast : Json)
    (res : MutatorResult) (r : R) : Act (S × List Line) (Option (Progress R)) :=
  if j.params.verify then do
    let good ← m.told.tryMutant j.language j.params.fileName j.params.preferences ast
    if good then m.keepSaid j g t rest ast res r
    else pure (some { g with rng := r, attempts := g.attempts + 1 })
  else m.keepSaid j g t rest ast res r

/-- As `Machine.turn`. -/
def Machine.turnSaid [Rand R] (m : Machine S R) (j : Job R) (g : Progress R) : Act (S × List Line) (Option (Progress R)) :=
  match g.todo with
  | [] => pure none
  | t :: rest =>
    if g.attempts < maxAttempts then do
      let n ← Act.unwrap (j.table.get? t)
      let (ast, res, r) ← Act.lift (mutateAst (j.language.delegate m.env) j.mutators
        (functionPermissions j.params.functions) j.paths j.ast t (pickIndex n g.rng).1 (pickIndex n g.rng).2)
      if g.observed.contains res then pure (some { g with rng := r, attempts := g.attempts + 1 })
      else m.judgeSaid j g t rest ast res r
    else pure (some { g with attempts := 0, todo := rest })

/-- As `Machine.turns`. -/
def Machine.turnsSaid [Rand R] (m : Machine S R) (j : Job R) : Nat → Progress R → Act (S × List Line) Unit
  | 0, _ => Act.lift .outOfFuel
  | n + 1, g => do
    match ← m.turnSaid j g with
    | none => pure ()
    | some g' => m.turnsSaid j n g'

/-- Models `generate_mutations` (`mutation_generator.rs:252-543`) with its messages. -/
def Machine.generateSaid [Rand R] (m : Machine S R) (fuel : Nat) (p : Params R) : Act (S × List Line) Unit := do
  let (language, fileType) ← recognizeFile m.told.toSys p.fileName p.preferences
  let ast ← loadAst m.told.toSys language fileType p.fileName p.preferences
  let lang : Lang R := language.delegate m.env
  let ps := functionPermissions p.functions
  let ms := m.shuffle (selectMutators lang p.mutations)
  let table := countMutableNodes lang.ctx ps ms ast
  let paths := calculateNodePaths lang.ctx ps ast
  if table.isEmpty then Act.lift (.err .noMutableNode)
  else do
    m.originalSaid language p ast
    m.configSaid language p
    let (todo, rng) ← selectSaid fuel table p.numberOfMutants p.rng
    m.turnsSaid ⟨language, p, ms, table, paths, ast⟩ (51 * todo.length + 1) { todo := todo, rng := rng }

/-- As `Machine.generateAll`. -/
def Machine.generateAllSaid [Rand R] (m : Machine S R) (fuel : Nat) : List (Params R) → Act (S × List Line) Unit
  | [] => pure ()
  | p :: ps => do
    m.generateSaid fuel p
    m.generateAllSaid fuel ps

/-- Models `generate_mutants` (`mutation_generator.rs:80-242`) with the messages. -/
def Machine.mutateSaid [Rand R] (m : Machine S R) (st : Start R) (order : List MutationType) (fuel : Nat) (a : Args) :
    Act (S × List Line) Unit := do
  let ps ← m.told.collect st order a a.files (argSeed st a)
  m.generateAllSaid fuel ps

/-! ### `pretty_print_files` with its messages -/

/-- Models `pretty_print_files` (`pretty_printing.rs:44-63`) with what it puts on standard output. -/
def Machine.prettyPrintSaid (m : Machine S R) (p : Prefs) (stdout : Bool) (dir : String) : List String → Act (S × List Line) Unit
  | [] => pure ()
  | f :: fs =>
    if stdout then do
      match ← Act.attempt (prettyPrintToStream m.told.toSys m.print p f) with
      | some (.text _ text) => fun s => (.ok (), m.told.stdout text s)
      | some _ => pure ()
      | none => do
        say (.unprinted f)
        m.prettyPrintSaid p stdout dir fs
    else do
      let base ← Act.unwrap (Path.fileName f)
      match ← Act.attempt (prettyPrintFile m.told.toSys m.print p dir f) with
      | some _ => pure ()
      | none => say (.unprinted base)
      m.prettyPrintSaid p stdout dir fs

/-! ### `main` -/

/-- A command line (`main.rs:27-31`). -/
inductive Command where
  | algorithms (list describe : Bool)
  | mutate (a : Args)
  | prettyPrint (files : List String) (p : Prefs) (stdout : Bool) (dir : String)

/-- How a process ends. -/
inductive Exit where
  /-- With this status. -/
  | status (code : Nat)
  /-- Not within the bound on the iterations of the selection. -/
  | running
  deriving DecidableEq, Repr

/-- Models the `match` in `main` (`main.rs:193-211`): what was done, and whether the time is reported. -/
def Machine.command [Rand R] (m : Machine S R) (st : Start R) (order : List MutationType) (fuel cols : Nat) (checks : Bool) :
    Command → Act (S × List Line) Unit
  | .algorithms list describe => do
    let text ← Act.lift (AlgorithmsInfo.algorithms checks order cols list describe)
    fun s => (.ok (), m.told.stdout (String.ofList text) s)
  | .mutate a => fun s =>
    match m.mutateSaid st order fuel a s with
    | (.err e, s') => say (.failed e) s'
    | r => r
  | .prettyPrint files p stdout dir => m.prettyPrintSaid p stdout dir files

/-- Models `main` (`main.rs:176-218`): a crash ends the process with status 101, anything else with status 0. -/
def Machine.main [Rand R] (m : Machine S R) (st : Start R) (order : List MutationType) (fuel cols : Nat) (checks : Bool)
    (c : Command) (s : S) : Exit × S × List Line :=
  match m.command st order fuel cols checks c (s, []) with
  | (.ok (), s') => (.status 0, s'.1, s'.2 ++ match c with
    | .algorithms .. => []
    | _ => [.elapsed])
  | (.err _, s') => (.status 101, s')
  | (.panic, s') => (.status 101, s')
  | (.outOfFuel, s') => (.running, s')

end Mutagenyx
