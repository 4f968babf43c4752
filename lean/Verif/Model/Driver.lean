import Verif.Model.MutationVisitor
import Verif.Model.Config

/-!
# The mutation generator: `mutagenyx/src/mutation_generator.rs` and what it calls

The outside world (files, compilers, the pretty-printers seen as text producers, recognition) is a
parameter, `World`; what it answers may depend on everything that happened before, the log of events.
Progress messages on the console are not modelled.
-/

namespace Mutagenyx

variable {R : Type}

/-! ### Selecting algorithms (`mutation_generator.rs:364-450`) -/

/-- Models `mutation_type_list` (`mutation_generator.rs:365-372`): algorithms with nodes, sorted. -/
def usableTypes (table : CountTable) : List MutationType :=
  MutationType.sortBy MutationType.rank ((table.filter (fun e => e.2 > 0)).map Prod.fst)

/-- `selected_algorithm_map` (`mutation_generator.rs:394`): per algorithm, how often it was selected and
how many nodes it has.  The third component of the Rust tuple only controls a debug message. -/
abbrev SelMap := List (MutationType × Nat × Nat)

/-- `HashMap::get`. -/
def SelMap.get? (t : MutationType) : SelMap → Option (Nat × Nat)
  | [] => none
  | (u, e) :: rest => if u = t then some e else SelMap.get? t rest

/-- `data_tuple.0 += 1` through `HashMap::get_mut`. -/
def SelMap.use (t : MutationType) : SelMap → SelMap
  | [] => []
  | (u, n, c) :: rest => if u = t then (u, n + 1, c) :: rest else (u, n, c) :: SelMap.use t rest

/-- State of the selection loop (`mutation_generator.rs:404-407`). -/
structure SelState (R : Type) where
  remaining : Nat
  map : SelMap
  todo : List MutationType := []
  selected : Nat := 0
  rng : R

/-- The loop `while requested_mutants_remaining > 0` (`mutation_generator.rs:419-450`); the first argument
bounds the number of iterations.  `unwrap` on the map is a crash. -/
def selLoop [Rand R] (types : List MutationType) (available : Nat) : Nat → SelState R → Outcome (SelState R)
  | fuel, s =>
    if s.remaining = 0 then .ok s
    else match fuel with
      | 0 => .outOfFuel
      | fuel + 1 => match choose types s.rng with
        | (none, r) => selLoop types available fuel { s with rng := r }
        | (some t, r) => match s.map.get? t with
          | none => .panic
          | some (used, count) =>
            if used < count then
              selLoop types available fuel
                { remaining := s.remaining - 1, map := s.map.use t, todo := s.todo ++ [t],
                  selected := s.selected + 1, rng := r }
            else if s.selected ≥ available then .ok { s with rng := r }
            else selLoop types available fuel { s with rng := r }

/-- Models the selection (`mutation_generator.rs:364-450`): the schedule and the random state. -/
def selectAlgorithms [Rand R] (fuel : Nat) (table : CountTable) (requested : Nat) (rng : R) :
    Outcome (List MutationType × R) :=
  let types := usableTypes table
  -- `unwrap` cannot fail here: the types come from the table.
  let map : SelMap := types.map (fun t => (t, 0, (table.get? t).getD 0))
  let available := (map.map (fun e => e.2.2)).sum
  match selLoop types available fuel { remaining := requested, map := map, rng := rng } with
  | .ok s => .ok (s.todo, s.rng)
  | .err e => .err e
  | .panic => .panic
  | .outOfFuel => .outOfFuel

/-! ### Events -/

/-- What is printed. -/
inductive Item where
  | original (ast : Json)
  | mutant (ast : Json) (result : MutatorResult)
  | config (c : Config)

/-- What happens during a run. -/
inductive Ev where
  /-- `mutate_ast` produced a mutant; `left` is the length of the schedule at that time. -/
  | tried (left : Nat) (t : MutationType) (index : Nat) (result : MutatorResult) (ast : Json)
  /-- The compiler was asked about a mutant. -/
  | compiled (ast : Json) (ok : Bool)
  /-- Something was printed to a file or (`none`) to standard output. -/
  | output (dest : Option String) (item : Item)

/-! ### The mutation loop (`mutation_generator.rs:452-540`) -/

/-- `ATTEMPTS_TO_GENERATE_A_MUTANT` (`mutation_generator.rs:245`). -/
def maxAttempts : Nat := 50

/-- State of the mutation loop (`mutation_generator.rs:452-454`). -/
structure LoopState (R : Type) where
  todo : List MutationType
  written : Nat := 0
  attempts : Nat := 0
  observed : List MutatorResult := []
  rng : R
  log : List Ev := []

/-- What the mutation loop uses. -/
structure LoopCtx (R : Type) where
  /-- `mutable_nodes_table.get`. -/
  count : MutationType → Option Nat
  /-- `mutate_ast`. -/
  mutate : MutationType → Nat → R → Outcome (Json × MutatorResult × R)
  /-- `params.verify_mutant_viability`. -/
  verify : Bool
  /-- `mutant_compiles`. -/
  compiles : List Ev → Json → Outcome Bool
  /-- Write mutant number `n`: where it went. -/
  emit : List Ev → Nat → Json → MutatorResult → Outcome (Option String)

/-- The index of the node to mutate (`mutation_generator.rs:463-468`). -/
def pickIndex [Rand R] (n : Nat) (r : R) : Nat × R :=
  if n > 1 then let d := nextU64 r; (d.1 % n, d.2) else (0, r)

/-- One iteration of the loops.  `none`: go on.  The labelled loops of the code are flattened: an inner
`continue` and the outer `continue 'mutation_loops` both lead back here, and the inner loop is left when
the attempts are used up. -/
def mutStep [Rand R] (c : LoopCtx R) (s : LoopState R) : Option (Outcome Unit) × LoopState R :=
  match s.todo with
  | [] => (some (.ok ()), s)
  | t :: rest =>
    if s.attempts < maxAttempts then
      match c.count t with
      | none => (some .panic, s)
      | some n =>
        let d := pickIndex n s.rng
        match c.mutate t d.1 d.2 with
        | .err e => (some (.err e), s)
        | .panic => (some .panic, s)
        | .outOfFuel => (some .outOfFuel, s)
        | .ok (ast, res, r) =>
          let s1 := { s with rng := r, log := s.log ++ [.tried s.todo.length t d.1 res ast] }
          if s.observed.contains res then (none, { s1 with attempts := s.attempts + 1 })
          else
            let write (s2 : LoopState R) : Option (Outcome Unit) × LoopState R :=
              match c.emit s2.log s2.written ast res with
              | .err e => (some (.err e), s2)
              | .panic => (some .panic, s2)
              | .outOfFuel => (some .outOfFuel, s2)
              | .ok dest =>
                (none, { s2 with
                  todo := rest, observed := s.observed ++ [res], written := s.written + 1,
                  attempts := 0, log := s2.log ++ [.output dest (.mutant ast res)] })
            if c.verify then
              match c.compiles s1.log ast with
              | .err e => (some (.err e), s1)
              | .panic => (some .panic, s1)
              | .outOfFuel => (some .outOfFuel, s1)
              | .ok false =>
                (none, { s1 with attempts := s.attempts + 1, log := s1.log ++ [.compiled ast false] })
              | .ok true => write { s1 with log := s1.log ++ [.compiled ast true] }
            else write s1
    else (none, { s with attempts := 0, todo := rest })

/-- The loops (`mutation_generator.rs:456-540`) for at most the given number of iterations. -/
def mutLoop [Rand R] (c : LoopCtx R) : Nat → LoopState R → Option (Outcome Unit × LoopState R)
  | 0, _ => none
  | fuel + 1, s => match mutStep c s with
    | (some o, s') => some (o, s')
    | (none, s') => mutLoop c fuel s'

/-! ### Languages and the world -/

/-- Models `FileType` (`recognizer.rs:15-25`). -/
inductive FileType where
  | source
  | ast
  | config
  deriving DecidableEq, Repr, Inhabited

/-- What a language delegate (`json_language_delegate.rs`) provides for mutating. -/
structure Lang (R : Type) where
  language : Language
  ctx : LangCtx
  /-- `get_mutator_factory().mutator_for`. -/
  mutatorFor : MutationType → Option (Mutator R)
  /-- `insert_comment_by_path`: tree, comment, path. -/
  insertComment : Json → Json → List Nat → Json
  /-- `json_is_language_ast_json`, which decides whether `get_value_as_super_ast` succeeds. -/
  isAst : Json → Bool
  /-- `get_file_extension`. -/
  ext : String

/-- Where random numbers come from. -/
structure Start (R : Type) where
  /-- `Pcg64::seed_from_u64`. -/
  seedRng : Nat → R
  /-- Milliseconds since the epoch, as `u64`. -/
  now : Nat

/-- Everything outside the tool.  Answers may depend on the events so far. -/
structure World (R : Type) extends Start R where
  lang : Language → Lang R
  /-- `Recognizer::recognize_file`. -/
  recognize : List Ev → String → Prefs → Outcome (Language × FileType)
  /-- `convert_source_file_to_ast` or `load_json_from_file_with_name`. -/
  load : List Ev → Language → FileType → String → Prefs → Outcome Json
  /-- `mutant_compiles`: the compiler's verdict on a mutant of a file, with the preferences. -/
  compiles : List Ev → Language → String → Prefs → Json → Outcome Bool
  /-- Printing to a file or to standard output. -/
  output : List Ev → Option String → Item → Outcome Unit
  /-- `default_compiler_settings`. -/
  defaultCompiler : Language → Prefs
  /-- The JSON value of a file. -/
  loadJson : List Ev → String → Option Json
  /-- Iteration order of the mutator table, a hash map. -/
  shuffle : List (Mutator R) → List (Mutator R)

/-- `HashMap::insert` into the mutator table. -/
def insertMutator (m : Mutator R) : List (Mutator R) → List (Mutator R)
  | [] => [m]
  | x :: xs => if x.implements = m.implements then m :: xs else x :: insertMutator m xs

/-- Models `select_mutators_for_mutation_types` (`json_ast_language_interface.rs:83-103`). -/
def selectMutators (l : Lang R) (types : List MutationType) : List (Mutator R) :=
  (types.filterMap l.mutatorFor).foldl (fun tbl m => insertMutator m tbl) []

/-- Insert the mutator's comment, if there is one and the path of the mutated node is known
(`json_ast_language_interface.rs:166-173`). -/
def addComment (l : Lang R) (paths : PathMap) (comment : Option Json) (id : Nat) (ast : Json) : Json :=
  match comment with
  | some c => match paths.get? id with
    | some path => l.insertComment ast c path
    | none => ast
  | none => ast

/-- Models `mutate_ast` (`json_ast_language_interface.rs:132-183`). -/
def mutateAst (l : Lang R) (ms : List (Mutator R)) (ps : Permissions) (paths : PathMap) (ast : Json)
    (t : MutationType) (index : Nat) (rng : R) : Outcome (Json × MutatorResult × R) :=
  match ms.find? (fun m => m.implements = t) with
  | none => .panic
  | some m =>
    let (ast', st) := runMaker l.ctx ps m index ast rng
    match st.failure with
    | some (.err e) => .err e
    | some .panic => .panic
    | some .outOfFuel => .outOfFuel
    | none =>
      let ast'' := addComment l paths st.comment st.mutatedNodeId ast'
      if l.isAst ast'' then .ok (ast'', { st.result with index := some index }, st.rng)
      else .err .languageNotRecognized

/-! ### One input file (`mutation_generator.rs:252-543`) -/

/-- Models `GeneratorParameters` (`mutagenyx/src/generator_parameters.rs:10-48`). -/
structure Params (R : Type) where
  fileName : String
  numberOfMutants : Nat
  rngSeed : Nat
  rng : R
  outputDirectory : String
  useStdout : Bool
  mutations : List MutationType
  verify : Bool
  printOriginal : Bool
  saveConfig : Bool
  preferences : Prefs
  functions : List String

/-- A computation that logs events; the log survives errors. -/
def Run (α : Type) := List Ev → Outcome α × List Ev

namespace Run
/-- Run one computation after the other. -/
def bind {α β : Type} (x : Run α) (f : α → Run β) : Run β := fun log =>
  match x log with
  | (.ok a, log') => f a log'
  | (.err e, log') => (.err e, log')
  | (.panic, log') => (.panic, log')
  | (.outOfFuel, log') => (.outOfFuel, log')
instance : Monad Run where
  pure a := fun log => (.ok a, log)
  bind := bind
/-- A computation without events that may look at the log. -/
def lift {α : Type} (f : List Ev → Outcome α) : Run α := fun log => (f log, log)
/-- Print something; the event is logged if that succeeds. -/
def emit (w : World R) (dest : Option String) (item : Item) : Run Unit := fun log =>
  match w.output log dest item with
  | .ok () => (.ok (), log ++ [.output dest item])
  | .err e => (.err e, log)
  | .panic => (.panic, log)
  | .outOfFuel => (.outOfFuel, log)
end Run

/-- The file `pretty_print_ast` writes to (`mutagenyx/src/pretty_printing.rs:166-177`); `none` where the
code crashes on a path without file name. -/
def printTarget (ext fileName outDir : String) : Option String :=
  match Path.fileName fileName with
  | none => none
  | some base =>
    let e := if Path.endsWith fileName ("." ++ ext) then "" else "." ++ ext
    some (Path.join outDir (base ++ e))

/-- The name handed to `pretty_print_ast` for mutant number `n` (`mutation_generator.rs:508-516`). -/
def mutantName (fileName outDir : String) (n : Nat) : Option String :=
  match Path.fileName fileName with
  | none => none
  | some base => some (Path.join outDir (base ++ "_" ++ toString n))

/-- The file mutant number `n` is written to (`mutation_generator.rs:508-519`). -/
def mutantTarget (ext fileName outDir : String) (n : Nat) : Option String :=
  match mutantName fileName outDir n with
  | none => none
  | some f => printTarget ext f outDir

/-- Text of a name up to its last dot (`mutation_generator.rs:340-347`). -/
def stripExtension (s : String) : String :=
  match Path.splitLastDot s.toList with
  | some (a, _) => String.ofList a
  | none => s

/-- The configuration file's name (`mutation_generator.rs:337-350`). -/
def configTarget (fileName outDir : String) : Option String :=
  match Path.fileName fileName with
  | none => none
  | some base => some (Path.join outDir (stripExtension base ++ ".mgnx"))

/-- The saved configuration (`mutation_generator.rs:306-335`). -/
def savedConfig (defaults : Language → Prefs) (lang : Language) (p : Params R) : Config where
  language := some lang
  filenames := [p.fileName]
  numberOfMutants := u64AsI64 p.numberOfMutants
  seed := some p.rngSeed
  mutations := p.mutations
  allMutations := false
  compilerDetails := match p.preferences.getPrefs "compiler-details" with
    | some d => some d
    | none => match p.preferences.getPrefs lang.toStr with
      | some lp => lp.getPrefs "compiler"
      | none => some (defaults lang)
  functions := p.functions
  verifyMutants := p.verify
  outputDirectory := some p.outputDirectory
  printOriginal := p.printOriginal

/-- Crash on `None` (`unwrap`). -/
def unwrap {α : Type} (o : Option α) : Run α := Run.lift fun _ => match o with
  | some a => .ok a
  | none => .panic

/-- What the mutation loop uses, for an input file. -/
def loopCtx (w : World R) (lang : Lang R) (p : Params R) (ms : List (Mutator R)) (table : CountTable)
    (paths : PathMap) (ast : Json) (before : List Ev) : LoopCtx R where
  count := table.get?
  mutate := mutateAst lang ms (functionPermissions p.functions) paths ast
  verify := p.verify
  compiles log m := w.compiles (before ++ log) lang.language p.fileName p.preferences m
  emit log n m res :=
    if p.useStdout then match w.output (before ++ log) none (.mutant m res) with
      | .ok () => .ok none
      | .err e => .err e
      | .panic => .panic
      | .outOfFuel => .outOfFuel
    else match mutantTarget lang.ext p.fileName p.outputDirectory n with
      | none => .panic
      | some f => match w.output (before ++ log) (some f) (.mutant m res) with
        | .ok () => .ok (some f)
        | .err e => .err e
        | .panic => .panic
        | .outOfFuel => .outOfFuel

/-- Print the original if asked (`mutation_generator.rs:289-302`). -/
def printOriginalStep (w : World R) (lang : Lang R) (p : Params R) (ast : Json) : Run Unit :=
  if p.printOriginal then
    if p.useStdout then Run.emit w none (.original ast)
    else do
      let f ← unwrap (printTarget lang.ext p.fileName p.outputDirectory)
      Run.emit w (some f) (.original ast)
  else pure ()

/-- Save the configuration if asked (`mutation_generator.rs:306-362`). -/
def saveConfigStep (w : World R) (lang : Lang R) (p : Params R) : Run Unit :=
  if p.saveConfig then do
    let f ← unwrap (configTarget p.fileName p.outputDirectory)
    if p.useStdout then Run.emit w none (.config (savedConfig w.defaultCompiler lang.language p))
    else Run.emit w (some f) (.config (savedConfig w.defaultCompiler lang.language p))
  else pure ()

/-- The mutation loop with as many iterations as it can need (see `C04_loop_ends`). -/
def mutationPhase [Rand R] (w : World R) (lang : Lang R) (p : Params R) (ms : List (Mutator R))
    (table : CountTable) (paths : PathMap) (ast : Json) (todo : List MutationType) (rng : R) : Run Unit :=
  fun before =>
    match mutLoop (loopCtx w lang p ms table paths ast before) (51 * todo.length + 1)
        { todo := todo, rng := rng } with
    | some (o, s) => (o, before ++ s.log)
    | none => (.outOfFuel, before)

/-- Models `generate_mutations` (`mutation_generator.rs:252-543`).  `fuel` bounds the selection loop. -/
def generateMutations [Rand R] (w : World R) (fuel : Nat) (p : Params R) : Run Unit := do
  let (language, fileType) ← Run.lift fun log => w.recognize log p.fileName p.preferences
  let lang := w.lang language
  let ps := functionPermissions p.functions
  let ast ← Run.lift fun log => match fileType with
    | .config => .err .configFileNotSupported
    | ft => w.load log language ft p.fileName p.preferences
  let ms := w.shuffle (selectMutators lang p.mutations)
  let table := countMutableNodes lang.ctx ps ms ast
  let paths := calculateNodePaths lang.ctx ps ast
  if table.isEmpty then Run.lift fun _ => .err .noMutableNode
  else do
    printOriginalStep w lang p ast
    saveConfigStep w lang p
    let (todo, rng) ← Run.lift fun _ => selectAlgorithms fuel table p.numberOfMutants p.rng
    mutationPhase w lang p ms table paths ast todo rng

/-! ### All inputs (`mutation_generator.rs:80-242`) -/

/-- The command line (`mutagenyx/src/main.rs`); compiler settings are already preferences
(`compiler_settings.rs`). -/
structure Args where
  allMutations : Bool
  mutation : List String
  rngSeed : Int
  files : List String
  functions : List String
  numMutants : Nat
  validate : Bool
  outputDirectory : String
  stdout : Bool
  printOriginal : Bool
  saveConfig : Bool
  preferences : Prefs

/-- Compiler details of a configuration file go into the preferences of its language if there are any
(`mutation_generator.rs:150-160`). -/
def overridePrefs (lang : Language) (details : Option Prefs) (p : Prefs) : Prefs :=
  match details with
  | none => p
  | some d => match p.getPrefs lang.toStr with
    | some lp => p.setPrefs lang.toStr (lp.setPrefs "compiler" d)
    | none => p

/-- Algorithms from the command line (`mutation_generator.rs:83-88`); `order` is the iteration order of
the table of all algorithms. -/
def argMutations (order : List MutationType) (a : Args) : List MutationType :=
  if a.allMutations then MutationType.getAll order else MutationType.fromStrings a.mutation

/-- The seed from the command line (`mutation_generator.rs:116-126`). -/
def argSeed (st : Start R) (a : Args) : Nat := if a.rngSeed < 0 then st.now else i64AsU64 a.rngSeed

/-- Parameters for the files of a configuration file (`mutation_generator.rs:145-214`) and the seed in
force afterwards. -/
def configParams (st : Start R) (order : List MutationType) (a : Args) (lang : Language) (c : Config)
    (seed : Nat) : List (Params R) × Nat :=
  let seed := c.seed.getD seed
  let muts := if c.allMutations then MutationType.getAll order
    else if c.mutations.isEmpty then argMutations order a else c.mutations
  let (dir, stdout) := match c.outputDirectory with
    | some d => if d = "stdout" then (a.outputDirectory, true) else (d, a.stdout)
    | none => (a.outputDirectory, a.stdout)
  (c.filenames.map fun f =>
    { fileName := f
      numberOfMutants := i64AsU64 c.numberOfMutants
      rngSeed := seed
      rng := st.seedRng seed
      outputDirectory := dir
      useStdout := stdout
      mutations := muts
      verify := c.verifyMutants
      printOriginal := c.printOriginal
      saveConfig := a.saveConfig
      preferences := overridePrefs lang c.compilerDetails a.preferences
      functions := if c.functions.isEmpty then a.functions else c.functions },
   seed)

/-- Parameters for a source or AST file (`mutation_generator.rs:215-232`). -/
def plainParams (st : Start R) (order : List MutationType) (a : Args) (f : String) (seed : Nat) :
    Params R where
  fileName := f
  numberOfMutants := a.numMutants
  rngSeed := seed
  rng := st.seedRng (argSeed st a)
  outputDirectory := a.outputDirectory
  useStdout := a.stdout
  mutations := argMutations order a
  verify := a.validate
  printOriginal := a.printOriginal
  saveConfig := a.saveConfig
  preferences := a.preferences
  functions := a.functions

/-- The loop over the input files (`mutation_generator.rs:130-234`). -/
def collectParams (w : World R) (order : List MutationType) (a : Args) :
    List String → Nat → Run (List (Params R))
  | [], _ => pure []
  | f :: fs, seed => do
    let (lang, ft) ← Run.lift fun log => w.recognize log f a.preferences
    match ft with
    | .config => do
      let c ← Run.lift fun log => Config.newFromFile f (w.loadJson log f)
      let (ps, seed') := configParams w.toStart order a lang c seed
      let rest ← collectParams w order a fs seed'
      pure (ps ++ rest)
    | _ => do
      let rest ← collectParams w order a fs seed
      pure (plainParams w.toStart order a f seed :: rest)

/-- The loop over the parameters (`mutation_generator.rs:237-239`). -/
def runAll [Rand R] (w : World R) (fuel : Nat) : List (Params R) → Run Unit
  | [] => pure ()
  | p :: ps => do
    generateMutations w fuel p
    runAll w fuel ps

/-- Models `generate_mutants` (`mutation_generator.rs:80-242`). -/
def generateMutants [Rand R] (w : World R) (order : List MutationType) (fuel : Nat) (a : Args) : Run Unit := do
  let ps ← collectParams w order a a.files (argSeed w.toStart a)
  runAll w fuel ps

end Mutagenyx
