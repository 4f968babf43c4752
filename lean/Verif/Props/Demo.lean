import Verif.Props.Runs
import Verif.Props.Loop

/-!
# A concrete world

A small outside world with two source files and a configuration file, used to show that the theorems on
the mutation loop and on whole runs speak about real runs, and as witness of the counterexamples.
-/

namespace Mutagenyx
namespace Demo

/-- An expression node. -/
def node (id : Nat) (op : String) : Json :=
  .obj [("id", .num (.int id)), ("nodeType", .str "UnaryOperation"), ("operator", .str op)]

/-- A tree with two mutable nodes. -/
def ast : Json :=
  .obj [("id", .num (.int 1)), ("nodeType", .str "SourceUnit"), ("nodes", .arr [node 2 "++", node 3 "++"])]

/-- Replaces the operator by a random one. -/
def mutator : Mutator ListRand where
  implements := .unaryOp
  isMutable j := j.getStrForKey "operator" = some "++"
  mutate j r := match choose ["--", "~"] r with
    | (some o, r) => .ok (Json.setNodeForKey "operator" (.str o) j,
        { mutationType := some .unaryOp, mutatedNodeId := solidityId j, randomBehaviorHash := some o }, none, r)
    | (none, _) => .panic

/-- The configuration file of the world: another source file with seed 7. -/
def config : Config := { language := some .solidity, filenames := ["b.sol"], numberOfMutants := 2, seed := some 7 }

/-- The configuration file of the world without seed. -/
def config2 : Config := { language := some .solidity, filenames := ["b.sol"], numberOfMutants := 2 }

def world : World ListRand where
  lang := fun l => ⟨l, solidityCtx, fun t => if t = .unaryOp then some mutator else none, fun j _ _ => j, fun _ => true, "sol"⟩
  recognize _ f _ :=
    if f = "a.sol" ∨ f = "b.sol" then .ok (.solidity, .source)
    else if f = "c.mgnx" ∨ f = "d.mgnx" then .ok (.solidity, .config)
    else .err .languageNotRecognized
  load _ _ _ _ _ := .ok ast
  -- the compiler rejects the first mutant it sees
  compiles l _ _ _ _ := .ok (decide (2 < l.length))
  output _ _ _ := .ok ()
  defaultCompiler _ := []
  loadJson _ f := if f = "c.mgnx" then some config.toJson else some config2.toJson
  shuffle l := l.reverse
  seedRng n := ⟨[n, n + 1, n + 2, n + 3, n + 4]⟩
  now := 99

def args (files : List String) : Args where
  allMutations := false
  mutation := ["UnaryOp"]
  rngSeed := 3
  files := files
  functions := []
  numMutants := 2
  validate := true
  outputDirectory := "out"
  stdout := false
  printOriginal := true
  saveConfig := true
  preferences := [("Solidity", .map [("compiler", .map [("path", .str "solc")])])]

/-- The run over one source file. -/
def run : Outcome Unit × List Ev := generateMutants world MutationType.described 100 (args ["a.sol"]) []

end Demo

/-- The run writes two different mutants, for which three attempts are made: the compiler rejects the
first.  So the hypotheses of the theorems on the mutation loop (C04-C07, C13) are met by a run in which
there is something to say. -/
example : Demo.run.1.toOption = some () ∧ Demo.run.2.length = 9 ∧
    mutantDests Demo.run.2 = [some "out/a.sol_0.sol", some "out/a.sol_1.sol"] ∧
    (mutantResults Demo.run.2).map (·.mutatedNodeId) = [some 3, some 2] ∧
    triedFor 2 Demo.run.2 = 1 ∧ triedFor 1 Demo.run.2 = 2 := by
  decide +kernel

/-- The demonstration world meets the hypotheses of C17. -/
example : ∀ l, (Demo.world.shuffle l).Perm l := fun l => List.reverse_perm l
example : MutationType.described.Nodup := by decide

/-- A failing second input: the output of the first stays, the third is not touched (C21). -/
example : (generateMutants { Demo.world with load := fun _ _ _ f _ => if f = "b.sol" then .err .unrecognizedJSON else .ok Demo.ast }
      MutationType.described 100 (Demo.args ["a.sol", "b.sol", "a.sol"]) []).1.toOption = none ∧
    mutantDests (generateMutants
      { Demo.world with load := fun _ _ _ f _ => if f = "b.sol" then .err .unrecognizedJSON else .ok Demo.ast }
      MutationType.described 100 (Demo.args ["a.sol", "b.sol", "a.sol"]) []).2 =
      [some "out/a.sol_0.sol", some "out/a.sol_1.sol"] := by
  decide +kernel

/-- An unknown last input: nothing is written at all (C21). -/
example : (generateMutants Demo.world MutationType.described 100 (Demo.args ["a.sol", "x.txt"]) []).2.length = 0 := by
  decide +kernel

/-- The seeds recorded and used for the files of a run. -/
def Demo.seeds (files : List String) : Option (List (Nat × List Nat)) :=
  (collectParams Demo.world MutationType.described (Demo.args files) files 3 []).1.toOption.map
    fun ps => ps.map fun p => (p.rngSeed, p.rng.draws)

/-- Inputs of which none gives a seed (`C18_given_seed`), with seed 0. -/
example : (collectParams Demo.world MutationType.described { Demo.args ["a.sol", "d.mgnx"] with rngSeed := 0 } ["a.sol", "d.mgnx"]
    (argSeed Demo.world.toStart { Demo.args ["a.sol", "d.mgnx"] with rngSeed := 0 }) []).1.toOption.map
    (fun ps => ps.map (·.rngSeed)) = some [0, 0] := by decide +kernel

/-- **C18 is false** when a source file follows a configuration file that gives a seed: the file is
mutated with the seed of the command line (3), but the seed of the configuration file (7) is recorded and
saved (`mutation_generator.rs:166`, `219-220`). -/
theorem C18_seed_counterexample :
    (collectParams Demo.world MutationType.described (Demo.args ["c.mgnx", "a.sol"]) ["c.mgnx", "a.sol"]
        (argSeed Demo.world.toStart (Demo.args ["c.mgnx", "a.sol"])) []).1.toOption.map
      (fun ps => ps.map fun p => (p.fileName, p.rng, (savedConfig Demo.world.defaultCompiler .solidity p).seed)) =
    some [("b.sol", Demo.world.seedRng 7, some 7), ("a.sol", Demo.world.seedRng 3, some 7)] ∧
    Demo.world.seedRng 3 ≠ Demo.world.seedRng 7 := by
  decide +kernel

/-- **C19 is false for seeds**: a configuration file without seed that follows one with a seed gets that
seed (7), not the one of the command line (3) (`mutation_generator.rs:165-167`). -/
theorem C19_seed_counterexample :
    Demo.seeds ["d.mgnx"] = some [(3, [3, 4, 5, 6, 7])] ∧
    Demo.seeds ["c.mgnx", "d.mgnx"] = some [(7, [7, 8, 9, 10, 11]), (7, [7, 8, 9, 10, 11])] := by
  decide +kernel

/-- Inputs in an order that C18 allows. -/
example : Demo.seeds ["a.sol", "c.mgnx"] = some [(3, [3, 4, 5, 6, 7]), (7, [7, 8, 9, 10, 11])] := by
  decide +kernel

/-- The hypotheses of `C18_replay_partial` are met by the demonstration world, once it holds the saved
configuration of `a.sol`. -/
example :
    let p := plainParams Demo.world.toStart MutationType.described (Demo.args ["a.sol"]) "a.sol" 3
    let w := { Demo.world with loadJson := fun _ _ => some (savedConfig Demo.world.defaultCompiler .solidity p).toJson }
    generateMutants w MutationType.described 100 { Demo.args ["c.mgnx"] with saveConfig := false } [] =
      generateMutations w 100 { p with saveConfig := false } [] := by
  intro p w
  refine C18_replay_partial w ⟨fun _ _ _ _ _ => rfl, fun _ _ _ _ _ _ _ => rfl, fun _ _ _ _ _ _ _ => rfl⟩
    MutationType.described 100 p .solidity [("compiler", .map [("path", .str "solc")])] [("path", .str "solc")]
    { Demo.args ["c.mgnx"] with saveConfig := false } "c.mgnx" [] [] rfl (by decide) (by decide) (by decide +kernel)
    (fun _ => rfl) (by decide) rfl rfl rfl rfl rfl ?_ rfl rfl (by decide +kernel) rfl rfl rfl
  simp only [Pref.Plain, Pref.PlainFields]
  decide

end Mutagenyx
