import Verif.Model.Driver
import Verif.Spec.PrefSpec

/-!
# Specification vocabulary for whole runs (C17-C19, C21)
-/

namespace Mutagenyx
variable {R : Type}

/-- All parameters of a source or AST file come from the command line.  `recorded` is the seed that the
tool remembers for it. -/
structure FromCommandLine (st : Start R) (order : List MutationType) (a : Args) (recorded : Nat) (f : String)
    (p : Params R) : Prop where
  file : p.fileName = f
  count : p.numberOfMutants = a.numMutants
  rng : p.rng = st.seedRng (argSeed st a)
  recorded : p.rngSeed = recorded
  outputDirectory : p.outputDirectory = a.outputDirectory
  stdout : p.useStdout = a.stdout
  mutations : p.mutations = argMutations order a
  verify : p.verify = a.validate
  printOriginal : p.printOriginal = a.printOriginal
  saveConfig : p.saveConfig = a.saveConfig
  preferences : p.preferences = a.preferences
  functions : p.functions = a.functions

/-- The documented precedence for a file named in a configuration file.  `seed` is the seed in force. -/
structure FromConfig (st : Start R) (order : List MutationType) (a : Args) (lang : Language) (c : Config)
    (seed : Nat) (p : Params R) : Prop where
  /-- Count, validation and print-original come from the configuration. -/
  count : 0 ≤ c.numberOfMutants → c.numberOfMutants < 2 ^ 63 → (p.numberOfMutants : Int) = c.numberOfMutants
  verify : p.verify = c.verifyMutants
  printOriginal : p.printOriginal = c.printOriginal
  /-- Both the generator and the recorded seed follow the seed in force. -/
  rng : p.rng = st.seedRng seed
  recorded : p.rngSeed = seed
  allMutations : c.allMutations = true → p.mutations = MutationType.getAll order
  someMutations : c.allMutations = false → c.mutations ≠ [] → p.mutations = c.mutations
  noMutations : c.allMutations = false → c.mutations = [] → p.mutations = argMutations order a
  someFunctions : c.functions ≠ [] → p.functions = c.functions
  noFunctions : c.functions = [] → p.functions = a.functions
  /-- The output directory `stdout` asks for standard output. -/
  toStdout : c.outputDirectory = some "stdout" → p.useStdout = true ∧ p.outputDirectory = a.outputDirectory
  toDirectory : ∀ d, c.outputDirectory = some d → d ≠ "stdout" →
    p.useStdout = a.stdout ∧ p.outputDirectory = d
  noDirectory : c.outputDirectory = none → p.useStdout = a.stdout ∧ p.outputDirectory = a.outputDirectory
  saveConfig : p.saveConfig = a.saveConfig
  /-- Compiler details replace those of the command line for this language only. -/
  compiler : ∀ d lp, c.compilerDetails = some d → a.preferences.getPrefs lang.toStr = some lp →
    ∃ lp', p.preferences.getPrefs lang.toStr = some lp' ∧ lp'.getPrefs "compiler" = some d ∧
      (∀ k, k ≠ "compiler" → lp'.get? k = lp.get? k) ∧
      ∀ k, k ≠ lang.toStr → p.preferences.get? k = a.preferences.get? k
  noCompiler : c.compilerDetails = none → p.preferences = a.preferences

/-- The parameters collected for a list of inputs.  `s` is the last seed that an earlier configuration
file gave, if any. -/
inductive Collected (w : World R) (order : List MutationType) (a : Args) (log : List Ev) :
    Option Nat → List String → List (Params R) → Prop
  | nil (s : Option Nat) : Collected w order a log s [] []
  | plain {s : Option Nat} {f : String} {fs : List String} {p : Params R} {ps : List (Params R)}
      {lang : Language} {ft : FileType}
      (hr : w.recognize log f a.preferences = .ok (lang, ft)) (hft : ft ≠ .config)
      (hp : FromCommandLine w.toStart order a (s.getD (argSeed w.toStart a)) f p)
      (rest : Collected w order a log s fs ps) : Collected w order a log s (f :: fs) (p :: ps)
  | config {s : Option Nat} {f : String} {fs : List String} {qs ps : List (Params R)} {lang : Language}
      {c : Config}
      (hr : w.recognize log f a.preferences = .ok (lang, .config))
      (hc : Config.newFromFile f (w.loadJson log f) = .ok c)
      (names : qs.map (·.fileName) = c.filenames)
      (hq : ∀ q ∈ qs, FromConfig w.toStart order a lang c ((c.seed.or s).getD (argSeed w.toStart a)) q)
      (rest : Collected w order a log (c.seed.or s) fs ps) : Collected w order a log s (f :: fs) (qs ++ ps)

/-- The input is a configuration file that gives a seed. -/
def GivesSeed (w : World R) (a : Args) (log : List Ev) (f : String) : Prop :=
  ∃ lang c, w.recognize log f a.preferences = .ok (lang, .config) ∧
    Config.newFromFile f (w.loadJson log f) = .ok c ∧ c.seed.isSome

/-- The input is not a configuration file. -/
def PlainInput (w : World R) (a : Args) (log : List Ev) (f : String) : Prop :=
  ∃ lang ft, w.recognize log f a.preferences = .ok (lang, ft) ∧ ft ≠ .config

/-- All of the files were processed without failure, one after the other, taking the log from `l` to `l'`. -/
inductive AllDone [Rand R] (w : World R) (fuel : Nat) : List (Params R) → List Ev → List Ev → Prop
  | nil (l : List Ev) : AllDone w fuel [] l l
  | cons {p : Params R} {ps : List (Params R)} {l m n : List Ev}
      (h : generateMutations w fuel p l = (.ok (), m)) (rest : AllDone w fuel ps m n) :
      AllDone w fuel (p :: ps) l n

/-- The outside world reads preferences as maps: the order of entries does not matter to it. -/
structure PrefsAsMaps (w : World R) : Prop where
  recognize : ∀ l f p q, Pref.canon (.map p) = Pref.canon (.map q) → w.recognize l f p = w.recognize l f q
  load : ∀ l lang ft f p q, Pref.canon (.map p) = Pref.canon (.map q) →
    w.load l lang ft f p = w.load l lang ft f q
  compiles : ∀ l lang f p q m, Pref.canon (.map p) = Pref.canon (.map q) →
    w.compiles l lang f p m = w.compiles l lang f q m

end Mutagenyx
