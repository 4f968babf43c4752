import Verif.Model.Tool
import Verif.Spec.Paths
import Verif.Spec.Runs

/-!
# The command `mutate` on a machine

Vocabulary for C87 and for C19 and C21 on machines.
-/

namespace Mutagenyx
variable {S R : Type}

/-- The parameters collected for a list of inputs on a machine, and the machine before and after.  `seed` is the last seed that
an earlier configuration file gave, if any. -/
inductive CollectedOn (m : Machine S R) (st : Start R) (order : List MutationType) (a : Args) :
    Option Nat → List String → S → List (Params R) → S → Prop
  | nil (seed : Option Nat) (s : S) : CollectedOn m st order a seed [] s [] s
  | plain {seed : Option Nat} {f : String} {fs : List String} {p : Params R} {ps : List (Params R)} {lang : Language}
      {ft : FileType} {s s1 s2 : S}
      (hr : recognizeFile m.toSys f a.preferences s = (.ok (lang, ft), s1)) (hft : ft ≠ .config)
      (hp : FromCommandLine st order a (seed.getD (argSeed st a)) f p)
      (rest : CollectedOn m st order a seed fs s1 ps s2) : CollectedOn m st order a seed (f :: fs) s (p :: ps) s2
  | config {seed : Option Nat} {f : String} {fs : List String} {qs ps : List (Params R)} {lang : Language} {c : Config}
      {s s1 s2 : S}
      (hr : recognizeFile m.toSys f a.preferences s = (.ok (lang, .config), s1))
      (hc : Config.newFromFile f (m.readJson f s1) = .ok c)
      (names : qs.map (·.fileName) = c.filenames)
      (hq : ∀ q ∈ qs, FromConfig st order a lang c ((c.seed.or seed).getD (argSeed st a)) q)
      (rest : CollectedOn m st order a (c.seed.or seed) fs s1 ps s2) :
      CollectedOn m st order a seed (f :: fs) s (qs ++ ps) s2

/-- The file is one that a run with the parameters may write: the original or the configuration, if asked for, or a mutant, and
none if everything goes to standard output. -/
def WrittenBy (p : Params R) (f : String) : Prop :=
  p.useStdout = false ∧ ∃ lang : Language,
    (p.printOriginal = true ∧ printTarget (suffixOf lang) p.fileName p.outputDirectory = some f) ∨
    (p.saveConfig = true ∧ configTarget p.fileName p.outputDirectory = some f) ∨
    ∃ (n : Nat) (base : String), Path.fileName p.fileName = some base ∧
      f = Path.join p.outputDirectory (base ++ "_" ++ toString n ++ "." ++ suffixOf lang)

/-- Runs that end well, one after the other, with the machine before and after. -/
inductive Processed [Rand R] (m : Machine S R) (fuel : Nat) : List (Params R) → S → S → Prop
  | nil (s : S) : Processed m fuel [] s s
  | cons {p : Params R} {ps : List (Params R)} {s s1 s2 : S} (h : m.generate fuel p s = (.ok (), s1))
      (rest : Processed m fuel ps s1 s2) : Processed m fuel (p :: ps) s s2

end Mutagenyx
