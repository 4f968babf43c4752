import Verif.Model.Tool
import Verif.Spec.Paths

/-!
# What a run does to the machine

A machine is instrumented to record what is done to it; `RunTrace` is the grammar that the record of a run has to follow.
-/

namespace Mutagenyx

/-- Something done to a machine. -/
inductive Effect where
  /-- A program was run and ended like this. -/
  | ran (program : String) (args : List String) (result : Option (Bool × String))
  /-- A text was written to a file, or could not be. -/
  | wrote (file text : String) (done : Bool)
  | removed (file : String)
  /-- A text went to standard output. -/
  | said (text : String)
  deriving DecidableEq, Repr

/-- The machine with a record of what is done to it; otherwise unchanged. -/
def Machine.traced {S R : Type} (m : Machine S R) : Machine (S × List Effect) R where
  exec program args s := let r := m.exec program args s.1; (r.1, (r.2, s.2 ++ [.ran program args r.1]))
  readJson f s := m.readJson f s.1
  write f t s := let r := m.write f t s.1; (r.1, (r.2, s.2 ++ [.wrote f t r.1]))
  remove f s := (m.remove f s.1, s.2 ++ [.removed f])
  stdout t s := (m.stdout t s.1, s.2 ++ [.said t])
  tmp := m.tmp
  dashO := m.dashO
  print := m.print
  env := m.env
  configText := m.configText
  shuffle := m.shuffle

/-- A program that ended well. -/
def WentWell (r : Option (Bool × String)) : Prop := ∃ out, r = some (true, out)

/-- What may be done when an input with file name `base` is read: programs run and one file is written in the directory for
temporary files. -/
def ReadingEffect (tmp base : String) : Effect → Prop
  | .ran .. => True
  | .wrote f _ _ => f = Path.join tmp (base ++ ".json")
  | .removed _ => False
  | .said _ => False

/-- The programs that judge a file: the second one is asked if the first one refuses. -/
structure Judges where
  program1 : String
  args1 : List String
  program2 : String
  args2 : List String

/-- What is done to try a text, with the verdict: it goes to a file, the programs judge that file, and it is removed. -/
inductive Trial (file : String) (j : Judges) (text : String) : Bool → List Effect → Prop
  | unwritable : Trial file j text false [.wrote file text false]
  | first (r : Option (Bool × String)) : WentWell r →
      Trial file j text true [.wrote file text true, .ran j.program1 j.args1 r, .removed file]
  | second (r r' : Option (Bool × String)) : ¬ WentWell r → WentWell r' →
      Trial file j text true [.wrote file text true, .ran j.program1 j.args1 r, .ran j.program2 j.args2 r', .removed file]
  | refused (r r' : Option (Bool × String)) : ¬ WentWell r → ¬ WentWell r' →
      Trial file j text false [.wrote file text true, .ran j.program1 j.args1 r, .ran j.program2 j.args2 r', .removed file]

/-- The programs that judge the Solidity and Vyper files that are mutants. -/
def judges (tmp : String) (p : Prefs) (file : String) : Language → Judges
  | .solidity => ⟨solidityCompiler p, solidityTryArgs tmp p file, solidityCompiler p, solidityRetryArgs tmp p file⟩
  | .vyper => ⟨vyperCompiler p, vyperFlags p ++ [file], "docker", dockerTryArgs p file⟩

/-- What is done to deliver a text. -/
inductive Delivery : Option String → String → Bool → List Effect → Prop
  | said (text : String) : Delivery none text true [.said text]
  | wrote (file text : String) (done : Bool) : Delivery (some file) text done [.wrote file text done]

/-- What is done for the mutants of a run from number `n` on.  `tried` says what is done to try a text, `target` where the
mutants go. -/
inductive Rounds (tried : String → Bool → List Effect → Prop) (target : Nat → Option String) : Nat → List Effect → Prop
  | none (n : Nat) : Rounds tried target n []
  | refused (n : Nat) (text : String) (t rest : List Effect) : tried text false t → Rounds tried target n rest →
      Rounds tried target n (t ++ rest)
  | kept (n : Nat) (text : String) (t d rest : List Effect) : tried text true t → Delivery (target n) text true d →
      Rounds tried target (n + 1) rest → Rounds tried target n (t ++ d ++ rest)
  /-- The mutant is fine but cannot be written: the run ends. -/
  | lost (n : Nat) (text : String) (t d : List Effect) : tried text true t → Delivery (target n) text false d →
      Rounds tried target n (t ++ d)

/-- Where the mutants of a run go. -/
def placeOf (stdout : Bool) (dir base ext : String) (n : Nat) : Option String :=
  if stdout then none else some (Path.join dir (base ++ "_" ++ toString n ++ "." ++ ext))

/-- What is done to try a text if mutants are tried at all. -/
def TriedIf (verify : Bool) (file : String) (j : Judges) (text : String) (verdict : Bool) (t : List Effect) : Prop :=
  if verify then Trial file j text verdict t else verdict = true ∧ t = []

/-- What is done for a text that is put out once if wanted. -/
def Once (wanted : Bool) (place : Option String) (isText : String → Prop) (t : List Effect) : Prop :=
  t = [] ∨ (wanted = true ∧ ∃ text done, isText text ∧ Delivery place text done t)

/-- What is done to try the text of a mutant in a run, with the verdict. -/
def MutantTried {S R : Type} (m : Machine S R) (p : Params R) (base : String) (lang : Language) (text : String) (b : Bool)
    (t : List Effect) : Prop :=
  (∃ mutant, m.print lang mutant = .ok text) ∧
    TriedIf p.verify (Path.join m.tmp base) (judges m.tmp p.preferences (Path.join m.tmp base) lang) text b t

/-- What is done in a run for an input with file name `base`: the input is read, then the original and the configuration
are put out if that is asked for, then the mutants are made. -/
structure RunTrace {S R : Type} (m : Machine S R) (p : Params R) (base : String) (lang : Language) (ast : Json) (t : List Effect) :
    Prop where
  parts : ∃ reading original config rounds, t = reading ++ original ++ config ++ rounds ∧
    (∀ e ∈ reading, ReadingEffect m.tmp base e) ∧
    Once p.printOriginal (if p.useStdout then none else printTarget lang.ext p.fileName p.outputDirectory)
      (fun text => m.print lang ast = .ok text) original ∧
    Once p.saveConfig (if p.useStdout then none else configTarget p.fileName p.outputDirectory)
      (fun text => text = m.configText (savedConfig defaultCompiler lang p)) config ∧
    Rounds (MutantTried m p base lang)
      (placeOf p.useStdout p.outputDirectory base lang.ext) 0 rounds

end Mutagenyx
