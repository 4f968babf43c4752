import Verif.Model.System
import Verif.Spec.Solc
import Verif.Spec.DemoSystem
import Verif.Props.CompilerArgs

/-!
# What it means that a mutant passes validation (property C63)
-/

namespace Mutagenyx

variable {S : Type}

/-- The program ended well. -/
def Ended (r : Option (Bool × String)) : Prop := ∃ out, r = some (true, out)

namespace Validation

/-- Two attempts. -/
def twice (x y : S → Option (Bool × String) × S) (s : S) : Outcome Bool × S :=
  if succeeded (x s).1 then (.ok true, (x s).2) else (.ok (succeeded (y (x s).2).1), (y (x s).2).2)

theorem succeeded_iff (r : Option (Bool × String)) : succeeded r = true ↔ Ended r := by
  rcases r with _ | ⟨_ | _, out⟩ <;> simp [succeeded, Ended]

theorem compiles_solidity (sys : Sys S) (file : String) (p : Prefs) (s : S) : fileCompiles sys .solidity file p s =
    twice (sys.exec (solidityCompiler p) (solidityTryArgs sys.tmp p file)) (sys.exec (solidityCompiler p) (solidityRetryArgs sys.tmp p file)) s := by
  simp only [fileCompiles, bind, Act.bind, Sys.run, twice]
  cases succeeded (sys.exec (solidityCompiler p) (solidityTryArgs sys.tmp p file) s).1 <;> rfl

theorem compiles_vyper (sys : Sys S) (file : String) (p : Prefs) (s : S) : fileCompiles sys .vyper file p s =
    twice (sys.exec (vyperCompiler p) (vyperFlags p ++ [file])) (sys.exec "docker" (dockerTryArgs p file)) s := by
  simp only [fileCompiles, bind, Act.bind, Sys.run, twice]
  cases succeeded (sys.exec (vyperCompiler p) (vyperFlags p ++ [file]) s).1 <;> rfl

theorem compiles_twice (sys : Sys S) (lang : Language) (input base text : String) (p : Prefs) (s s' : S)
    (hb : Path.fileName input = some base) (x y : S → Option (Bool × String) × S)
    (h : ∀ s, fileCompiles sys lang (Path.join sys.tmp base) p s = twice x y s) :
    mutantCompiles sys lang input text p s = (.ok true, s') ↔
      ∃ s1 r2 s2, sys.write (Path.join sys.tmp base) text s = (true, s1) ∧ x s1 = (r2, s2) ∧
        ((Ended r2 ∧ s' = sys.remove (Path.join sys.tmp base) s2) ∨
          (¬ Ended r2 ∧ ∃ r3 s3, y s2 = (r3, s3) ∧ Ended r3 ∧ s' = sys.remove (Path.join sys.tmp base) s3)) := by
  simp only [← succeeded_iff]
  rcases hw : sys.write (Path.join sys.tmp base) text s with ⟨_ | _, s1⟩
  · have : mutantCompiles sys lang input text p s = (.ok false, s1) := by
      simp only [mutantCompiles, bind, Act.bind, Act.unwrap, Act.lift, hb, Sys.create, hw]
      rfl
    simp [this]
  · have : mutantCompiles sys lang input text p s =
        Act.bind (fileCompiles sys lang (Path.join sys.tmp base) p) (fun ok s => (.ok ok, sys.remove (Path.join sys.tmp base) s)) s1 := by
      simp only [mutantCompiles, bind, Act.bind, Act.unwrap, Act.lift, hb, Sys.create, hw]
      rfl
    rw [this]
    simp only [Act.bind, h, twice]
    rcases hx : x s1 with ⟨r2, s2⟩
    simp only [hx]
    constructor
    · intro e
      refine ⟨s1, r2, s2, rfl, hx, ?_⟩
      cases hr : succeeded r2 with
      | true =>
        rw [hr] at e
        simp only [if_true, Prod.mk.injEq, true_and] at e
        exact .inl ⟨rfl, e.symm⟩
      | false =>
        rw [hr] at e
        simp only [Bool.false_eq_true, if_false, Prod.mk.injEq, Outcome.ok.injEq] at e
        exact .inr ⟨by simp, _, _, rfl, e.1, e.2.symm⟩
    · rintro ⟨s1', r2', s2', e1, e2, e3⟩
      cases e1
      rw [hx] at e2
      cases e2
      rcases e3 with ⟨h1, h2⟩ | ⟨h1, r3, s3, h2, h3, h4⟩
      · simp [h1, h2]
      · simp only [h1, if_false, h2, h3, h4, Bool.false_eq_true]

end Validation

open Validation

/-- **C63, Solidity.** Validation accepts a mutant exactly if its text can be written to a file and the compiler accepts
that file, or else accepts it in a second run that stops after parsing; then the file is removed.  Missing: that the
compiler accepts the mutant in the first run. -/
theorem C63_solidity_partial (sys : Sys S) (input base text : String) (p : Prefs) (s s' : S)
    (hb : Path.fileName input = some base) :
    mutantCompiles sys .solidity input text p s = (.ok true, s') ↔
      ∃ s1 r2 s2, sys.write (Path.join sys.tmp base) text s = (true, s1) ∧
        sys.exec (solidityCompiler p) (solidityTryArgs sys.tmp p (Path.join sys.tmp base)) s1 = (r2, s2) ∧
        ((Ended r2 ∧ s' = sys.remove (Path.join sys.tmp base) s2) ∨
          (¬ Ended r2 ∧ ∃ r3 s3,
            sys.exec (solidityCompiler p) (solidityRetryArgs sys.tmp p (Path.join sys.tmp base)) s2 = (r3, s3) ∧ Ended r3 ∧
            s' = sys.remove (Path.join sys.tmp base) s3)) := by
  exact compiles_twice sys .solidity input base text p s s' hb _ _ fun s => compiles_solidity sys _ p s

/-- **C63, Vyper.** Validation accepts a mutant exactly if its text can be written to a file and the compiler accepts that
file, or else the compiler in a container does; then the file is removed. -/
theorem C63_vyper (sys : Sys S) (input base text : String) (p : Prefs) (s s' : S)
    (hb : Path.fileName input = some base) :
    mutantCompiles sys .vyper input text p s = (.ok true, s') ↔
      ∃ s1 r2 s2, sys.write (Path.join sys.tmp base) text s = (true, s1) ∧
        sys.exec (vyperCompiler p) (vyperFlags p ++ [Path.join sys.tmp base]) s1 = (r2, s2) ∧
        ((Ended r2 ∧ s' = sys.remove (Path.join sys.tmp base) s2) ∨
          (¬ Ended r2 ∧ ∃ r3 s3,
            sys.exec "docker" (dockerTryArgs p (Path.join sys.tmp base)) s2 = (r3, s3) ∧ Ended r3 ∧
            s' = sys.remove (Path.join sys.tmp base) s3)) := by
  exact compiles_twice sys .vyper input base text p s s' hb _ _ fun s => compiles_vyper sys _ p s

/-- **C63 counterexample.** A mutant that the compiler rejects passes if the compiler accepts it when asked to stop after
parsing, as a compiler should if the mistake is one of types, for instance. -/
theorem C63_solidity_counterexample :
    let s1 := (DemoSystem.sys.write "/tmp/a.sol" DemoSystem.solWrong DemoSystem.disk).2
    ¬ Ended (DemoSystem.sys.exec "solc" (solidityTryArgs "/tmp" Prefs.new "/tmp/a.sol") s1).1 ∧
    (readSolc (solidityRetryArgs "/tmp" Prefs.new "/tmp/a.sol")).bind SolcCall.stop = some "parsing" ∧
    (mutantCompiles DemoSystem.sys .solidity "/in/a.sol" DemoSystem.solWrong Prefs.new DemoSystem.disk).1 = .ok true := by
  refine ⟨?_, by decide +kernel, by decide +kernel⟩
  rw [← succeeded_iff]
  decide +kernel

/-- Examples: a Vyper mutant that no compiler accepts. -/
example : (mutantCompiles DemoSystem.sys .vyper "/in/x.vy" "nonsense" Prefs.new DemoSystem.disk).1 = .ok false := by decide +kernel

end Mutagenyx
