import Verif.Proofs.VyperNoted
import Verif.Props.VyperProgram

/-!
# C92: comments and documentation of a Vyper program are kept
-/

namespace Mutagenyx
namespace VyPrint
open VyGrammar

/-- **C92.** What is printed for a program, read with comments and documentation, is this program: every comment and every
documentation is there, with its text, in its place.  What is commented out in the tree is the comment with its text on one line.
Missing: comments with several blanks in a row (`C92_blanks_counterexample`), documentation with quotation marks or backslashes
(`C92_quote_counterexample`), and the programs that C74 does not cover. -/
theorem C92_kept_partial {env : PrintEnv} {p : Program} {j : Json} (h : ShowsProgram p j) (hp : p.Ok) (hd : p.Shallow) :
    ∃ text, printText env j = .ok text ∧ readWhole text = some p.noted :=
  ⟨_, printText_program h hp hd, program_readWhole hp hd⟩

/-- **C92 (different programs).** Trees of two programs are printed alike if and only if the programs have the same declarations,
statements, comments and documentation: no comment can be taken for a part of the program, and no part of the program for a
comment.  Missing: as for `C92_kept_partial`. -/
theorem C92_same_partial {env : PrintEnv} {p q : Program} {j k : Json} (hj : ShowsProgram p j) (hk : ShowsProgram q k)
    (hp : p.Ok) (hq : q.Ok) (hdp : p.Shallow) (hdq : q.Shallow) : printText env j = printText env k ↔ p.noted = q.noted := by
  rw [printText_program hj hp hdp, printText_program hk hq hdq, ← textProgram_eq hp hq hdp hdq]
  constructor
  · intro h; injection h
  · intro h; rw [h]

/-- The hypotheses are met by the sample program of C74, and this is what it is read as. -/
example : ShowsProgram sampleProgram (nodeProgram sampleProgram) ∧ sampleProgram.Ok ∧ sampleProgram.Shallow :=
  ⟨shows_program sample_ok (by decide +kernel), sample_ok, sample_shallow⟩

example : sampleProgram.noted.doc = some "A sample" ∧ sampleProgram.noted.decls.length = 9 ∧
    (sampleProgram.decls.filterMap fun d => match d.noted with | .comment t => some t | _ => none) =
      ["a remark", "@internal def h(): pass"] ∧
    (sampleProgram.decls.map fun d => match d.noted with
      | .fn _ _ doc (.comment s :: .comment t :: .comment u :: _) => some (doc, s, t, u)
      | _ => none).getLast? = some (some (some "@notice\n    text", "what follows", "self.total -= 1", "if b: pass else: continue")) := by
  decide +kernel

/-- A program of one comment. -/
def remark (t : String) : Program := ⟨none, [.comment t]⟩

theorem shows_remark (t : String) : ShowsProgram (remark t) (nodeProgram (remark t)) :=
  ⟨isA_mk (by simp [lastField]), shows_doc (by simp [lastField]), [nodeDecl (.comment t)],
    by rw [nodeProgram, field_mk (by decide)]; simp [lastField, remark], shows_note t, trivial⟩

/-- **C92: counterexample.** Several blanks in a row in a comment are printed as one, so that comments that are lined up in
columns are not kept. -/
theorem C92_blanks_counterexample : ∃ p q j k text, ShowsProgram p j ∧ ShowsProgram q k ∧ p.noted ≠ q.noted ∧
    printText ⟨true, fun _ => ""⟩ j = .ok text ∧ printText ⟨true, fun _ => ""⟩ k = .ok text :=
  ⟨remark "a  b", remark "a b", nodeProgram (remark "a  b"), nodeProgram (remark "a b"), "# a b\n\n".toList,
    shows_remark _, shows_remark _, by simp [remark, Program.noted, Decl.noted], by decide +kernel, by decide +kernel⟩

/-- A program of documentation and a statement. -/
def documented (t : String) : Program := ⟨some t, [.simple .pass]⟩

theorem shows_documented (t : String) : ShowsProgram (documented t) (nodeProgram (documented t)) :=
  ⟨isA_mk (by simp [lastField]), shows_doc (by simp [lastField]), [nodeDecl (.simple .pass)],
    by rw [nodeProgram, field_mk (by decide)]; simp [lastField, documented], isA_mk (by simp [lastField]), trivial⟩

/-- **C92: counterexample.** Documentation that ends with a quotation mark is printed with a fourth quotation mark at its end.  This
is not read as a program at all. -/
theorem C92_quote_counterexample : ∃ p j text, ShowsProgram p j ∧ printText ⟨true, fun _ => ""⟩ j = .ok text ∧
    readWhole text = none :=
  ⟨documented "a\"", nodeProgram (documented "a\""), "\"\"\"a\"\"\"\"\n\npass\n\n".toList, shows_documented _, by decide +kernel,
    by decide +kernel⟩

end VyPrint
end Mutagenyx
