import Verif.Proofs.SolidityReadComment
import Verif.Props.SolidityMutants
import Verif.Props.SolidityPragma
import Verif.Props.Idle

/-!
# C90: the text of a Solidity file is read as the program that was printed
-/

namespace Mutagenyx
namespace SolPrint
open SolGrammar Json

variable {S R : Type} [Rand R]

theorem readFile_of_toks {f : SourceFile} {text : List Char} (h : SolGrammar.tokens text = f.toks) (hc : f.bare.Clear) :
    readFile text = some f.bare := by
  have hr := readItems_file hc
  rw [fileBare_toks] at hr
  unfold readFile
  rw [h, hr]
  rfl

/-- **C90.** What is printed for a source file is read as that file without its comments: the statements, types, declarations,
functions, contracts and directives are the same, and nested in the same way.  Missing: programs whose expressions are
grouped otherwise than they would be read without parentheses (`C90_regrouped_counterexample`), several modifiers
(`C90_modifiers_counterexample`), `try` without results, and what C56 does not cover.  Documentation is in
`C90_documented_partial`. -/
theorem C90_file_partial (checks : Bool) (f : SourceFile) (node : Json) (h : ShowsFile f node) (hp : f.Plain false)
    (hc : f.bare.Clear) : ∃ text, printText checks node = .ok text ∧ readFile text = some f.bare := by
  obtain ⟨text, h1, h2⟩ := C56_file_partial checks f node h hp
  exact ⟨text, h1, readFile_of_toks h2 hc⟩

/-- **C90 (documentation and comments).** The same for files with documentation and comments, if they are printed at all.
Missing: as for `C90_file_partial`. -/
theorem C90_documented_partial (checks : Bool) (f : SourceFile) (node : Json) (text : List Char) (h : ShowsFile f node)
    (hp : f.Plain true) (hc : f.bare.Clear) (ht : printText checks node = .ok text) : readFile text = some f.bare :=
  readFile_of_toks (C56_documented_partial checks f node text h hp ht) hc

/-- **C90 (nothing is lost).** Two trees for which the same text is printed are trees of the same program, but for comments: the
text says everything about the program.  Missing: as for `C90_file_partial`. -/
theorem C90_same_partial (checks : Bool) (f g : SourceFile) (a b : Json) (text : List Char) (ha : ShowsFile f a)
    (hb : ShowsFile g b) (hf : f.Plain true) (hg : g.Plain true) (cf : f.bare.Clear) (cg : g.bare.Clear)
    (ta : printText checks a = .ok text) (tb : printText checks b = .ok text) : f.bare = g.bare := by
  have h1 := C90_documented_partial checks f a text ha hf cf ta
  have h2 := C90_documented_partial checks g b text hb hg cg tb
  rw [h1] at h2
  exact Option.some.inj h2

/-- **C90 (mutants).** After a run that ends well for a Solidity source file, each file for a mutant is read as the source file
with one change of the kind that one of the algorithms makes, but for braces around one statement.  Missing: as for
`C76_written_partial`, and changed files that are not read as they are (`C90_regrouped_counterexample`). -/
theorem C90_written_partial (m : Machine S R) (hsh : ∀ l, (m.shuffle l).Perm l) {content : String → S → Option String}
    (hc : Contents m.toSys content) (hw : ∀ f t s, (m.write f t s).1 = true → content f (m.write f t s).2 = some t)
    (env : PrintEnv) (hprint : ∀ j, m.print .solidity j = Language.print env .solidity j)
    (fuel : Nat) (p : Params R) (s s' : S) (base : String)
    (hb : Path.fileName p.fileName = some base) (hs : p.useStdout = false) (ast : Json)
    (hr : (m.reading p s).1 = .ok (.solidity, ast))
    (htmp : ∀ n : Nat, ¬ InTemp m.toSys (Path.join p.outputDirectory (base ++ "_" ++ toString n ++ ".sol")))
    (hout : ∀ (n : Nat) t s, content (Path.join p.outputDirectory (base ++ "_" ++ toString n ++ ".sol")) (m.stdout t s) =
      content (Path.join p.outputDirectory (base ++ "_" ++ toString n ++ ".sol")) s)
    (hok : m.generate fuel p s = (.ok (), s')) (f : SourceFile) (hshow : ShowsFile f ast) :
    ∃ count ≤ p.numberOfMutants, ∀ k : Nat,
      (k < count → ∃ t ∈ p.mutations, ∃ mutator : Mutator R, Solidity.mutatorFor m.env t = some mutator ∧
        ∃ (pos : Pos) (node node' : Json) (rng rng' : R) (rep : MutatorResult) (comment : Option Json) (text : String),
          nodeAt pos ast = some node ∧ mutator.isMutable node = true ∧
          mutator.mutate node rng = .ok (node', rep, comment, rng') ∧
          content (Path.join p.outputDirectory (base ++ "_" ++ toString k ++ ".sol")) s' = some text ∧
          (Writable t node node' →
            (∀ q n, nodeAt q (replaceAt pos node' ast) = some n → ¬ BranchBlock (commentTarget .solidity rep node') n) →
            ∃ f' f'', (InFile (changeOf t) f f' ∨ f' = f ∧ visible pos ast = false) ∧
              (f'' = f' ∨ ∃ note, comment = some (Solidity.commentNode note) ∧ NewComment note f' f'') ∧
              (f''.Plain true → f'.bare.Clear →
                ∃ g, readFile text.toList = some g ∧ (g = f'.bare ∨ InFile braced f'.bare g)))) ∧
      (count ≤ k → content (Path.join p.outputDirectory (base ++ "_" ++ toString k ++ ".sol")) s' =
        content (Path.join p.outputDirectory (base ++ "_" ++ toString k ++ ".sol")) s) := by
  obtain ⟨count, h1, h2⟩ := C76_written_partial m hsh hc hw env hprint fuel p s s' base hb hs ast hr htmp hout hok f hshow
  refine ⟨count, h1, fun k => ⟨fun hk => ?_, (h2 k).2⟩⟩
  obtain ⟨t, ht, mu, hmu, pos, nd, nd', rng, rng', rep, comment, text, e1, e2, -, e3, e4, e5⟩ := (h2 k).1 hk
  refine ⟨t, ht, mu, hmu, pos, nd, nd', rng, rng', rep, comment, text, e1, e2, e3, e4, fun hwr hbr => ?_⟩
  obtain ⟨f', f'', g1, g2, -, -, g5⟩ := e5 hwr hbr
  refine ⟨f', f'', g1, g2, fun hp hcl => ?_⟩
  rcases g2 with rfl | ⟨note, -, g2⟩
  · exact ⟨_, readFile_of_toks (g5 hp) hcl, .inl rfl⟩
  · obtain ⟨q1, q2⟩ := quiet_file g2 hcl
    exact ⟨_, readFile_of_toks (g5 hp) q1, q2⟩

/-! ### The hypotheses are satisfiable -/

theorem varClear_of {v : Var} (ht : v.type.Clear) (h1 : v.visibility.all (fun t => decide (t ∈ visibilities)) = true)
    (h2 : v.location.all (fun t => decide (t ∈ locations)) = true)
    (h3 : v.name.all (fun t => isName t && decide (t ∉ reserved)) = true) (h4 : ∀ e, v.value = some e → SolGrammar.Plain e) :
    v.Clear := by
  refine ⟨ht, fun t h => ?_, fun t h => ?_, fun t h => ?_, h4⟩
  · rw [h] at h1; simpa using h1
  · rw [h] at h2; simpa using h2
  · rw [h] at h3
    simp only [Option.all_some, Bool.and_eq_true, decide_eq_true_eq] at h3
    exact h3

instance (n : String) : Decidable (FreeName n) := by unfold FreeName; infer_instance

theorem bare_sample : sampleContract.bare = sampleContract := by
  simp [sampleContract, Contract.bare, Member.bare, Fn.bare, bareStmts, Stmt.bare, bareClauses]

theorem clear_sample : sampleContract.Clear := by
  have hv : ∀ (t n : String), isName t = true → elementary t = true → t ∉ reserved → FreeName n →
      Var.Clear { type := .elem t, name := some n } := fun t n h1 h2 h3 h4 =>
    ⟨⟨h1, h2, h3⟩, fun _ h => (by cases h), fun _ h => (by cases h), fun x h => (by cases h; exact h4), fun _ h => (by cases h)⟩
  refine ⟨rfl, by decide, by decide, ?_, ?_⟩
  · intro u hu
    simp only [sampleContract, List.mem_cons, List.not_mem_nil, or_false] at hu
    rcases hu with rfl | rfl
    · exact ⟨by decide, by decide, fun es he => by cases he⟩
    · refine ⟨by decide, by decide, fun es he => ?_⟩
      cases he
      simp only [PlainAll, SolGrammar.Plain]
      decide
  · intro m hm
    simp only [sampleContract, List.mem_cons, List.not_mem_nil, or_false] at hm
    rcases hm with rfl | rfl | rfl | rfl | rfl | rfl | rfl | rfl | rfl | rfl | rfl | rfl
    all_goals simp only [Member.Clear]
    · exact ⟨varClear_of (by simp only [Ty.Clear]; decide) (by decide) (by decide) (by decide) (fun _ h => (by cases h)), trivial, by decide⟩
    · exact ⟨varClear_of (by simp only [Ty.Clear]; decide) (by decide) (by decide) (by decide)
        (fun _ h => (by cases h; simp only [SolGrammar.Plain]; decide)), trivial, by decide⟩
    · refine ⟨by decide, fun v hv => ?_⟩
      simp only [List.mem_cons, List.not_mem_nil, or_false] at hv
      rcases hv with rfl | rfl
      · exact varClear_of trivial (by decide) (by decide) (by decide) (fun _ h => (by cases h))
      · exact varClear_of (by simp [Ty.Clear, SolGrammar.Plain]; decide) (by decide) (by decide) (by decide) (fun _ h => (by cases h))
    · decide
    · refine ⟨by decide, fun v hv => ?_⟩
      simp only [List.mem_cons, List.not_mem_nil, or_false] at hv
      subst hv
      exact varClear_of (by simp only [Ty.Clear]; decide) (by decide) (by decide) (by decide) (fun _ h => (by cases h))
    · refine ⟨by decide, fun v hv => ?_⟩
      simp only [List.mem_cons, List.not_mem_nil, or_false] at hv
      subst hv
      exact varClear_of (by simp only [Ty.Clear]; decide) (by decide) (by decide) (by decide) (fun _ h => (by cases h))
    · exact ⟨by decide, fun v hv => (by cases hv), fun ss hs => (by cases hs; simp [stmtsClear, Stmt.Clear]), trivial⟩
    · exact ⟨by decide, by simp only [Ty.Clear]; decide⟩
    · refine ⟨by decide, by decide, ?_⟩
      simp [Ty.Clear]
      decide
    · exact ⟨by decide, by simp only [Ty.Clear]; decide⟩
    · refine ⟨⟨by decide, fun n h => (by cases h; decide), ?_, fun n h => (by cases h; decide), fun n h => (by cases h; decide), ?_, ?_, ?_, ?_⟩, trivial⟩
      · intro v hv
        simp only [List.mem_cons, List.not_mem_nil, or_false] at hv
        subst hv
        exact varClear_of (by simp only [Ty.Clear]; decide) (by decide) (by decide) (by decide) (fun _ h => (by cases h))
      · intro ns hns
        cases hns
        decide
      · intro u hu
        simp only [List.mem_cons, List.not_mem_nil, or_false] at hu
        subst hu
        exact ⟨by decide, by decide, fun es he => by cases he; trivial⟩
      · intro v hv
        simp only [List.mem_cons, List.not_mem_nil, or_false] at hv
        subst hv
        exact varClear_of (by simp only [Ty.Clear]; decide) (by decide) (by decide) (by decide) (fun _ h => (by cases h))
      · intro ss hs
        cases hs
        simp only [stmtsClear, clausesClear, Stmt.Clear, SimpleClear, ExprClear, LocalClear, List.mem_cons, List.not_mem_nil, or_false,
          Option.some.injEq, reduceCtorEq, false_or, forall_eq', and_true, SolGrammar.Plain, PlainAll, YulStmt.Clear, yulsClear, casesClear,
          YulExpr.Clear, yulArgsClear, Stmt.open_]
        and_intros
        all_goals first
          | with_reducible exact trivial
          | exact fun _ h => h.elim
          | (intro v hx; subst hx; exact ⟨hv _ _ (by decide) (by decide) (by decide) (by decide), rfl, rfl, rfl, rfl, rfl, by simp⟩)
          | exact ⟨_, rfl⟩
          | (intro v hx; subst hx
             exact varClear_of (by simp only [Ty.Clear]; decide) (by decide) (by decide) (by decide) (fun _ h => (by cases h)))
          | decide
          | simp
        all_goals unfold YulName
        all_goals decide
    · exact ⟨⟨by decide, fun _ h => (by cases h), fun v hv => (by cases hv), fun n h => (by cases h; decide), fun n h => (by cases h; decide),
        fun ns hn => (by cases hn), fun u hu => (by cases hu), fun v hv => (by cases hv), fun ss hs => (by cases hs)⟩, trivial⟩

/-- The file with a license, a pragma, imports, a documented contract, and definitions outside of it meets the hypotheses; it is
printed, and read again as the same file without documentation and license. -/
theorem clear_file (doc : Option String) : (sampleFile doc).bare.Clear := by
  have e : (sampleFile doc).bare = { sampleFile none with license := none } := by
    have h := bare_sample
    simp only [SourceFile.bare, sampleFile, List.filterMap_cons, List.filterMap_nil, Item.bare, Member.bare, Option.map_some]
    rw [show Contract.bare { sampleContract with doc := doc } = sampleContract from h]
    rfl
  rw [e]
  refine ⟨rfl, fun x hx => ?_⟩
  simp only [sampleFile, List.mem_cons, List.not_mem_nil, or_false] at hx
  rcases hx with rfl | rfl | rfl | rfl | rfl | rfl | rfl
  · intro v hv
    simp only [List.mem_cons, List.not_mem_nil, or_false] at hv
    rcases hv with rfl | rfl
    · exact ⟨fun o ho => by cases ho; decide, by decide⟩
    · exact ⟨fun o ho => by cases ho; decide, by decide⟩
  · exact ⟨fun n hn => (by cases hn), fun s hs => (by cases hs)⟩
  · exact ⟨fun n hn => (by cases hn; decide), fun s hs => (by cases hs)⟩
  · refine ⟨fun n hn => (by cases hn), ?_⟩
    intro s hs
    simp only [List.mem_cons, List.not_mem_nil, or_false] at hs
    rcases hs with rfl | rfl
    · exact ⟨by decide, fun n hn => (by cases hn)⟩
    · exact ⟨by decide, fun n hn => (by cases hn; decide)⟩
  · exact ⟨by decide, by simp only [Ty.Clear]; decide⟩
  · refine ⟨by decide, fun v hv => ?_⟩
    simp only [List.mem_cons, List.not_mem_nil, or_false] at hv
    subst hv
    exact varClear_of (by simp only [Ty.Clear]; decide) (by decide) (by decide) (by decide) (fun _ h => (by cases h))
  · exact clear_sample

example : ∃ text, printText true (nodeFile (sampleFile none)) = .ok text ∧ readFile text = some (sampleFile none).bare ∧
    (sampleFile none).bare.items.length = 7 := by
  obtain ⟨text, h1, h2⟩ := C90_file_partial true _ _ (shows_file _ (usual_file none)) (plain_file trivial) (clear_file none)
  exact ⟨text, h1, h2, by decide +kernel⟩

example : ShowsFile (sampleFile (some "Says\n what")) (nodeFile (sampleFile (some "Says\n what"))) ∧
    (sampleFile (some "Says\n what")).Plain true ∧ (sampleFile (some "Says\n what")).bare.Clear :=
  ⟨shows_file _ (usual_file _), plain_file ⟨rfl, inComment_infix.1 (by decide)⟩, clear_file _⟩

/-! ### Where the text is read as another program -/

/-- The program with the function with two modifiers. -/
def modified : SourceFile :=
  ⟨none, [.contract { kind := "contract", name := "C", members := [.fn twoModifiers] }]⟩

/-- **C90: counterexample.** What is printed for a contract that has a function with two modifiers is not read as any program. -/
theorem C90_modifiers_counterexample :
    ShowsFile modified (nodeFile modified) ∧ modified.bare.Clear ∧
      ∃ text, printText true (nodeFile modified) = .ok text ∧
        text = "contract C {\n    function f() public a, b {}\n}\n\n".toList ∧ readFile text = none := by
  refine ⟨shows_file _ fun x hx => ?_, ⟨rfl, fun x hx => ?_⟩, _, by decide +kernel, rfl, ?_⟩
  · simp only [modified, List.mem_cons, List.not_mem_nil, or_false] at hx
    subst hx
    intro m hm
    simp only [List.mem_cons, List.not_mem_nil, or_false] at hm
    subst hm
    exact ⟨by simp [twoModifiers], fun v hv => (by cases hv), by decide, fun v hv => (by cases hv), fun ss hs => by cases hs; trivial⟩
  · have hx : x = .contract (Contract.bare { kind := "contract", name := "C", members := [.fn twoModifiers] }) := by
      simpa [modified, SourceFile.bare, Item.bare] using hx
    subst hx
    refine ⟨rfl, by decide, by decide, fun u hu => (by cases hu), fun y hy => ?_⟩
    simp only [Contract.bare, List.filterMap_cons, List.filterMap_nil, Member.bare, List.mem_cons, List.not_mem_nil, or_false] at hy
    subst hy
    refine ⟨⟨by decide, fun _ h => (by cases h; decide), fun v hv => (by cases hv), fun n h => (by cases h; decide), fun n h => (by cases h),
        fun ns hn => (by cases hn), fun u hu => ?_, fun v hv => (by cases hv), fun ss hs => (by cases hs; trivial)⟩, rfl⟩
    have hu : u = { name := ["a"] } ∨ u = { name := ["b"] } := by simpa [twoModifiers, Fn.bare] using hu
    rcases hu with rfl | rfl <;> exact ⟨by decide, by decide, fun es he => by cases he⟩
  · exact Option.isNone_iff_eq_none.1 (by decide +kernel)

namespace Demo
open DemoMachine IdleDemo

theorem clear_demo {body : List Stmt} (h : stmtsClear (bareStmts body)) : (file body).bare.Clear := by
  refine ⟨rfl, fun i hi => ?_⟩
  have hi : i = .contract (Contract.bare { kind := "contract", name := "C", members := [
    .fn { kind := "function", name := some "f", params := [], visibility := some "public", returns := [], modifiers := [],
          body := some body }] }) := by
    simpa [file, SourceFile.bare, Item.bare] using hi
  subst hi
  refine ⟨rfl, show "contract" ∈ contractKinds by decide, show FreeName "C" by decide, fun u hu => (by cases hu), fun x hx => ?_⟩
  simp only [Contract.bare, List.filterMap_cons, List.filterMap_nil, Member.bare, List.mem_cons, List.not_mem_nil, or_false] at hx
  subst hx
  exact ⟨⟨show "function" ∈ functionKinds by decide, fun _ h => (by cases h; decide), fun v hv => (by cases hv), fun n h => (by cases h; decide), fun n h => (by cases h),
        fun ns hn => (by cases hn), fun u hu => (by cases hu), fun v hv => (by cases hv), fun ss hs => (by cases hs; exact h)⟩, rfl⟩

/-- **C90: counterexample.** In a run with `SwapOperatorArguments` the function with `x - x - x` is mutated to one with
`x - (x - x)`, but what is written for it is read as the function before the mutation. -/
theorem C90_regrouped_counterexample :
    let p : Params ListRand := { params with
      numberOfMutants := 1, mutations := [.swapOperatorArguments], verify := false }
    let r := (machineWith differences).generate 100 p disk
    let f := file [.expr (.bin (.bin (.leaf "x") .sub (.leaf "x")) .sub (.leaf "x"))]
    let f' := file [.expr (.bin (.leaf "x") .sub (.bin (.leaf "x") .sub (.leaf "x")))]
    ShowsFile f (program_ [statement 20 differences]) ∧ InFile (changeOf .swapOperatorArguments) f f' ∧ f'.bare ≠ f.bare ∧
    r.1 = .ok () ∧ ∃ text, r.2.lookup "out/b.sol_0.sol" = some text ∧ readFile text.toList = some f.bare := by
  obtain ⟨h1, h2, h3, h4, text, h5, -, h6⟩ := C85_regrouped_counterexample
  refine ⟨h1, h3, ?_, h4, text, h5, readFile_of_toks h6 (clear_demo ?_)⟩
  · simp [file, SourceFile.bare, Item.bare, Contract.bare, Member.bare, Fn.bare, bareStmts, Stmt.bare]
  · simp only [bareStmts, Stmt.bare, stmtsClear, Stmt.Clear, SimpleClear, ExprClear, SolGrammar.Plain, and_true]
    and_intros <;> decide

/-- Example: what the run of the example for C65 writes for `a + b` is read as the program with `a * b`. -/
example : (machine.generate 100 params disk).2.lookup "out/b.sol_0.sol" = some (mutant "*") ∧
    readFile (mutant "*").toList = some (file [.expr (.bin (.leaf "a") .mul (.leaf "b"))]).bare := by
  refine ⟨by decide +kernel, readFile_of_toks (by decide +kernel) (clear_demo ?_)⟩
  simp only [bareStmts, Stmt.bare, stmtsClear, Stmt.Clear, SimpleClear, ExprClear, SolGrammar.Plain, and_true]
  and_intros <;> decide

end Demo
end SolPrint
end Mutagenyx
