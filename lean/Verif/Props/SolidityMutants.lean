import Verif.Proofs.SolidityMutants
import Verif.Proofs.SolidityTokens
import Verif.Props.Results
import Verif.Props.SolidityProgram

/-!
# C76: a written Solidity mutant is the program with one change
-/

namespace Mutagenyx
namespace SolPrint
open SolGrammar Json

variable {S R : Type} [Rand R]

theorem text_printed {env : PrintEnv} {j : Json} {text : String} (h : Language.print env .solidity j = .ok text) :
    printText env.checks j = .ok text.toList := by
  unfold Language.print printedText at h
  unfold printText
  show (match Printer.run env.checks (NodePrinter.ops env.checks SolPrint.layout {} j) (Printer.new 4 150) with
    | .ok p => _ | .err e => _ | .panic => _ | .outOfFuel => _) = _
  simp only at h
  split at h <;> simp_all
  rw [← h, String.toList_ofList]

/-- **C76 (one mutation).** A mutation of a node of the tree of a source file gives the tree of the file with one change of the
kind that the algorithm makes, or of the same file if the node is none of the parts of the file, and the comment beside it
changes nothing else.  Missing: `DeleteStatement`, calls of a `try` that are replaced by an argument, and comments for the
blocks of branches and catch clauses, which do not just add a comment (`C16_solidity_counterexample`). -/
theorem C76_one_partial {env : MutEnv} {t : MutationType} {m : Mutator R} (hm : Solidity.mutatorFor env t = some m)
    {f : SourceFile} {ast : Json} (hshow : ShowsFile f ast) {pos : Pos} {node node' : Json} (hn : nodeAt pos ast = some node)
    (hmu : m.isMutable node = true) {rng rng' : R} {rep : MutatorResult} {comment : Option Json}
    (h : m.mutate node rng = .ok (node', rep, comment, rng')) (hw : Writable t node node') :
    ∃ f', (InFile (changeOf t) f f' ∨ f' = f ∧ visible pos ast = false) ∧ ShowsFile f' (replaceAt pos node' ast) ∧
      ∀ c mutant, comment = some c → CommentAdded .solidity (commentTarget .solidity rep node') c (replaceAt pos node' ast) mutant →
        ∃ f'', ShowsFile f'' mutant ∧ (f'' = f' ∨ ∃ text, c = Solidity.commentNode text ∧ NewComment text f' f'') := by
  obtain ⟨f', h1, h2⟩ := edit_file (sol_mutates hm hmu h hw) hshow ⟨pos, hn, rfl, rfl⟩
  refine ⟨f', h2, h1, fun c mutant hc hadd => ?_⟩
  subst hc
  obtain ⟨text, rfl⟩ := sol_comment_text hm h
  obtain ⟨n, n', vis, hE, hC⟩ := comment_edit hadd
  obtain ⟨f'', h3, h4⟩ := edit_file hC h1 hE
  refine ⟨f'', h3, ?_⟩
  rcases h4 with h4 | ⟨h4, -⟩
  · exact .inr ⟨text, rfl, h4⟩
  · exact .inl h4

/-- **C76.** After a run that ends well for a Solidity source file, each file for a mutant is the source file with one change of
the kind that one of the algorithms makes, and with a comment: its tokens are those of the changed file, which are those of
the source file but for the stretch that the algorithm changes and perhaps new braces.  If the mutated node is no part of the
file, then only the comment is new.  Missing: mutants of `DeleteStatement`, calls of a `try` replaced by an argument, mutants of the
blocks of branches and catch clauses (`C68_solidity_counterexample`), and changed files that are not printed as they
are (property C56), like `--x` for `-(-x)` (`C76_fused_counterexample`) and `--1` for a negative number after `-`
(`C76_negative_counterexample`). -/
theorem C76_written_partial (m : Machine S R) (hsh : ∀ l, (m.shuffle l).Perm l) {content : String → S → Option String}
    (hc : Contents m.toSys content) (hw : ∀ f t s, (m.write f t s).1 = true → content f (m.write f t s).2 = some t)
    (env : PrintEnv) (hprint : ∀ j, m.print .solidity j = Language.print env .solidity j)
    (fuel : Nat) (p : Params R) (s s' : S) (base : String)
    (hb : Path.fileName p.fileName = some base) (hs : p.useStdout = false) (ast : Json)
    (hr : (m.reading p s).1 = .ok (.solidity, ast))
    (htmp : ∀ n : Nat, ¬ InTemp m.toSys (Path.join p.outputDirectory (base ++ "_" ++ toString n ++ ".sol")))
    (hout : ∀ (n : Nat) t s, content (Path.join p.outputDirectory (base ++ "_" ++ toString n ++ ".sol")) (m.stdout t s) =
      content (Path.join p.outputDirectory (base ++ "_" ++ toString n ++ ".sol")) s)
    (hok : m.generate fuel p s = (.ok (), s')) (f : SourceFile) (hshow : ShowsFile f ast) :
    ∃ count ≤ p.numberOfMutants, ∀ k : Nat,
      (k < count → ∃ t ∈ p.mutations, ∃ mutator : Mutator R, Solidity.mutatorFor m.env t = some mutator ∧
        ∃ (pos : Pos) (node node' : Json) (rng rng' : R) (rep : MutatorResult) (comment : Option Json) (text : String),
          nodeAt pos ast = some node ∧ mutator.isMutable node = true ∧
          (p.functions ≠ [] → insideListed solidityCtx p.functions pos ast = true) ∧
          mutator.mutate node rng = .ok (node', rep, comment, rng') ∧
          content (Path.join p.outputDirectory (base ++ "_" ++ toString k ++ ".sol")) s' = some text ∧
          (Writable t node node' →
            (∀ q n, nodeAt q (replaceAt pos node' ast) = some n → ¬ BranchBlock (commentTarget .solidity rep node') n) →
            ∃ f' f'', (InFile (changeOf t) f f' ∨ f' = f ∧ visible pos ast = false) ∧
              (f'' = f' ∨ ∃ note, comment = some (Solidity.commentNode note) ∧ NewComment note f' f'') ∧
              (f.Plain true → Within (tokenChange t) f.toks f'.toks ∨ f'.toks = f.toks ∧ visible pos ast = false) ∧
              (f''.toks = f'.toks ∨ Within Braces f'.toks f''.toks) ∧
              (f''.Plain true → SolGrammar.tokens text.toList = f''.toks))) ∧
      (count ≤ k → content (Path.join p.outputDirectory (base ++ "_" ++ toString k ++ ".sol")) s' =
        content (Path.join p.outputDirectory (base ++ "_" ++ toString k ++ ".sol")) s) := by
  have hn : ∀ n : Nat, base ++ "_" ++ toString n ++ "." ++ suffixOf .solidity = base ++ "_" ++ toString n ++ ".sol" := by
    intro n; rw [String.append_assoc (s₂ := ".")]; rfl
  obtain ⟨mutants, h1, h2, h3, h4⟩ := C68_files_partial m hsh hc hw fuel p s s' base hb hs .solidity ast hr
    (fun n => by rw [hn]; exact htmp n) (fun n => by rw [hn]; exact hout n) hok
  refine ⟨mutants.length, h4, fun k => ⟨fun hk => ?_, fun hk => by rw [← hn]; exact h2 k hk⟩⟩
  rcases hget : mutants[k] with ⟨mutant, report⟩
  obtain ⟨⟨t, ht, mu, hmu, pos, nd, nd', rng, rng', rep, comment, num, r1, r2, r3, -, r4, -, r5⟩, text, r6, r7⟩ :=
    h1 k mutant report (by rw [List.getElem?_eq_getElem hk, hget])
  refine ⟨t, ht, mu, hmu, pos, nd, nd', rng, rng', rep, comment, text, r1, r2, r3, r4, by rw [← hn]; exact r7, fun hwr hbr => ?_⟩
  obtain ⟨f', g1, g2, g3⟩ := C76_one_partial hmu hshow r1 r2 r4 hwr
  have key : ∀ f'', ShowsFile f'' mutant → f''.Plain true → SolGrammar.tokens text.toList = f''.toks := by
    intro f'' e1 e2
    exact C56_documented_partial env.checks f'' mutant _ e1 e2 (text_printed (by rw [← hprint]; exact r6))
  have ht : f.Plain true → Within (tokenChange t) f.toks f'.toks ∨ f'.toks = f.toks ∧ visible pos ast = false := by
    intro hp
    rcases g1 with g1 | ⟨rfl, g1⟩
    · exact .inl (SolTokens.change_tokens g1 hp)
    · exact .inr ⟨rfl, g1⟩
  cases r5 with
  | leftOut => exact ⟨f', f', g1, .inl rfl, ht, .inl rfl, key f' g2⟩
  | added c after h5 h6 =>
    obtain ⟨f'', e1, e2⟩ := g3 c _ h5 h6
    refine ⟨f', f'', g1, e2.imp_right fun ⟨note, a, b⟩ => ⟨note, by rw [h5, a], b⟩, ht, ?_, key f'' e1⟩
    rcases e2 with rfl | ⟨note, -, e2⟩
    · exact .inl rfl
    · exact .inr (SolTokens.comment_tokens e2)
  | garbled c q n x _ _ h5 h6 => exact absurd h6 (hbr q n h5)

/-! ### Runs -/

namespace Demo

/-- `contract C { function f() public { … } }`. -/
def file (body : List Stmt) : SourceFile where
  license := none
  items := [.contract { kind := "contract", name := "C", members := [
    .fn { kind := "function", name := some "f", params := [], visibility := some "public", returns := [], modifiers := [],
          body := some body }] }]

theorem shows_demo {body : List Stmt} {js : List Json} (h : ShowStmts body js) : ShowsFile (file body) (DemoMachine.program_ js) := by
  refine ⟨rfl, rfl, _, rfl, ⟨rfl, rfl, ?_, rfl, rfl, ⟨[], rfl, trivial⟩, _, rfl, ?_, trivial⟩, trivial⟩
  · show (some false = some true ↔ _)
    simp
  refine ⟨rfl, rfl, ⟨"function", rfl, .inl ⟨rfl, rfl, "f", rfl, rfl⟩⟩, ⟨_, rfl, rfl, [], rfl, trivial⟩, rfl, ?_, rfl, rfl, ⟨[], rfl, trivial⟩,
    ⟨_, rfl, ⟨rfl, [], rfl, trivial⟩, [], rfl, rfl⟩, ⟨_, rfl, ?_⟩, rfl⟩
  · show (some false = some true ↔ _)
    simp
  · simp only [ShowsStmt]
    exact ⟨rfl, js, rfl, h⟩

theorem plain_demo {body : List Stmt} (h : stmtsPlain true body) : (file body).Plain true := by
  refine ⟨by simp [file], fun i hi => ?_⟩
  simp only [file, List.mem_cons, List.not_mem_nil, or_false] at hi
  subst hi
  refine ⟨trivial, show isName "contract" = true by decide, show isName "C" = true by decide, by simp, fun x hx => ?_⟩
  simp only [List.mem_cons, List.not_mem_nil, or_false] at hx
  subst hx
  refine ⟨⟨show isName "function" = true by decide, nameOpt_of (show Option.all isName (some "f") = true by decide), by simp,
    nameOpt_of (show Option.all isName (some "public") = true by decide), nameOpt_of (show Option.all isName none = true by decide), by simp, by simp, by simp, ?_⟩, trivial⟩
  intro ss hs
  cases hs
  exact h

/-- No body of a branch or of a clause anywhere in the tree. -/
def noBranch (j : Json) : Bool :=
  (preorder j).all fun n => ["trueBody", "falseBody", "block"].all fun k => (Json.field? k n).isNone

theorem noBranch_spec {id : Nat} {j : Json} (h : noBranch j = true) {q : Pos} {n : Json} (hn : nodeAt q j = some n) :
    ¬ BranchBlock id n := by
  rintro ⟨k, hk, b, hb, -⟩
  unfold noBranch at h
  have h1 := List.all_eq_true.1 (List.all_eq_true.1 h n (mem_preorder_of_nodeAt hn)) k hk
  rw [field?_eq_field, hb] at h1
  cases h1

open DemoMachine

/-- Example: the run of the example for C65, for a function that computes `a + b`, meets the hypotheses of `C76_written_partial`,
and the tokens of what it writes are those of the program with another operator. -/
example :
    let f := file [.expr (.bin (.leaf "a") .add (.leaf "b"))]
    f.Plain true ∧
    (machine.generate 100 params disk).2.lookup "out/b.sol_0.sol" = some (mutant "*") ∧
    SolGrammar.tokens (mutant "*").toList = (file [.expr (.bin (.leaf "a") .mul (.leaf "b"))]).toks ∧
    ∃ count ≤ 2, ∀ k : Nat,
      (k < count → ∃ text, (machine.generate 100 params disk).2.lookup (Path.join "out" ("b.sol" ++ "_" ++ toString k ++ ".sol")) =
          some text ∧
        ∃ f' f'', InFile (changeOf .arithmeticBinaryOp) f f' ∧ (f'' = f' ∨ ∃ note, NewComment note f' f'') ∧
          (f''.Plain true → SolGrammar.tokens text.toList = f''.toks) ∧
          Within (tokenChange .arithmeticBinaryOp) f.toks f'.toks) ∧
      (count ≤ k → (machine.generate 100 params disk).2.lookup (Path.join "out" ("b.sol" ++ "_" ++ toString k ++ ".sol")) =
        disk.lookup (Path.join "out" ("b.sol" ++ "_" ++ toString k ++ ".sol"))) := by
  intro f
  have hplain : f.Plain true := plain_demo (by simp only [stmtsPlain, Stmt.Plain, Legible]; exact ⟨⟨by decide, by decide⟩, trivial⟩)
  have hshow : ShowsFile f tree := by
    refine shows_demo (js := [statement 5 (sum 6 (variable_ 7 "a") (variable_ 8 "b"))]) ⟨?_, trivial⟩
    simp only [ShowsStmt]
    refine ⟨rfl, _, rfl, ?_⟩
    simp only [Shows]
    refine ⟨rfl, ?_⟩
    rw [if_neg (by decide)]
    exact ⟨rfl, ⟨_, rfl, .inl ⟨rfl, rfl⟩⟩, _, rfl, .inl ⟨rfl, rfl⟩⟩
  refine ⟨hplain, by decide +kernel, by decide +kernel, ?_⟩
  have hok : (machine.generate 100 params disk).1 = .ok () := by decide +kernel
  have hgen : machine.generate 100 params disk = (.ok (), (machine.generate 100 params disk).2) := by
    have hpair : ∀ x : Outcome Unit × DemoSystem.Disk, x.1 = .ok () → x = (.ok (), x.2) := by rintro ⟨a, b⟩ rfl; rfl
    exact hpair _ hok
  have hr : (machine.reading params disk).1 = .ok (.solidity, tree) := by decide +kernel
  have hn : ∀ n : Nat, "b.sol" ++ "_" ++ toString n ++ "." ++ suffixOf .solidity = "b.sol" ++ "_" ++ toString n ++ ".sol" := by
    intro n; rw [String.append_assoc (s₂ := ".")]; rfl
  generalize (machine.generate 100 params disk).2 = s' at hgen ⊢
  obtain ⟨count, h1, h2⟩ := C76_written_partial machine (fun _ => .refl _) contents (fun f t s _ => holds f t s)
    ⟨true, fun _ => ""⟩ (fun _ => rfl) 100 params disk s' "b.sol" (by decide) rfl tree hr
    (fun n hp => by
      obtain ⟨rest, h⟩ := place_head n
      rw [hn] at h
      unfold InTemp at hp
      have hp : "/tmp".toList <+: (Path.join "out" ("b.sol" ++ "_" ++ toString n ++ ".sol")).toList := hp
      rw [h] at hp
      have := (List.cons_prefix_cons.1 (show '/' :: "tmp".toList <+: 'o' :: rest from hp)).1
      revert this; decide)
    (fun n t s => DemoSystem.lookup_put _ _ _ (fun e => by
      obtain ⟨rest, h⟩ := place_head n
      rw [hn] at h
      have e : Path.join "out" ("b.sol" ++ "_" ++ toString n ++ ".sol") = "stdout" := e
      rw [e] at h
      have h := (List.cons.inj (show 's' :: "tdout".toList = 'o' :: rest from h)).1
      revert h; decide) s)
    hgen f hshow
  refine ⟨count, h1, fun k => ⟨fun hk => ?_, (h2 k).2⟩⟩
  obtain ⟨t, ht, mu, hmu, pos, nd, nd', rng, rng', rep, comment, text, e1, e2, -, e3, h8, h9⟩ := (h2 k).1 hk
  have ht : t = .arithmeticBinaryOp := by simpa [params] using ht
  subst ht
  cases hmu
  have hpos : ∀ p ∈ positions tree, (match nodeAt p tree with
      | none => true
      | some n => !Solidity.binaryOpMutable arithmeticOperators n ||
          (p == [2, 0, 6, 0, 0, 2, 0, 0] && n == sum 6 (variable_ 7 "a") (variable_ 8 "b"))) = true := by
    decide +kernel
  have hp := hpos pos (mem_positions.2 (by rw [e1]; rfl))
  rw [e1] at hp
  have e2 : Solidity.binaryOpMutable arithmeticOperators nd = true := e2
  simp only [e2, Bool.not_true, Bool.false_or, Bool.and_eq_true, beq_iff_eq] at hp
  obtain ⟨rfl, rfl⟩ := hp
  have hnew : ∃ new, nd' = Json.setStrForKey "operator" new (sum 6 (variable_ 7 "a") (variable_ 8 "b")) := by
    have e3 : Solidity.binaryOpMutate machine.env arithmeticOperators .arithmeticBinaryOp (sum 6 (variable_ 7 "a") (variable_ 8 "b"))
      rng = .ok (nd', rep, comment, rng') := e3
    unfold Solidity.binaryOpMutate at e3
    rw [show getStrForKey "operator" (sum 6 (variable_ 7 "a") (variable_ 8 "b")) = some "+" from rfl] at e3
    simp only at e3
    split at e3 <;> cases e3
    exact ⟨_, rfl⟩
  obtain ⟨new, rfl⟩ := hnew
  obtain ⟨f', f'', g1, g2, g3, g4, g5⟩ := h9 ⟨by decide, fun h => (by cases h)⟩ fun q n hq => noBranch_spec (by rfl) hq
  have hv : ∀ {p : Prop}, (p ∧ visible [2, 0, 6, 0, 0, 2, 0, 0] tree = false) → False := fun h => by
    have := h.2
    revert this
    decide +kernel
  refine ⟨text, h8, f', f'', g1.resolve_right hv, g2.imp_right fun ⟨note, _, g⟩ => ⟨note, g⟩, g5, (g3 hplain).resolve_right hv⟩

/-- An operator before an expression, and a number. -/
def unary (id : Nat) (op : String) (e : Json) : Json :=
  .obj [("id", .num (.int id)), ("nodeType", .str "UnaryOperation"), ("operator", .str op), ("prefix", .bool true),
    ("subExpression", e)]
def number (id : Nat) (t : String) : Json :=
  .obj [("id", .num (.int id)), ("kind", .str "number"), ("nodeType", .str "Literal"), ("value", .str t)]

/-- The machine with a program that has one statement. -/
def machineWith (e : Json) : Machine DemoSystem.Disk ListRand :=
  { machine with readJson := fun f d => (d.lookup f).bind fun t => if t = treeText then some (program_ [statement 20 e]) else none }

/-- The text of the program with these lines. -/
def textOf (lines : String) : String := "contract C {\n    function f() public {\n        " ++ lines ++ "\n    }\n}\n\n"

/-- **C76: counterexample.** In a run with `UnaryOp` the function with `-~x` is mutated to one with `-(--x)`, but it is written
as `---x`, which has other tokens. -/
theorem C76_fused_counterexample :
    let p : Params ListRand := { params with
      numberOfMutants := 1, mutations := [.unaryOp], verify := false, rng := ⟨[0, 1]⟩ }
    let tree := program_ [statement 20 (unary 21 "-" (unary 22 "~" (variable_ 23 "x")))]
    let r := (machineWith (unary 21 "-" (unary 22 "~" (variable_ 23 "x")))).generate 100 p disk
    let f := file [.expr (.pre .neg (.pre .bitNot (.leaf "x")))]
    let f' := file [.expr (.pre .neg (.pre .dec (.leaf "x")))]
    ShowsFile f tree ∧ f.Plain true ∧ InFile (changeOf .unaryOp) f f' ∧ r.1 = .ok () ∧
    ∃ text, r.2.lookup "out/b.sol_0.sol" = some text ∧
      text = textOf "// UnaryOp Mutator: Changed '~' to '--'\n        ---x;" ∧ SolGrammar.tokens text.toList ≠ f'.toks := by
  refine ⟨shows_demo ⟨?_, trivial⟩, plain_demo ?_, ?_, by decide +kernel, _, by decide +kernel, rfl, by decide +kernel⟩
  · simp only [ShowsStmt, Shows]
    exact ⟨rfl, _, rfl, .inl ⟨rfl, rfl, rfl, _, rfl, .inl ⟨rfl, rfl, rfl, _, rfl, .inl ⟨rfl, rfl⟩⟩⟩⟩
  · simp only [stmtsPlain, Stmt.Plain, Legible]
    exact ⟨⟨by decide, by decide, by decide⟩, trivial⟩
  · exact .items (.mk (pre := []) (.contract (.members (.mk (pre := []) (.fn (.body (.mk (.block (pre := []) (.expr (.pre
      (.here (.inl ⟨_, _, _, rfl, rfl, by decide, by decide, by decide⟩))))))))))))

/-- **C76: counterexample.** In a run with `Integer` the function with `-0` is mutated to one with `-(-1)`, but it is written
as `--1`, which is no expression. -/
theorem C76_negative_counterexample :
    let p : Params ListRand := { params with
      numberOfMutants := 1, mutations := [.integer], verify := false, rng := ⟨[0, 1]⟩ }
    let tree := program_ [statement 20 (unary 21 "-" (number 22 "0"))]
    let r := (machineWith (unary 21 "-" (number 22 "0"))).generate 100 p disk
    let f := file [.expr (.pre .neg (.leaf "0"))]
    ShowsFile f tree ∧ f.Plain true ∧ r.1 = .ok () ∧
    r.2.lookup "out/b.sol_0.sol" = some (textOf "// Integer Mutator: changed '0' to '-1'\n        --1;") ∧
    SolGrammar.tokens "--1".toList = ["--", "1"] := by
  refine ⟨shows_demo ⟨?_, trivial⟩, plain_demo ?_, by decide +kernel, by decide +kernel, by decide +kernel⟩
  · simp only [ShowsStmt, Shows]
    exact ⟨rfl, _, rfl, .inl ⟨rfl, rfl, rfl, _, rfl, .inr (.inl ⟨rfl, rfl, rfl, .inl rfl⟩)⟩⟩
  · simp only [stmtsPlain, Stmt.Plain, Legible]
    exact ⟨⟨by decide, by decide⟩, trivial⟩

/-- A negative number is written as one: in a run with `Integer` the function with `0` becomes one with `-1`, and its tokens are
those of the changed file. -/
example :
    let p : Params ListRand := { params with
      numberOfMutants := 1, mutations := [.integer], verify := false, rng := ⟨[0, 1]⟩ }
    let tree := program_ [statement 20 (number 22 "0")]
    let r := (machineWith (number 22 "0")).generate 100 p disk
    let f := file [.expr (.leaf "0")]
    let f' := file [.expr (numeral (-1))]
    ShowsFile f tree ∧ InFile (changeOf .integer) f f' ∧ f'.Plain true ∧ r.1 = .ok () ∧
    ∃ text, r.2.lookup "out/b.sol_0.sol" = some text ∧ SolGrammar.tokens text.toList = f'.toks := by
  refine ⟨shows_demo ⟨?_, trivial⟩, ?_, plain_demo ?_, by decide +kernel,
    textOf "// Integer Mutator: changed '0' to '-1'\n        -1;", by decide +kernel, by decide +kernel⟩
  · simp only [ShowsStmt, Shows]
    exact ⟨rfl, _, rfl, .inr (.inl ⟨rfl, rfl, rfl, .inl rfl⟩)⟩
  · exact .items (.mk (pre := []) (.contract (.members (.mk (pre := []) (.fn (.body (.mk (.block (pre := []) (.expr
      (.here ⟨_, _, .inl ⟨.inl rfl, rfl⟩⟩))))))))))
  · show stmtsPlain true [.expr (.pre .neg (.leaf "1"))]
    simp only [stmtsPlain, Stmt.Plain, Legible]
    exact ⟨⟨by decide, by decide⟩, trivial⟩

end Demo
end SolPrint
end Mutagenyx
