import Verif.Proofs.SolidityNodes

/-!
# Printed Solidity statements, declarations and files have the tokens that the grammar demands (property C56)
-/

namespace Mutagenyx
namespace SolPrint

open NodePrinter SolGrammar Printer

/-- **C56.** The text printed for a statement has exactly the tokens that the grammar demands for it, whatever
its size: keywords and names are not run together, and every separator is there.  This includes `try` and inline
assembly.
Missing: `for` without first part or condition, `try` without results, and in assembly `let` without value and functions
with several results; for these there are counterexamples. -/
theorem C56_statement_partial (checks : Bool) (st : Stmt) (node : Json) (h : ShowsStmt st node) (hp : st.Plain false) :
    ∃ text, printText checks node = .ok text ∧ SolGrammar.tokens text = st.toks := printText_of (p_stmt ⟨checks, false⟩ st node h hp)

/-- **C56.** The same for the declaration of a variable, a parameter or a member.
Missing: `override` and function types, for which there are counterexamples. -/
theorem C56_variable_partial (checks : Bool) (v : Var) (node : Json) (h : ShowsVar v node) (hp : v.Plain) :
    ∃ text, printText checks node = .ok text ∧ SolGrammar.tokens text = v.toks := printText_of (p_var h hp trivial)

/-- **C56.** The same for a function with at most one modifier.
Missing: more modifiers, for which there is a counterexample; documentation is in `C56_documented_partial`. -/
theorem C56_function_partial (checks : Bool) (f : Fn) (node : Json) (h : ShowsFn f node) (hp : f.Plain false) :
    ∃ text, printText checks node = .ok text ∧ SolGrammar.tokens text = f.toks := printText_of (p_fn h hp trivial)

/-- **C56.** The same for a contract with such functions, state variables, modifiers, events, errors, structs, enums,
value types and `using`.
Missing: modifiers that override or have no body, `using` with a list of functions and `using` for all types, for which
there are counterexamples; documentation is in `C56_documented_partial`. -/
theorem C56_contract_partial (checks : Bool) (c : Contract) (node : Json) (h : ShowsContract c node) (hp : c.Plain false) :
    ∃ text, printText checks node = .ok text ∧ SolGrammar.tokens text = c.toks := printText_of (p_contract h hp)

/-- **C56.** The same for a file: its license is printed as a comment, and its pragmas, imports, contracts and other
definitions with exactly the tokens that the grammar demands.
Missing: functions and constants outside of contracts and licenses that do not fit on the line, for which there are
counterexamples; other pragmas; documentation is in `C56_documented_partial`. -/
theorem C56_file_partial (checks : Bool) (f : SourceFile) (node : Json) (h : ShowsFile f node) (hp : f.Plain false) :
    ∃ text, printText checks node = .ok text ∧ SolGrammar.tokens text = f.toks := by
  obtain ⟨h1, h2⟩ := file_run (checks := checks) h hp
  obtain ⟨text, ht⟩ := h1 rfl
  exact ⟨text, ht, h2 text ht⟩

/-- **C56.** The same for files with documentation, and with comments among the statements and members, if they are printed
at all: the documentation is a comment, which it does not end; the comments, whatever their text, are comments; and
everything else has the tokens that the grammar demands.
Missing: documentation that is too long for a line, for which the printer may crash (C55), and that with `*/` in it, for
which there is a counterexample. -/
theorem C56_documented_partial (checks : Bool) (f : SourceFile) (node : Json) (text : List Char) (h : ShowsFile f node)
    (hp : f.Plain true) (ht : printText checks node = .ok text) : SolGrammar.tokens text = f.toks :=
  (file_run (checks := checks) h hp).2 text ht

/-! ### The hypotheses are satisfiable -/

/-- A contract with all kinds of members and statements. -/
def sampleContract : Contract where
  abstract_ := true
  kind := "contract"
  name := "Token"
  bases := [{ name := ["Base"] }, { name := ["M", "Other"], args := some [.leaf "1", .bin (.leaf "a") .add (.leaf "b")] }]
  members := [
    .state { type := .mapping (.elem "address") (.array (.elem "uint256")), visibility := some "public", name := some "held" },
    .state { type := .elem "uint8", visibility := some "private", constant := true, name := some "d", value := some (.leaf "18") },
    .struct "S" [{ type := .addressPayable, name := some "to" }, { type := .fixed (.user ["M", "T"]) (.leaf "4"), name := some "ts" }],
    .enum "E" ["A", "B"],
    .event "Sent" [{ type := .elem "address", indexed := true, name := some "to" }] true,
    .error "Failed" [{ type := .elem "string", name := none }],
    .modifier "only" [] true (some [.placeholder]),
    .using_ ["L"] (.elem "uint256") false,
    .operators [(["plus"], "+"), (["M", "eq"], "==")] (.user ["D"]) true,
    .type "D" (.elem "uint256"),
    .fn { kind := "function", name := some "f", params := [{ type := .array (.elem "uint256"), location := some "memory", name := some "xs" }],
          visibility := some "external", mutability := some "view", override := some [["Base"], ["M", "Other"]],
          modifiers := [{ name := ["only"], args := some [] }], returns := [{ type := .elem "uint256", name := none }],
          body := some [
            .decl [some { type := .elem "uint256", name := some "s" }] (some (.leaf "0")),
            .for_ (.decl [some { type := .elem "uint256", name := some "i" }] (some (.leaf "0"))) (.bin (.leaf "i") .lt (.leaf "n"))
              (some (.post (.leaf "i") .inc)) (.block [.if_ (.leaf "stop") .break_, .unchecked [.expr (.bin (.leaf "s") .setAdd (.leaf "i"))]]),
            .decl [none, some { type := .elem "bool", name := some "ok" }] (some (.call (.leaf "g") [])),
            .ifElse (.leaf "ok") (.return_ none) (.revert (.call (.leaf "Failed") [.leaf "s"])),
            .while_ (.leaf "ok") .continue_,
            .doWhile (.block []) (.leaf "ok"),
            .try_ (.call (.leaf "g") [.leaf "s"]) [{ type := .elem "uint256", name := some "r" }] [.return_ (some (.leaf "r"))]
              [.clause (some "Error") (some [{ type := .elem "string", location := some "memory", name := some "why" }]) [],
               .clause none none [.emit (.call (.leaf "Sent") [])]],
            .assembly ["memory-safe"] [
              .let_ ["p", "q"] (some (.call "f" [.lit "0x40", .name ["xs", "slot"], .str "ab"])),
              .function "g" ["a"] ["r"] [.assign [["r"]] (.call "add" [.name ["a"], .lit "1"]), .leave],
              .if_ (.name ["p"]) [.expr (.call "stop" [])],
              .switch (.name ["q"]) [.case_ (some (.lit "0")) [], .case_ none [.break_]],
              .for_ [] (.lit "1") [] [.block [], .continue_]],
            .emit (.call (.leaf "Sent") [.leaf "s"]),
            .return_ (some (.leaf "s"))] },
    .fn { kind := "receive", name := none, params := [], visibility := some "external", mutability := some "payable", body := none }]

instance (p : List String) : Decidable (PlainPath p) := by unfold PlainPath; infer_instance

theorem nameOpt_of {o : Option String} (h : o.all isName = true) : NameOpt o := fun x hx => by
  subst hx
  simpa using h

theorem plainVar_of {v : Var} (ht : v.type.Plain) (h : v.visibility.all isName = true ∧ v.location.all isName = true ∧ v.name.all isName = true)
    (hv : PlainOpt v.value) : v.Plain := ⟨ht, nameOpt_of h.1, nameOpt_of h.2.1, nameOpt_of h.2.2, hv⟩

theorem plainOpt_none : PlainOpt none := fun _ h => by cases h
theorem plainOpt_some {e : Expr} (h : Legible e) : PlainOpt (some e) := fun _ hx => by cases hx; exact h

theorem usual_of {v : Var} (h : v.visibility ≠ some "internal" ∧ v.location ∈ [none, some "memory", some "storage", some "calldata"] ∧
    v.name ≠ some "") : Var.Usual v :=
  ⟨h.1, fun l hl => by
    have := h.2.1
    rw [hl] at this
    simpa using this, h.2.2⟩

theorem usual_sample : ∀ m ∈ sampleContract.members, memberUsual m := by
  intro m hm
  simp only [sampleContract, List.mem_cons, List.not_mem_nil, or_false] at hm
  rcases hm with rfl | rfl | rfl | rfl | rfl | rfl | rfl | rfl | rfl | rfl | rfl | rfl
  all_goals simp only [memberUsual]
  · exact usual_of (by decide)
  · exact usual_of (by decide)
  · intro v hv
    simp only [List.mem_cons, List.not_mem_nil, or_false] at hv
    rcases hv with rfl | rfl <;> exact usual_of (by decide)
  · intro v hv
    simp only [List.mem_cons, List.not_mem_nil, or_false] at hv
    subst hv
    exact usual_of (by decide)
  · intro v hv
    simp only [List.mem_cons, List.not_mem_nil, or_false] at hv
    subst hv
    exact usual_of (by decide)
  · exact ⟨fun v hv => (by cases hv), fun ss hs => by cases hs; simp [stmtsUsual, stmtUsual]⟩
  · refine ⟨by simp, ?_, by decide, ?_, ?_⟩
    · intro v hv
      simp only [List.mem_cons, List.not_mem_nil, or_false] at hv
      subst hv
      exact usual_of (by decide)
    · intro v hv
      simp only [List.mem_cons, List.not_mem_nil, or_false] at hv
      subst hv
      exact usual_of (by decide)
    · intro ss hs
      cases hs
      simp only [stmtsUsual, stmtUsual, List.mem_cons, List.not_mem_nil, or_false, Option.some.injEq, reduceCtorEq, false_or,
        forall_eq, and_true]
      and_intros
      all_goals first
        | with_reducible exact trivial
        | exact usual_of (by decide)
        | exact ⟨_, _, rfl⟩
        | exact fun vs hvs => hvs.elim
        | decide
        | skip
      intro vs hvs v hv
      cases hvs
      simp only [List.mem_cons, List.not_mem_nil, or_false] at hv
      subst hv
      exact usual_of (by decide)
  · exact ⟨by simp, fun v hv => (by cases hv), by decide, fun v hv => (by cases hv), fun ss hs => (by cases hs)⟩

theorem plain_sample {flows : Bool} : sampleContract.Plain flows := by
  refine ⟨trivial, ?_, ?_, ?_, ?_⟩
  · decide
  · decide
  · intro u hu
    simp only [sampleContract, List.mem_cons, List.not_mem_nil, or_false] at hu
    rcases hu with rfl | rfl
    · exact ⟨by decide, fun es he => by cases he⟩
    · refine ⟨by decide, fun es he => ?_⟩
      cases he
      simp only [LegibleAll, Legible]
      decide
  · intro m hm
    simp only [sampleContract, List.mem_cons, List.not_mem_nil, or_false] at hm
    rcases hm with rfl | rfl | rfl | rfl | rfl | rfl | rfl | rfl | rfl | rfl | rfl | rfl
    all_goals simp only [Member.Plain]
    · exact ⟨plainVar_of (by simp only [Ty.Plain]; decide) (by decide) plainOpt_none, trivial⟩
    · exact ⟨plainVar_of (by simp only [Ty.Plain]; decide) (by decide) (plainOpt_some (by simp only [Legible]; decide)), trivial⟩
    · refine ⟨by decide, fun v hv => ?_⟩
      simp only [List.mem_cons, List.not_mem_nil, or_false] at hv
      rcases hv with rfl | rfl
      · exact plainVar_of trivial (by decide) plainOpt_none
      · exact plainVar_of (by simp only [Ty.Plain, Legible]; decide) (by decide) plainOpt_none
    · decide
    · refine ⟨by decide, fun v hv => ?_⟩
      simp only [List.mem_cons, List.not_mem_nil, or_false] at hv
      subst hv
      exact plainVar_of (by simp only [Ty.Plain]; decide) (by decide) plainOpt_none
    · refine ⟨by decide, fun v hv => ?_⟩
      simp only [List.mem_cons, List.not_mem_nil, or_false] at hv
      subst hv
      exact plainVar_of (by simp only [Ty.Plain]; decide) (by decide) plainOpt_none
    · exact ⟨by decide, fun v hv => (by cases hv), ⟨_, rfl⟩, fun ss hs => by cases hs; exact ⟨trivial, trivial⟩, trivial⟩
    · exact ⟨by decide, by simp only [Ty.Plain]; decide⟩
    · refine ⟨by decide, by decide, by simp only [Ty.Plain]; decide⟩
    · exact ⟨by decide, by simp only [Ty.Plain]; decide⟩
    · refine ⟨⟨by decide, nameOpt_of (by decide), ?_, nameOpt_of (by decide), nameOpt_of (by decide), ?_, ⟨by decide, ?_⟩, ?_, ?_⟩, trivial⟩
      · intro v hv
        simp only [List.mem_cons, List.not_mem_nil, or_false] at hv
        subst hv
        exact plainVar_of (by simp only [Ty.Plain]; decide) (by decide) plainOpt_none
      · intro ns hns
        cases hns
        decide
      · intro u hu
        simp only [List.mem_cons, List.not_mem_nil, or_false] at hu
        subst hu
        exact ⟨by decide, fun es he => by cases he; trivial⟩
      · intro v hv
        simp only [List.mem_cons, List.not_mem_nil, or_false] at hv
        subst hv
        exact plainVar_of (by simp only [Ty.Plain]; decide) (by decide) plainOpt_none
      · intro ss hs
        cases hs
        simp only [stmtsPlain, clausesPlain, Stmt.Plain, List.mem_cons, List.not_mem_nil, or_false, Option.some.injEq, reduceCtorEq, false_or,
          forall_eq, and_true, Legible, LegibleAll, YulStmt.Plain, yulPlain, YulExpr.Plain, yulArgsPlain]
        have h0 : ∀ t : String, isLeaf t = true → PlainOpt (some (.leaf t)) := fun t ht => plainOpt_some (by simpa [Legible] using ht)
        have h1 : ∀ n : String, isName n = true → ∀ t, isName t = true →
            Var.Plain { type := .elem t, name := some n } := fun n hn t ht =>
          plainVar_of (by simpa [Ty.Plain] using ht) ⟨rfl, rfl, by simpa using hn⟩ plainOpt_none
        and_intros
        all_goals first
          | with_reducible exact trivial
          | exact h1 _ (by decide) _ (by decide)
          | exact h0 _ (by decide)
          | exact plainOpt_none
          | (refine plainOpt_some ?_; simp only [Legible, LegibleAll]; decide)
          | decide
          | exact nameOpt_of (by decide)
          | (intro vs hvs v hv
             subst hvs
             simp only [List.mem_cons, List.not_mem_nil, or_false] at hv
             subst hv
             exact plainVar_of (by simp only [Ty.Plain]; decide) (by decide) plainOpt_none)
          | simp
        all_goals try simp only [YulExpr.Plain, yulArgsPlain]
        all_goals decide
    · exact ⟨⟨by decide, nameOpt_of (by decide), fun v hv => (by cases hv), nameOpt_of (by decide), nameOpt_of (by decide),
        fun ns hn => (by cases hn), ⟨by decide, fun u hu => (by cases hu)⟩, fun v hv => (by cases hv), fun ss hs => (by cases hs)⟩, trivial⟩

/-- It meets the hypotheses. -/
example : ShowsContract sampleContract (nodeContract sampleContract) ∧ sampleContract.Plain false :=
  ⟨shows_nodeContract _ usual_sample, plain_sample⟩

/-- A file with a license, a pragma, imports, a contract with documentation, and definitions outside of it. -/
def sampleFile (doc : Option String) : SourceFile where
  license := some "MIT"
  items := [
    .pragma [{ op := some ">=", first := "0.8", patch := some "1" }, { op := some "<", first := "0.9", patch := some "0" }],
    .import_ { file := "./a.sol" },
    .import_ { file := "b.sol", alias_ := some "B" },
    .import_ { file := "c.sol", symbols := [("x", none), ("y", some "z")] },
    .member (.type "D" (.elem "uint256")),
    .member (.struct "P" [{ type := .elem "uint256", name := some "x" }]),
    .contract { sampleContract with doc := doc }]

theorem plain_file {flows : Bool} {doc : Option String} (hd : docPlain flows doc) : (sampleFile doc).Plain flows := by
  have hp : sampleContract.Plain flows := plain_sample
  refine ⟨?_, ?_⟩
  · intro l hl
    cases hl
    decide
  · intro x hx
    simp only [sampleFile, List.mem_cons, List.not_mem_nil, or_false] at hx
    rcases hx with rfl | rfl | rfl | rfl | rfl | rfl | rfl
    · refine ⟨?_, by decide, _, rfl, Or.inl (by decide)⟩
      intro v hv
      simp only [List.mem_cons, List.not_mem_nil, or_false] at hv
      rcases hv with rfl | rfl
      · exact ⟨fun o ho => by cases ho; decide, ⟨['0'], ['8'], by decide⟩, fun q hq => by cases hq; decide⟩
      · exact ⟨fun o ho => by cases ho; decide, ⟨['0'], ['9'], by decide⟩, fun q hq => by cases hq; decide⟩
    · exact ⟨by decide, nameOpt_of (by decide), by decide, by simp⟩
    · exact ⟨by decide, nameOpt_of (by decide), by decide, by simp⟩
    · refine ⟨by decide, nameOpt_of (by decide), by decide, ?_⟩
      intro s hs
      simp only [List.mem_cons, List.not_mem_nil, or_false] at hs
      rcases hs with rfl | rfl
      · exact ⟨by decide, nameOpt_of (by decide)⟩
      · exact ⟨by decide, nameOpt_of (by decide)⟩
    · exact ⟨⟨by decide, by simp only [Ty.Plain]; decide⟩, trivial⟩
    · refine ⟨⟨by decide, fun v hv => ?_⟩, trivial⟩
      simp only [List.mem_cons, List.not_mem_nil, or_false] at hv
      subst hv
      exact plainVar_of (by simp only [Ty.Plain]; decide) (by decide) plainOpt_none
    · exact ⟨hd, hp.kind, hp.name, hp.bases, hp.members⟩

theorem usual_file (doc : Option String) : ∀ x ∈ (sampleFile doc).items, itemUsual x := by
  intro x hx
  simp only [sampleFile, List.mem_cons, List.not_mem_nil, or_false] at hx
  rcases hx with rfl | rfl | rfl | rfl | rfl | rfl | rfl
  · trivial
  · show _ ≠ _; decide
  · show _ ≠ _; decide
  · show _ ≠ _; decide
  · trivial
  · intro v hv
    simp only [List.mem_cons, List.not_mem_nil, or_false] at hv
    subst hv
    exact usual_of (by decide)
  · exact usual_sample

/-- It meets the hypotheses. -/
example : ShowsFile (sampleFile none) (nodeFile (sampleFile none)) ∧ (sampleFile none).Plain false :=
  ⟨shows_file _ (usual_file _), plain_file trivial⟩

/-- With documentation as well, and it is printed. -/
example : ShowsFile (sampleFile (some "Says\n what")) (nodeFile (sampleFile (some "Says\n what"))) ∧
    (sampleFile (some "Says\n what")).Plain true ∧
    ∃ text, printText true (nodeFile (sampleFile (some "Says\n what"))) = .ok text ∧
      SolGrammar.tokens text = (sampleFile none).toks := by
  have hs := shows_file (sampleFile (some "Says\n what")) (usual_file _)
  have hp : (sampleFile (some "Says\n what")).Plain true := plain_file ⟨rfl, inComment_infix.1 (by decide)⟩
  have h : (match printText true (nodeFile (sampleFile (some "Says\n what"))) with | .ok _ => true | _ => false) = true := by
    decide +kernel
  split at h
  · rename_i text ht
    have := C56_documented_partial true _ _ text hs hp ht
    exact ⟨hs, hp, text, ht, this⟩
  · cases h

/-- A contract with comments: among its members, as the only thing in a block, and before a statement. -/
def commentedContract (first : String) : Contract where
  kind := "contract"
  name := "C"
  members := [.comment first,
    .fn { kind := "function", name := some "f", params := [], visibility := some "public", returns := [], modifiers := [],
          body := some [.comment "a; b\n}", .if_ (.leaf "true") (.block [.comment ""]), .return_ none] },
    .comment "*/"]

/-- Comments are comments, also those with several lines. -/
example : ∀ first ∈ ["", "x", "lines\nand\nlines"], (commentedContract first).Plain true ∧
    (match printText true (nodeFile ⟨none, [.contract (commentedContract first)]⟩) with
      | .ok text => SolGrammar.tokens text == (commentedContract first).toks
      | _ => false) = true := by
  intro first hf
  refine ⟨⟨trivial, show isName "contract" = true by decide, show isName "C" = true by decide, by simp [commentedContract], ?_⟩, ?_⟩
  · intro m hm
    simp only [commentedContract, List.mem_cons, List.not_mem_nil, or_false] at hm
    rcases hm with rfl | rfl | rfl
    · rfl
    · refine ⟨⟨by decide, nameOpt_of (by decide), by simp, nameOpt_of (by decide), nameOpt_of (by decide), by simp, by simp, by simp, ?_⟩, trivial⟩
      intro ss hs
      cases hs
      simp only [stmtsPlain, Stmt.Plain, Legible]
      exact ⟨trivial, ⟨by decide, trivial, trivial⟩, plainOpt_none, trivial⟩
    · rfl
  · revert first
    decide +kernel

end SolPrint
end Mutagenyx
