import Verif.Props.SolidityReader

/-!
# C90: an argument in place of its call may be read as part of another expression
-/

namespace Mutagenyx
namespace SolPrint
namespace Demo
open SolGrammar DemoMachine

/-- `… * …` -/
def product (id : Nat) (l r : Json) : Json :=
  .obj [("id", .num (.int id)), ("leftExpression", l), ("nodeType", .str "BinaryOperation"), ("operator", .str "*"),
    ("rightExpression", r)]

/-- A call. -/
def call_ (id : Nat) (f : Json) (args : List Json) : Json :=
  .obj [("arguments", .arr args), ("expression", f), ("id", .num (.int id)), ("kind", .str "functionCall"), ("names", .arr []),
    ("nodeType", .str "FunctionCall"), ("tryCall", .bool false)]

/-- `g(a + b) * c` -/
def calledSum : Json :=
  product 21 (call_ 22 (variable_ 23 "g") [sum 24 (variable_ 25 "a") (variable_ 26 "b")]) (variable_ 27 "c")

/-- **C90: counterexample.** In a run with `FunctionCall` the function with `g(a + b) * c` is mutated to one with the sum of `a` and
`b` times `c`, but what is written for it is read as one with the sum of `a` and `b * c`. -/
theorem C90_call_counterexample :
    let p : Params ListRand := { params with numberOfMutants := 1, mutations := [.functionCall], verify := false }
    let r := (machineWith calledSum).generate 100 p disk
    let f := file [.expr (.bin (.call (.leaf "g") [.bin (.leaf "a") .add (.leaf "b")]) .mul (.leaf "c"))]
    let f' := file [.expr (.bin (.bin (.leaf "a") .add (.leaf "b")) .mul (.leaf "c"))]
    let f'' := file [.expr (.bin (.leaf "a") .add (.bin (.leaf "b") .mul (.leaf "c")))]
    ShowsFile f (program_ [statement 20 calledSum]) ∧ InFile (changeOf .functionCall) f f' ∧ f''.bare ≠ f'.bare ∧
    r.1 = .ok () ∧ ∃ text, r.2.lookup "out/b.sol_0.sol" = some text ∧
      text = textOf "// FunctionCall Mutator: replaced '' with ''\n        a + b * c;" ∧ readFile text.toList = some f''.bare := by
  refine ⟨shows_demo ⟨?_, trivial⟩, ?_, ?_, by decide +kernel, _, by decide +kernel, rfl,
    readFile_of_toks (by decide +kernel) (clear_demo ?_)⟩
  · simp only [ShowsStmt]
    refine ⟨rfl, _, rfl, ?_⟩
    simp only [Shows, ShowAll]
    refine ⟨rfl, ?_⟩
    rw [if_neg (by decide)]
    refine ⟨rfl, ⟨_, rfl, rfl, ⟨_, rfl, .inl ⟨rfl, rfl⟩⟩, ⟨_, rfl, ⟨rfl, ?_⟩, trivial⟩, rfl, rfl⟩, _, rfl, .inl ⟨rfl, rfl⟩⟩
    rw [if_neg (by decide)]
    exact ⟨rfl, ⟨_, rfl, .inl ⟨rfl, rfl⟩⟩, _, rfl, .inl ⟨rfl, rfl⟩⟩
  · exact .items (.mk (pre := []) (.contract (.members (.mk (pre := []) (.fn (.body (.mk (.block (pre := []) (.expr
      (.left (.here ⟨_, List.mem_singleton.2 rfl, .inl ⟨_, rfl⟩⟩)))))))))))
  · simp [file, SourceFile.bare, Item.bare, Contract.bare, Member.bare, Fn.bare, bareStmts, Stmt.bare]
  · simp only [bareStmts, Stmt.bare, stmtsClear, Stmt.Clear, SimpleClear, ExprClear, SolGrammar.Plain, and_true]
    and_intros <;> decide

/-- `try g(s) returns (uint256 r) {} catch {}` -/
def tryWith : Stmt :=
  .try_ (.call (.leaf "g") [.leaf "s"]) [{ type := .elem "uint256", name := some "r" }] [] [.clause none none []]

/-- The machine for the program with this statement. -/
def tryMachine : Machine DemoSystem.Disk ListRand :=
  { machine with readJson := fun f d => (d.lookup f).bind fun t => if t = treeText then some (program_ [nodeStmt tryWith]) else none }

/-- **C90: counterexample.** In a run with `FunctionCall` the call of a `try` is replaced by its argument.  With the call the word
`returns` is lost, and what is written is not read as any program. -/
theorem C90_try_counterexample :
    let p : Params ListRand := { params with numberOfMutants := 1, mutations := [.functionCall], verify := false }
    let r := tryMachine.generate 100 p disk
    ShowsFile (file [tryWith]) (program_ [nodeStmt tryWith]) ∧
    readFile (textOf "try g(s) returns (uint256 r) {} catch {} ").toList = some (file [tryWith]).bare ∧
    r.1 = .ok () ∧ ∃ text, r.2.lookup "out/b.sol_0.sol" = some text ∧
      text = textOf "try s (uint256 r) {} catch {} " ∧ readFile text.toList = none := by
  have usual : Var.Usual { type := .elem "uint256", name := some "r" } := ⟨by simp, fun _ h => (by cases h), by decide⟩
  have clear : Var.Clear { type := .elem "uint256", name := some "r" } :=
    ⟨⟨by decide, by decide, by decide⟩, fun _ h => (by cases h), fun _ h => (by cases h), fun _ h => (by cases h; decide),
      fun _ h => (by cases h)⟩
  refine ⟨shows_demo ⟨shows_nodeStmt _ (by simp [tryWith, stmtUsual, stmtsUsual, usual]), trivial⟩,
    readFile_of_toks (by decide +kernel) (clear_demo ?_), by decide +kernel, _, by decide +kernel, rfl,
    Option.isNone_iff_eq_none.1 (by decide +kernel)⟩
  simp only [tryWith, bareStmts, Stmt.bare, bareClauses, stmtsClear, Stmt.Clear, clausesClear, SolGrammar.Plain, PlainAll, and_true,
    List.mem_singleton, forall_eq, clear]
  and_intros <;> first | decide | simp

end Demo
end SolPrint
end Mutagenyx
