import Verif.Props.SolidityMutants
import Verif.Props.Sturdy
import Verif.Props.Flow
import Verif.Proofs.SolidityRows

/-!
# C93: what is printed forever

The comment beside a mutant quotes the source text of the mutated node as running text.  The words of running text have
to fit on the page, but those of a program do not.
-/

namespace Mutagenyx

namespace Printer

theorem pageWidth_exec {checks : Bool} {o : Op} {p q : Printer} (h : exec checks o p = .ok q) : q.pageWidth = p.pageWidth := by
  cases o with
  | incr =>
    cases h
    unfold increaseIndent
    split <;> rfl
  | incrBy n =>
    cases h
    unfold increaseIndentBy
    split <;> rfl
  | decr =>
    cases h
    unfold decreaseIndent
    split <;> rfl
  | decrBy n =>
    cases h
    unfold decreaseIndentBy
    split <;> rfl
  | _ => exact (exec_writes h ⟨rfl, by simp⟩).pageWidth

/-- If calls on the token printer end well then no stretch without blanks in their running texts is wider than the page. -/
theorem run_needs {l : List Op} {p q : Printer} (h : run true l p = .ok q) {s next : List Char} (hf : Op.flow s next ∈ l)
    {u : List Char} (hu : u <:+: s) (h1 : ' ' ∉ u) (h2 : '\n' ∉ u) : utf8Len u ≤ p.pageWidth := by
  induction l generalizing p with
  | nil => cases hf
  | cons o l ih =>
    rw [run] at h
    split at h
    · rename_i p' he
      rcases List.mem_cons.1 hf with rfl | hf
      · exact C46_needs s next p p' he u hu h1 h2
      · rw [← pageWidth_exec he]
        exact ih h hf
    all_goals cases h

end Printer

namespace NodePrinter

variable {σ : Type}

/-- Printing the one node prints the other on the way. -/
inductive Through (pf : σ → Json → Layout σ) : σ → Json → σ → Json → Prop where
  | here (s n) : Through pf s n s n
  | step {s n s' n' s'' n''} (h : Piece.sub s' n' ∈ pieces (pf s) n) (t : Through pf s' n' s'' n'') : Through pf s n s'' n''

theorem mem_expand_op {checks : Bool} {f : σ → Json → List Op} {ps : List (Piece σ)} {o : Op} (h : Piece.op o ∈ ps) :
    o ∈ expand checks f ps := by
  obtain ⟨a, b, rfl⟩ := List.append_of_mem h
  rw [expand_append]
  exact List.mem_append_right _ (List.mem_cons_self ..)

theorem mem_expand_sub {checks : Bool} {f : σ → Json → List Op} {ps : List (Piece σ)} {o : Op} {s : σ} {n : Json}
    (h : Piece.sub s n ∈ ps) (ho : o ∈ f s n) : o ∈ expand checks f ps := by
  obtain ⟨a, b, rfl⟩ := List.append_of_mem h
  rw [expand_append]
  exact List.mem_append_right _ (List.mem_append_left _ ho)

theorem Through.ops {pf : σ → Json → Layout σ} (hg : GoodPrinter pf) {checks : Bool} {s s' : σ} {n n' : Json}
    (h : Through pf s n s' n') {o : Op} (ho : Piece.op o ∈ pieces (pf s') n') : o ∈ ops checks pf s n := by
  induction h with
  | here s n => rw [ops_eq hg]; exact mem_expand_op ho
  | step h _ ih => rw [ops_eq hg]; exact mem_expand_sub h (ih ho)

end NodePrinter

namespace SolPrint
open NodePrinter

/-- The printed statements of a block. -/
theorem sub_statements {s : PrintSettings} {node n : Json} {js : List Json} (hs : (Json.field? "statements" node) = some (.arr js))
    (h : n ∈ js) : Piece.sub s n ∈ statements s node := by
  unfold statements onArray onField
  rw [hs]
  simp only [onSome, Json.asArray]
  split
  · exact List.mem_flatMap.2 ⟨n, h, by simp⟩
  · obtain ⟨a, b, rfl⟩ := List.append_of_mem h
    rw [arrayWith_split]
    simp [when]

namespace Demo

open DemoMachine

theorem through_program {js : List Json} {n : Json} (h : n ∈ js) : Through layout {} (program_ js) {} n := by
  refine .step (n' := (Json.nodeAt [2, 0] (program_ js)).getD .null) (s' := {})
    (List.mem_of_getElem? (i := 1) rfl) ?_
  refine .step (n' := (Json.nodeAt [2, 0, 6, 0] (program_ js)).getD .null) (s' := {})
    (List.mem_of_getElem? (i := 8) rfl) ?_
  refine .step (n' := .obj [("id", .num (.int 4)), ("nodeType", .str "Block"), ("statements", .arr js)]) (s' := {})
    (List.mem_of_getElem? (i := 7) rfl) ?_
  refine .step (n' := n) (s' := {}) ?_ (.here _ _)
  rw [pieces_eq]
  refine List.mem_append_right _ (List.mem_append_left _ ?_)
  show Piece.sub {} n ∈ statements {} (.obj [("id", .num (.int 4)), ("nodeType", .str "Block"), ("statements", .arr js)])
  exact sub_statements rfl h

/-- **C93 fails: comments with wide words.** A program with a comment that has a stretch without blanks of more than 150 bytes is
not printed, whatever the other statements of the function are: printing crashes or does not end. -/
theorem C93_comment_counterexample {js : List Json} {text : String} (hc : Solidity.commentNode text ∈ js) {u : List Char}
    (hu : u <:+: text.toList) (h1 : ' ' ∉ u) (h2 : '\n' ∉ u) (hl : 150 < utf8Len u) (out : List Char) :
    printText true (program_ js) ≠ .ok out := by
  intro h
  have hop : Piece.op (.flow text.toList "// ".toList) ∈ pieces (layout {}) (Solidity.commentNode text) := by
    have ht : text.toList.isEmpty = false := by
      cases he : text.toList.isEmpty with
      | false => rfl
      | true =>
        rw [List.isEmpty_iff.1 he] at hu
        rw [List.infix_nil.1 hu] at hl
        simp at hl
    rw [pieces_eq]
    refine List.mem_append_right _ (List.mem_append_left _ ?_)
    show Piece.op (.flow text.toList "// ".toList) ∈ comment {} (Solidity.commentNode text)
    have : (Solidity.commentNode text).getStrForKey "text" = some text := rfl
    simp [comment, onStr, onSome, this, when, ht]
  have hm := (through_program hc).ops good_layout (checks := true) hop
  unfold printText at h
  split at h
  · rename_i p hr
    have := Printer.run_needs hr hm hu h1 h2
    exact absurd hl (Nat.not_lt.2 this)
  all_goals cases h

/-- `show("…")` with a string literal. -/
def stringCall (text : String) : Json :=
  .obj [("arguments", .arr [.obj [("id", .num (.int 31)), ("isPure", .bool true), ("kind", .str "string"),
      ("nodeType", .str "Literal"), ("value", .str text)]]),
    ("expression", variable_ 32 "show"), ("id", .num (.int 33)), ("isPure", .bool false), ("kind", .str "functionCall"),
    ("names", .arr []), ("nodeType", .str "FunctionCall")]

/-- `show("…"); x;`. -/
def stringStatements (text : String) : List Json := [statement 20 (stringCall text), statement 21 (variable_ 22 "x")]

/-- A block with these statements. -/
def blockOf (js : List Json) : Json := .obj [("id", .num (.int 4)), ("nodeType", .str "Block"), ("statements", .arr js)]

/-- A text that is wider than the page, such as the code of a contract or the picture of a token. -/
def longText : String := String.ofList (List.replicate 160 'y')

/-- What is printed for the call. -/
def longCall : List Char := "show(\n\"".toList ++ List.replicate 160 'y' ++ "\"\n);".toList

theorem long_program : ∃ text, printText true (program_ (stringStatements longText)) = .ok text := by
  have h : (match printText true (program_ (stringStatements longText)) with | .ok _ => true | _ => false) = true := by
    decide +kernel
  split at h
  · exact ⟨_, by assumption⟩
  · cases h

theorem long_call : printText true (statement 20 (stringCall longText)) = .ok longCall := by decide +kernel

/-- **C93 fails: mutants of a program with a long literal.** A program with a string literal that is wider than the page is
printed, but the mutant without the statement with the literal is not: the comment beside the mutant quotes the
statement as running text. -/
theorem C93_mutant_counterexample (env : MutEnv)
    (hpp : ∀ j text, printText true j = .ok text → env.pp j = String.ofList text) :
    (∃ text, printText true (program_ (stringStatements longText)) = .ok text) ∧
    ∃ js rep c rng, Solidity.deleteStatementMutate env (blockOf (stringStatements longText)) (⟨[0]⟩ : ListRand) =
        .ok (blockOf js, rep, some c, rng) ∧
      ∀ out, printText true (program_ (c :: js)) ≠ .ok out := by
  refine ⟨long_program, _, _, _, _, rfl, fun out => ?_⟩
  refine C93_comment_counterexample (u := List.replicate 160 'y') (List.mem_cons_self ..) ?_ (by decide +kernel)
    (by decide +kernel) (by decide +kernel) out
  rw [hpp _ _ long_call, String.toList_append, String.toList_append]
  unfold longCall
  generalize List.replicate 160 'y' = u
  exact ⟨"DeleteStatement Mutator: deleted statement '".toList ++ "show(\n\"".toList, "\"\n);".toList ++ "'".toList,
    by rw [String.toList_ofList (l := _ ++ u ++ _)]; simp only [List.append_assoc]⟩

/-- Example: comments that quote the printed nodes; and a literal that fits on the page. -/
example : (∃ env : MutEnv, ∀ j text, printText true j = .ok text → env.pp j = String.ofList text) ∧
    printText true (program_ (Solidity.commentNode "DeleteStatement Mutator: deleted statement 'show(\"a\");'" ::
      stringStatements "a")) = .ok ("contract C {\n    function f() public {\n        " ++
        "// DeleteStatement Mutator: deleted statement 'show(\"a\");'\n        show(\"a\");\n        x;\n    }\n}\n\n").toList := by
  refine ⟨⟨{ DemoNodes.env with pp := fun j => match printText true j with | .ok t => String.ofList t | _ => "" }, ?_⟩, by decide +kernel⟩
  intro j text h
  show (match printText true j with | .ok t => String.ofList t | _ => "") = _
  rw [h]

end Demo
end SolPrint
end Mutagenyx
