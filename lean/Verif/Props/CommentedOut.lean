import Verif.Proofs.OneLine
import Verif.Spec.CommentedOut
import Verif.Spec.PrintNodes
import Verif.Spec.DemoNodes
import Verif.Model.SolidityMutators
import Verif.Proofs.SolidityExpr
import Verif.Proofs.VyperExpr

/-!
# Statements replaced by comments (property C60), and statements on one line (property C59)
-/

namespace Mutagenyx

open NodePrinter Printer

theorem commented_line {mark : String} (hm : '\n' ∉ mark.toList) {text : List Char} (h : '\n' ∉ text) :
    Commented mark (mark.toList ++ text) := by
  intro l hl
  rw [lines_of_oneLine _ (by simp [hm, h])] at hl
  exact ⟨0, text, by simpa using hl⟩

theorem lines_cons_newline (cs : List Char) : lines ('\n' :: cs) = [] :: lines cs := rfl

theorem lines_append_newline (a b : List Char) : lines (a ++ '\n' :: b) = lines a ++ lines b := by
  induction a with
  | nil => simp [lines]
  | cons c cs ih =>
    by_cases hc : c = '\n'
    · subst hc
      simp [lines, ih]
    · simp only [List.cons_append, lines, hc, if_false, ih]
      cases hl : lines cs with
      | nil => exact absurd hl (lines_ne_nil _)
      | cons l ls => simp

/-- Text in pieces with the mark at the start of every line. -/
theorem commented_pieces {mark : String} (hm : '\n' ∉ mark.toList) (n : Nat) (piece : List Char)
    (pieces : List (List Char)) (h : ∀ c ∈ piece :: pieces, '\n' ∉ c) :
    Commented mark (mark.toList ++ piece ++
      (pieces.map fun c => '\n' :: List.replicate n ' ' ++ mark.toList ++ c).flatten) := by
  have key : ∀ (pieces : List (List Char)) (start : List Char), '\n' ∉ start → (∀ c ∈ pieces, '\n' ∉ c) →
      ∀ l ∈ lines (start ++ (pieces.map fun c => '\n' :: List.replicate n ' ' ++ mark.toList ++ c).flatten),
        l = start ∨ ∃ c ∈ pieces, l = List.replicate n ' ' ++ (mark.toList ++ c) := by
    intro pieces
    induction pieces with
    | nil =>
      intro start hs _ l hl
      rw [List.map_nil, List.flatten_nil, List.append_nil, lines_of_oneLine _ hs] at hl
      exact Or.inl (by simpa using hl)
    | cons c cs ih =>
      intro start hs hc l hl
      rw [List.map_cons, List.flatten_cons, List.cons_append, List.cons_append, List.cons_append,
        lines_append_newline, lines_of_oneLine _ hs] at hl
      rcases List.mem_append.1 hl with hl | hl
      · exact Or.inl (by simpa using hl)
      · rcases ih _ (by
          have := hc c (List.mem_cons_self ..)
          simp [hm, this]) (fun d hd => hc d (List.mem_cons_of_mem _ hd)) l hl with h | ⟨d, hd, h⟩
        · exact Or.inr ⟨c, List.mem_cons_self .., by rw [h]; simp⟩
        · exact Or.inr ⟨d, List.mem_cons_of_mem _ hd, h⟩
  intro l hl
  rcases key pieces (mark.toList ++ piece) (by
      have := h piece (List.mem_cons_self ..)
      simp [hm, this]) (fun c hc => h c (List.mem_cons_of_mem _ hc)) l hl with h | ⟨c, _, h⟩
  · exact ⟨0, piece, by simpa using h⟩
  · exact ⟨n, c, h⟩

/-! ## Solidity -/

namespace SolPrint

theorem tokens_id : Json.pointerTokens (Json.jsonPath "id") = some ["id"] := by decide
theorem tokens_text : Json.pointerTokens (Json.jsonPath "text") = some ["text"] := by decide
theorem tokens_valueKey : Json.pointerTokens (Json.jsonPath "value") = some ["value"] := by decide
theorem tokens_nodeTypeKey : Json.pointerTokens (Json.jsonPath "nodeType") = some ["nodeType"] := by decide

theorem comment_fields (stmt : Json) :
    (Solidity.commentNodeFromNode stmt).getStrForKey "nodeType" = some "Comment" ∧
    (Solidity.commentNodeFromNode stmt).getStrForKey "text" = none ∧
    Json.field? "value" (Solidity.commentNodeFromNode stmt) = some stmt := by
  simp [Solidity.commentNodeFromNode, Json.ofFields, Json.objInsert, Json.setNodeForKey, Json.pointerSet, Json.getStrForKey,
    Json.get?, Json.field?, Json.pointer, tokens_id, tokens_text, tokens_valueKey, tokens_nodeTypeKey, Json.follow,
    Json.step, Json.objGet, Json.asStr, Json.followSet, Json.stepSet, Json.objReplace]

/-- What printing the comment does. -/
theorem printOps_comment (checks : Bool) (s : PrintSettings) (stmt : Json) :
    printOps checks s (Solidity.commentNodeFromNode stmt) =
      .token "//".toList :: .space :: printOps checks s stmt := by
  obtain ⟨h1, h2, h3⟩ := comment_fields stmt
  rw [printOps_of (body := comment s (Solidity.commentNodeFromNode stmt)) (by simp [layout, h1])]
  simp [comment, onStr, h2, onSome, field, onField, h3, expand, tok, sp]

/-- **C60 for Solidity.** A statement that is printed on one line when it stands alone is replaced by a comment that is
one line, wherever there is room for it on the line, and the text in the comment is that of the statement.  Missing:
statements of several lines and those longer than the line (see the counterexamples). -/
theorem C60_solidity_partial (checks : Bool) (s : PrintSettings) (stmt : Json) (alone p : Printer) (text : List Char)
    (h : run checks (printOps checks s stmt) (Printer.new 4 150) = .ok alone) (ht : alone.out = text)
    (hn : '\n' ∉ text) (hfit : p.column + 3 + utf8Len text ≤ p.pageWidth) :
    ∃ q, run checks (printOps checks s (Solidity.commentNodeFromNode stmt)) p = .ok q ∧
      q.out = p.out ++ ("// ".toList ++ text) ∧ Commented "//" ("// ".toList ++ text) := by
  rw [printOps_comment]
  have h2 : utf8Len "//".toList = 2 := by decide
  have h1 : utf8Len [' '] = 1 := by decide
  simp only [run, exec]
  rw [writeToken_fits (by rw [h2]; omega), writeSpace_fits (by simp only [basic, h2]; omega)]
  obtain ⟨q, h3, h4, _⟩ := run_again (anchored_printOps checks s stmt) h (text := text)
    (r := (p.basic "//".toList).basic [' ']) (by rw [ht]; rfl) hn (by simp only [basic, h1, h2]; omega)
  refine ⟨q, h3, by rw [h4]; simp [basic], ?_⟩
  exact commented_line (mark := "//") (text := ' ' :: text) (by decide) (by simpa using hn)

/-- The statement `a = b + c;`. -/
def sumStatement : Json :=
  SolNode.stmt (SolNode.mk "Assignment" [("leftHandSide", SolNode.ident "a"), ("operator", .str "="),
    ("rightHandSide", SolNode.bin (SolNode.ident "b") "+" (SolNode.ident "c"))])

example : printText true sumStatement = .ok "a = b + c;".toList ∧
    printText true (Solidity.commentNodeFromNode sumStatement) = .ok "// a = b + c;".toList := by decide +kernel

/-- The statement `f({x: a});`. -/
def namedCall : Json :=
  SolNode.stmt (SolNode.mk "FunctionCall" [("expression", SolNode.ident "f"), ("names", .arr [.str "x"]),
    ("arguments", .arr [SolNode.ident "a"])])

/-- **C60 fails for calls with named arguments**, which are printed on several lines: only the first line is in the
comment. -/
theorem C60_named_arguments_counterexample :
    printText true (Solidity.commentNodeFromNode namedCall) = .ok "// f({\n    x: a\n});".toList ∧
    ¬ Commented "//" "// f({\n    x: a\n});".toList := by
  refine ⟨by decide +kernel, ?_⟩
  rw [commented_iff (by intro cs h; cases h) (by decide)]
  decide +kernel

/-- **C60 fails in a mutant**: the statement deleted from a block is still there but for its first line, so that the
mutant is not a program any more. -/
theorem C60_mutant_counterexample : ∃ (m : Mutator ListRand) (j' : Json) (r r' : ListRand) (res : MutatorResult)
    (c : Option Json), Solidity.mutatorFor DemoNodes.env .deleteStatement = some m ∧
    m.isMutable (SolNode.block [namedCall, sumStatement]) = true ∧
    m.mutate (SolNode.block [namedCall, sumStatement]) r = .ok (j', res, c, r') ∧
    printText true j' = .ok "{\n    // f({\n        x: a\n    });\n    a = b + c;\n}".toList := by
  have h : DemoNodes.run (Solidity.mutatorFor DemoNodes.env .deleteStatement)
      (SolNode.block [namedCall, sumStatement]) [0]
      = some (true, some (SolNode.block [Solidity.commentNodeFromNode namedCall, sumStatement])) := by decide +kernel
  obtain ⟨m, res, c, r', h1, h2, h3⟩ := DemoNodes.run_ok h
  exact ⟨m, _, _, r', res, c, h1, h2, h3, by decide +kernel⟩

/-- **C60 fails for statements longer than the line**, which are continued on the next line, where there is no
comment. -/
theorem C60_long_statement_counterexample :
    printText true (Solidity.commentNodeFromNode (SolNode.stmt (SolNode.bin
      (SolNode.ident (String.ofList (List.replicate 100 'a'))) "+" (SolNode.ident (String.ofList (List.replicate 60 'b')))))) =
      .ok ("// ".toList ++ List.replicate 100 'a' ++ " + \n".toList ++ List.replicate 60 'b' ++ ";".toList) ∧
    ¬ Commented "//"
      ("// ".toList ++ List.replicate 100 'a' ++ " + \n".toList ++ List.replicate 60 'b' ++ ";".toList) := by
  refine ⟨by decide +kernel, ?_⟩
  rw [commented_iff (by intro cs h; cases h) (by decide)]
  decide +kernel

end SolPrint

/-! ## Vyper -/

namespace VyPrint

theorem tokens_nodeId : Json.pointerTokens (Json.jsonPath "node_id") = some ["node_id"] := by decide
theorem tokens_valueOf : Json.pointerTokens (Json.jsonPath "value") = some ["value"] := by decide
theorem tokens_astType : Json.pointerTokens (Json.jsonPath "ast_type") = some ["ast_type"] := by decide

theorem comment_fields (stmt : Json) :
    (Vyper.commentNodeFromNode stmt).getStrForKey "ast_type" = some "Comment" ∧
    Json.field? "value" (Vyper.commentNodeFromNode stmt) = some stmt := by
  simp [Vyper.commentNodeFromNode, Json.ofFields, Json.objInsert, Json.setNodeForKey, Json.pointerSet, Json.getStrForKey,
    Json.get?, Json.field?, Json.pointer, tokens_nodeId, tokens_valueOf, tokens_astType, Json.follow,
    Json.step, Json.objGet, Json.asStr, Json.followSet, Json.stepSet, Json.objReplace]

/-- **C60 for Vyper.** Whatever the statement, when the comment that replaces it is printed, then all of it is inside
comments.  The page has room for the indentation and the mark, as the pages that the printer uses do. -/
theorem C60_vyper (env : PrintEnv) (s : PrintSettings) (kvs : List (String × Json)) (p q : Printer)
    (h : run env.checks (printOps env s (Vyper.commentNodeFromNode (.obj kvs))) p = .ok q)
    (hcol : p.column + 2 ≤ p.pageWidth) (hroom : p.indentLength + 3 ≤ p.pageWidth) :
    ∃ text, q.out = p.out ++ text ∧ Commented "#" text := by
  obtain ⟨h1, h2⟩ := comment_fields (.obj kvs)
  rw [printOps_of (body := comment s (Vyper.commentNodeFromNode (.obj kvs))) (by simp [layout, h1])] at h
  simp only [comment, onField, h2, onSome, tok, sp, List.cons_append, List.nil_append, expand] at h
  have w1 : utf8Len "#".toList = 1 := by decide
  have w2 : utf8Len [' '] = 1 := by decide
  have w3 : utf8Len "# ".toList = 2 := by decide
  simp only [run, exec] at h
  rw [writeToken_fits (by rw [w1]; omega), writeSpace_fits (by simp only [basic, w1]; omega)] at h
  cases hr : run env.checks (printOps env s (.obj kvs)) (new 4 150) with
  | ok a =>
    rw [hr] at h
    simp only at h
    cases hh : writeFlow env.checks a.out "# ".toList ((p.basic "#".toList).basic [' ']) with
    | ok b =>
      rw [hh] at h
      cases h
      obtain ⟨piece, pieces, h3, h4⟩ := writeFlowable_lines _ _ _ _ _ _ (by
        rw [w3]
        show 1 + p.indentLength + 2 ≤ p.pageWidth
        omega) hh
      have := commented_pieces (mark := "#") (by decide) p.indentLength (' ' :: piece) (pieces.map (' ' :: ·))
        (by
          intro c hc
          rcases List.mem_cons.1 hc with rfl | hc
          · have := h4 piece (List.mem_cons_self ..)
            simpa using this
          · obtain ⟨d, hd, rfl⟩ := List.mem_map.1 hc
            have := h4 d (List.mem_cons_of_mem _ hd)
            simpa using this)
      refine ⟨_, ?_, this⟩
      rw [h3]
      simp only [basic, List.append_assoc, List.map_map]
      rfl
    | err e => rw [hh] at h; cases h
    | panic => rw [hh] at h; cases h
    | outOfFuel => rw [hh] at h; cases h
  | err e => rw [hr] at h; cases h
  | panic => rw [hr] at h; cases h
  | outOfFuel => rw [hr] at h; cases h

/-- An `if` of two lines, replaced by a comment. -/
example : printText ⟨true, fun _ => ""⟩ (Vyper.commentNodeFromNode
    (VyNode.if_ (VyNode.name "a") [VyNode.assign (VyNode.name "b") (VyNode.name "c")])) =
    .ok "# if a: b = c".toList := by decide +kernel

end VyPrint
end Mutagenyx
