import Verif.Proofs.SolidityProgram
import Verif.Proofs.Fits
import Verif.Props.SolidityProgram

/-!
# Printed pragmas (property C56)

The compiler cuts the text after `pragma` into pieces such as `solidity`, `>=`, `0.8`, `.1`.  The printer has to put
the pieces together again.
-/

namespace Mutagenyx
namespace SolPrint

open NodePrinter SolGrammar Printer

/-- A constraint on the version: an operator, and the version in pieces such as `0.8` and `.1`. -/
structure Constraint where
  op : Option String
  first : String
  rest : List String

/-- The text of the constraint. -/
def Constraint.text (c : Constraint) : List Char :=
  (c.op.getD "").toList ++ c.first.toList ++ c.rest.flatMap String.toList

/-- The pieces of the constraint. -/
def Constraint.pieces (c : Constraint) : List String := c.op.toList ++ c.first :: c.rest

/-- The operator is one of those that the printer knows, and the pieces are pieces of a version. -/
structure Constraint.Good (c : Constraint) : Prop where
  op : ∀ o, c.op = some o → o ∈ ["<", "<=", ">=", ">", "^"]
  first : versionPart c.first
  rest : ∀ s ∈ c.rest, versionPart s

/-! ### Proof -/

/-- The text of the pieces from position `i`. -/
def pragmaText (len : Nat) : Nat → String → List String → List Char
  | _, _, [] => []
  | i, prev, t :: ts => (if i < len - 1 && wantsSpace prev t then [' '] else []) ++ t.toList ++ pragmaText len (i + 1) t ts

theorem lineOf_pragmaLoop (checks : Bool) (len : Nat) : (ts : List String) → (i : Nat) → (prev : String) →
    lineOf (expand checks (printOps checks) (pragmaLoop len i prev (ts.map Json.str))) = some (pragmaText len i prev ts)
  | [], _, _ => rfl
  | t :: ts, i, prev => by
    have ih := lineOf_pragmaLoop checks len ts (i + 1) t
    rw [List.map_cons, pragmaLoop.eq_def]
    simp only [Json.asStr, pragmaText]
    show lineOf (expand checks (printOps checks) (when (decide (i < len - 1) && wantsSpace prev t) sp ++ tok t ++ _)) = _
    rw [expand_append, expand_append]
    refine lineOf_append (lineOf_append ?_ ?_) ih
    · cases decide (i < len - 1) && wantsSpace prev t
      · rfl
      · rfl
    · simp [expand, tok, lineOf, written]

theorem pragmaText_parts {len : Nat} : (rest : List String) → (i : Nat) → (prev : String) → (more : List String) →
    versionPart prev → (∀ s ∈ rest, versionPart s) →
    ∃ last, versionPart last ∧
      pragmaText len i prev (rest ++ more) = rest.flatMap String.toList ++ pragmaText len (i + rest.length) last more
  | [], i, prev, more, hp, _ => ⟨prev, hp, by simp⟩
  | s :: rest, i, prev, more, hp, h => by
    have hs := h s (List.mem_cons_self ..)
    obtain ⟨last, h1, h2⟩ := pragmaText_parts (len := len) rest (i + 1) s more hs fun x hx => h x (List.mem_cons_of_mem _ hx)
    refine ⟨last, h1, ?_⟩
    have hw : wantsSpace prev s = false := by simp [wantsSpace, digitsOrDots_of hp, digitsOrDots_of hs]
    rw [List.cons_append, pragmaText, hw, h2, Bool.and_false, if_neg (by decide)]
    simp only [List.flatMap_cons, List.nil_append, List.append_assoc, List.length_cons]
    rw [show i + 1 + rest.length = i + (rest.length + 1) by omega]

theorem pragmaText_constraints {len : Nat} : (cs : List Constraint) → (i : Nat) → (prev : String) →
    (∀ c ∈ cs, c.Good) → prev ∉ ["<", "<=", ">=", ">", "^"] →
    (∀ c ∈ cs.tail, c.op.isSome = true) →
    (∀ c, cs.head? = some c → c.op.isSome = true ∨ (digitsOrDots prev = false ∧ (c.rest ≠ [] ∨ cs.tail ≠ []))) →
    len = i + (cs.flatMap Constraint.pieces).length →
    pragmaText len i prev (cs.flatMap Constraint.pieces) = cs.flatMap fun c => ' ' :: c.text
  | [], _, _, _, _, _, _, _ => rfl
  | c :: cs, i, prev, hg, hprev, ht, hh, hlen => by
    have hc := hg c (List.mem_cons_self ..)
    have hh := hh c rfl
    have hpos : cs ≠ [] → 0 < (cs.flatMap Constraint.pieces).length := by
      intro h
      cases cs with
      | nil => exact absurd rfl h
      | cons d ds => simp [Constraint.pieces]; omega
    have next : ∀ (j : Nat), len = j + (c.rest.length + (cs.flatMap Constraint.pieces).length) →
        pragmaText len j c.first (c.rest ++ cs.flatMap Constraint.pieces) =
          c.rest.flatMap String.toList ++ cs.flatMap fun c => ' ' :: c.text := by
      intro j hj
      obtain ⟨last, h1, h2⟩ := pragmaText_parts (len := len) c.rest j c.first (cs.flatMap Constraint.pieces) hc.first hc.rest
      rw [h2, pragmaText_constraints cs _ last (fun d hd => hg d (List.mem_cons_of_mem _ hd)) (not_operator h1)
        (fun d hd => ht d (List.mem_of_mem_tail hd)) (fun d hd => Or.inl (ht d (List.mem_of_mem_head? hd))) (by omega)]
    simp only [List.flatMap_cons, Constraint.pieces, Constraint.text, List.length_append, List.length_cons] at hlen ⊢
    cases ho : c.op with
    | some o =>
      have hop := hc.op o ho
      rw [ho] at hlen
      simp only [Option.toList_some, List.length_cons, List.length_nil] at hlen
      have hw : wantsSpace prev o = true := by simp only [wantsSpace, operator_notVersion hop, Bool.and_false, Bool.or_false]; simpa using hprev
      have hw' : wantsSpace o c.first = false := by simp only [wantsSpace]; simp [hop]
      simp only [Option.toList_some, List.cons_append, List.nil_append, Option.getD_some, pragmaText, hw, hw', Bool.and_true,
        Bool.and_false, decide_eq_true_eq, Bool.false_eq_true, if_false]
      rw [if_pos (by omega), next _ (by omega)]
      simp [Constraint.text]
    | none =>
      rw [ho] at hlen hh
      simp only [Option.toList_none, List.length_nil, List.tail_cons, Option.isSome_none, Bool.false_eq_true, false_or] at hlen hh
      have hw : wantsSpace prev c.first = true := by
        simp only [wantsSpace, hh.1, Bool.false_and, Bool.or_false]
        simpa using hprev
      have hl : i < len - 1 := by
        rcases hh.2 with h | h
        · have := List.length_pos_iff.2 h
          omega
        · have := hpos h
          omega
      simp only [Option.toList_none, List.nil_append, List.cons_append, Option.getD_none, pragmaText, hw, Bool.and_true,
        decide_eq_true_eq]
      rw [if_pos hl, next _ (by omega)]
      simp [Constraint.text]

/-- **C56.** The pragma that states which versions of the compiler are allowed is printed with one space before each
constraint and none inside it.
Missing: a pragma whose last piece follows a name, a second constraint without operator, other operators, and pragmas
that do not fit on the line; for the first two there are counterexamples. -/
theorem C56_pragma_partial (checks : Bool) (node : Json) (c : Constraint) (cs : List Constraint) (hn : IsA "PragmaDirective" node)
    (hl : Json.field? "literals" node = some (.arr (("solidity" :: (c :: cs).flatMap Constraint.pieces).map Json.str)))
    (hg : ∀ d ∈ c :: cs, d.Good) (hops : ∀ d ∈ cs, d.op ≠ none) (hfirst : c.op ≠ none ∨ c.rest ≠ [] ∨ cs ≠ [])
    (hfit : utf8Len ("pragma solidity".toList ++ ((c :: cs).flatMap fun d => ' ' :: d.text) ++ [';']) < 150) :
    printText checks node = .ok ("pragma solidity".toList ++ ((c :: cs).flatMap fun d => ' ' :: d.text) ++ [';']) := by
  have some_of : ∀ {o : Option String}, o ≠ none → o.isSome = true := fun {o} h => by cases o <;> simp_all
  have h1 : printOps checks {} node = expand checks (printOps checks) (pragma node) :=
    printOps_of (body := pragma node) (by simp only [IsA] at hn; simp [layout, hn])
  have h2 : lineOf (printOps checks {} node) =
      some ("pragma solidity".toList ++ ((c :: cs).flatMap fun d => ' ' :: d.text) ++ [';']) := by
    rw [h1]
    simp only [pragma, onArray, onField, onSome, hl, Json.asArray]
    rw [expand_append, expand_append]
    have e : pragmaText ((("solidity" :: (c :: cs).flatMap Constraint.pieces).map Json.str).length) 0 "pragma"
        ("solidity" :: (c :: cs).flatMap Constraint.pieces) =
        " solidity".toList ++ ((c :: cs).flatMap fun d => ' ' :: d.text) := by
      rw [pragmaText, pragmaText_constraints (c :: cs) _ _ hg (by decide) (fun d hd => some_of (hops d hd))
        (fun d hd => by
          cases hd
          rcases hfirst with h | h
          · exact Or.inl (some_of h)
          · exact Or.inr ⟨by decide, h⟩) (by simp; omega)]
      rw [if_pos (by simp [Constraint.pieces]; exact ⟨by omega, by decide⟩)]
      rfl
    have := lineOf_append (lineOf_append (show lineOf (expand checks (printOps checks) (tok "pragma")) = some "pragma".toList by
      simp [expand, tok, lineOf, written]) (lineOf_pragmaLoop checks ((("solidity" :: (c :: cs).flatMap Constraint.pieces).map Json.str).length)
        ("solidity" :: (c :: cs).flatMap Constraint.pieces) 0 "pragma"))
      (show lineOf (expand checks (printOps checks) (tok ";")) = some [';'] by simp [expand, tok, lineOf, written])
    rw [e] at this
    rw [this]
    simp
  obtain ⟨q, h3, h4, _⟩ := run_fits checks (p := Printer.new 4 150) h2 (by
    show 1 + _ ≤ 150
    omega)
  rw [printText, h3]
  show Outcome.ok q.out = _
  rw [h4]
  rfl

/-- A pragma. -/
def nodePragma (ps : List String) : Json := SolNode.mk "PragmaDirective" [("literals", .arr (ps.map Json.str))]

/-- Two constraints. -/
def sampleConstraints : List Constraint :=
  [{ op := some ">=", first := "0.4", rest := [".22"] }, { op := some "<", first := "0.9", rest := [".0"] }]

example : printText true (nodePragma ("solidity" :: sampleConstraints.flatMap Constraint.pieces)) =
    .ok "pragma solidity >=0.4.22 <0.9.0;".toList := by
  have := C56_pragma_partial true (nodePragma ("solidity" :: sampleConstraints.flatMap Constraint.pieces))
    { op := some ">=", first := "0.4", rest := [".22"] } [{ op := some "<", first := "0.9", rest := [".0"] }]
    (by unfold IsA; decide +kernel) (by rfl)
    (by
      intro d hd
      simp only [List.mem_cons, List.not_mem_nil, or_false] at hd
      rcases hd with rfl | rfl
      · exact ⟨fun o ho => by cases ho; decide, by unfold versionPart; decide, by unfold versionPart; decide⟩
      · exact ⟨fun o ho => by cases ho; decide, by unfold versionPart; decide, by unfold versionPart; decide⟩)
    (by simp) (Or.inl (by simp)) (by decide)
  exact this

/-! ### Where the text is not what the grammar demands -/

/-- **C56: counterexample.** There is no space before the last piece of a pragma: `pragma abicoder v2` and `pragma solidity 0.8`
are printed as a pragma with a single name. -/
theorem C56_pragma_counterexample :
    printText true (nodePragma ["abicoder", "v2"]) = .ok "pragma abicoderv2;".toList ∧
      printText true (nodePragma ["solidity", "0.8"]) = .ok "pragma solidity0.8;".toList ∧
      SolGrammar.tokens "pragma abicoderv2;".toList = ["pragma", "abicoderv2", ";"] ∧
      SolGrammar.tokens "pragma solidity0.8;".toList ≠ SolGrammar.tokens "pragma solidity 0.8;".toList := by decide +kernel

/-- **C56: counterexample.** Two versions after another become one. -/
theorem C56_versions_counterexample :
    printText true (nodePragma ["solidity", "0.8", ".0", "0.9", ".0"]) = .ok "pragma solidity 0.8.00.9.0;".toList := by
  decide +kernel

/-- The node with the mark for `override`. -/
def withOverride (j : Json) : Json := Json.setNodeForKey "overrides" (SolNode.mk "OverrideSpecifier" []) j

/-- **C56: counterexample.** `override` of a public state variable is not separated from `public`. -/
theorem C56_override_counterexample :
    printText true (withOverride (nodeVar { type := .elem "uint256", visibility := some "public", name := some "x" })) =
        .ok "uint256 publicoverride x".toList ∧
      SolGrammar.tokens "uint256 publicoverride x".toList = ["uint256", "publicoverride", "x"] := by decide +kernel

/-- A function with two modifiers. -/
def twoModifiers : Fn :=
  { kind := "function", name := some "f", params := [], visibility := some "public",
    modifiers := [{ name := ["a"] }, { name := ["b"] }], body := some [] }

/-- **C56: counterexample.** Two modifiers of a function are separated by a comma, which the grammar does not allow. -/
theorem C56_modifiers_counterexample :
    ShowsFn twoModifiers (nodeFn twoModifiers) ∧
      printText true (nodeFn twoModifiers) = .ok "function f() public a, b {}".toList ∧
      SolGrammar.tokens "function f() public a, b {}".toList ≠ twoModifiers.toks :=
  ⟨shows_nodeFn _ ⟨by simp [twoModifiers], fun v hv => (by cases hv), by decide, fun v hv => (by cases hv),
    fun ss hs => by cases hs; trivial⟩, by decide +kernel, by decide +kernel⟩

/-- **C56: counterexample.** A modifier without body is printed without the semicolon that has to follow. -/
theorem C56_modifier_counterexample :
    ShowsMember (.modifier "m" [] true none) (nodeMember (.modifier "m" [] true none)) ∧
      printText true (nodeMember (.modifier "m" [] true none)) = .ok "modifier m() virtual".toList ∧
      SolGrammar.tokens "modifier m() virtual".toList ≠ Member.toks (.modifier "m" [] true none) :=
  ⟨shows_nodeMember _ ⟨fun v hv => (by cases hv), fun ss hs => by cases hs⟩, by decide +kernel, by decide +kernel⟩

/-- **C56: counterexample.** A loop without first part and condition, which needs two semicolons, is printed with none. -/
theorem C56_for_counterexample :
    printText true (SolNode.mk "ForStatement"
        [("body", nodeStmt (.block [])), ("loopExpression", nodeStmt (.expr (.post (.leaf "i") .inc)))]) =
      .ok "for( i++) {}".toList ∧
    ";" ∉ SolGrammar.tokens "for( i++) {}".toList := by decide +kernel

/-- **C56: counterexample.** A function outside of contracts is printed with the visibility that the compiler records
for it but does not accept there. -/
theorem C56_free_function_counterexample :
    printText true (Json.setNodeForKey "kind" (.str "freeFunction")
        (nodeFn { kind := "function", name := some "f", params := [], visibility := some "internal", body := some [] })) =
      .ok "function f() internal {}".toList := by decide +kernel

/-- **C56: counterexample.** `a[1:2]` loses its brackets and its colon, an array literal gets round brackets, and
nothing is printed for `()`. -/
theorem C56_brackets_counterexample :
    printText true (SolNode.mk "IndexRangeAccess" [("baseExpression", node (.leaf "a")), ("endExpression", node (.leaf "2")),
        ("startExpression", node (.leaf "1"))]) = .ok "a21".toList ∧
      printText true (SolNode.mk "TupleExpression" [("components", .arr [node (.leaf "a"), node (.leaf "b")]),
        ("isInlineArray", .bool true)]) = .ok "(a, b)".toList ∧
      printText true (SolNode.mk "TupleExpression" [("components", .arr []), ("isInlineArray", .bool false)]) = .ok [] := by
  decide +kernel

/-- **C56: counterexample.** Documentation that contains the end of a comment ends the comment in which it is printed;
the rest of it is read as program text. -/
theorem C56_documentation_counterexample :
    printText true (nodeMember (.state { type := .elem "uint256", name := some "x" } (some "see a*/b"))) =
        .ok "/**\n * see a*/b\n */\nuint256 x".toList ∧
      SolGrammar.tokens "/**\n * see a*/b\n */\nuint256 x".toList = ["b", "*", "/", "uint256", "x"] := by decide +kernel

/-- A `try` without results. -/
def tryWithout : Stmt := .try_ (.call (.leaf "f") []) [] [] [.clause none none []]

/-- **C56: counterexample.** A `try` whose call has no results is printed with `returns`, which needs parameters. -/
theorem C56_try_counterexample :
    ShowsStmt tryWithout (nodeStmt tryWithout) ∧
      printText true (nodeStmt tryWithout) = .ok "try f() returns {} catch {} ".toList ∧
      SolGrammar.tokens "try f() returns {} catch {} ".toList = ["try", "f", "(", ")", "returns", "{", "}", "catch", "{", "}"] ∧
      tryWithout.toks = ["try", "f", "(", ")", "{", "}", "catch", "{", "}"] :=
  ⟨shows_nodeStmt _ (by simp [tryWithout, stmtUsual, stmtsUsual]), by decide +kernel, by decide +kernel, by decide +kernel⟩

/-- **C56: counterexample.** In assembly, a declaration without value is printed with `:=`, and several results of a
function are printed in parentheses.  Neither is allowed. -/
theorem C56_assembly_counterexample :
    printText true (nodeYul (.let_ ["x"] none)) = .ok "let x := ".toList ∧
      SolGrammar.tokens "let x := ".toList ≠ YulStmt.toks (.let_ ["x"] none) ∧
      printText true (nodeYul (.function "f" [] ["a", "b"] [])) = .ok "function f() -> (a, b) {}".toList ∧
      SolGrammar.tokens "function f() -> (a, b) {}".toList ≠ YulStmt.toks (.function "f" [] ["a", "b"] []) := by decide +kernel

/-- **C56: counterexample.** A list of functions after `using` is printed without the functions, and `*` is lost. -/
theorem C56_using_counterexample :
    printText true (SolNode.mk "UsingForDirective"
        [("functionList", .arr [SolNode.mk "" [("function", nodeName ["f"])]]), ("global", .bool false),
         ("typeName", nodeTy (.elem "uint256"))]) = .ok "using {\n    \n} for uint256;".toList ∧
      printText true (SolNode.mk "UsingForDirective" [("global", .bool false), ("libraryName", nodeName ["L"])]) =
        .ok "using L for ;".toList := by decide +kernel

/-- A constant. -/
def constantOne : Var := { type := .elem "uint256", constant := true, name := some "X", value := some (.leaf "1") }

/-- **C56: counterexample.** A constant outside of contracts is printed without the semicolon that has to follow. -/
theorem C56_file_constant_counterexample :
    ShowsVar constantOne (nodeVar constantOne) ∧
      printText true (SolNode.mk "SourceUnit" [("nodes", .arr [nodeVar constantOne])]) =
        .ok "uint256 constant X = 1\n\n".toList :=
  ⟨shows_nodeVar _ ⟨by simp [constantOne], by simp [constantOne], by simp [constantOne]⟩, by decide +kernel⟩

/-- The type `function() external view returns (uint256)`. -/
def functionType : Json :=
  SolNode.mk "FunctionTypeName" [("parameterTypes", SolNode.mk "ParameterList" [("parameters", .arr [])]),
    ("returnParameterTypes", SolNode.mk "ParameterList" [("parameters", .arr [nodeVar { type := .elem "uint256", name := none }])]),
    ("stateMutability", .str "view"), ("visibility", .str "external")]

/-- **C56: counterexample.** The type of a function loses `view`, `pure` or `payable`, and its results, which the compiler keeps in
a field that the printer does not read. -/
theorem C56_function_type_counterexample :
    printText true functionType = .ok "function() external".toList := by decide +kernel

/-- The type `mapping(address owner => uint256 balance)`. -/
def namedMapping (keyName valueName : String) : Json :=
  SolNode.mk "Mapping" [("keyName", .str keyName), ("keyType", nodeTy (.elem "address")), ("valueName", .str valueName),
    ("valueType", nodeTy (.elem "uint256"))]

/-- **C56: counterexample.** The names of the key and the value of a mapping are lost, and with them the names of the parameters and
results of the function by which others read a public mapping. -/
theorem C56_mapping_names_counterexample :
    printText true (namedMapping "owner" "balance") = .ok "mapping(address => uint256)".toList ∧
    printText true (namedMapping "owner" "balance") = printText true (namedMapping "" "") ∧
    SolGrammar.tokens "mapping(address owner => uint256 balance)".toList ≠
      SolGrammar.tokens "mapping(address => uint256)".toList := by
  decide +kernel

/-- **C56: counterexample.** `override` of a modifier is not separated from what is before it. -/
theorem C56_modifier_override_counterexample :
    printText true (withOverride (nodeMember (.modifier "m" [] true (some [])))) = .ok "modifier m() virtualoverride {}".toList ∧
      printText true (withOverride (nodeMember (.modifier "m" [] false (some [])))) = .ok "modifier m()override {}".toList ∧
      SolGrammar.tokens "modifier m() virtualoverride {}".toList = ["modifier", "m", "(", ")", "virtualoverride", "{", "}"] := by
  decide +kernel

/-- A license that does not fit on a line. -/
def longLicense : SourceFile := { license := some (String.ofList (List.replicate 120 'x' ++ ' ' :: List.replicate 29 'y')), items := [] }

/-- **C56: counterexample.** A license that does not fit on a line is printed outside of the comment, as program text. -/
theorem C56_license_counterexample :
    ShowsFile longLicense (nodeFile longLicense) ∧
      longLicense.toks = [] ∧
      printText true (nodeFile longLicense) =
        .ok ("// SPDX-License-Identifier: \n".toList ++ List.replicate 120 'x' ++ ' ' :: List.replicate 29 'y' ++ "\n\n\n".toList) ∧
      SolGrammar.tokens ("// SPDX-License-Identifier: \n".toList ++ List.replicate 120 'x' ++ ' ' :: List.replicate 29 'y' ++ "\n\n\n".toList) =
        [String.ofList (List.replicate 120 'x'), String.ofList (List.replicate 29 'y')] :=
  ⟨shows_file _ (by simp [longLicense]), by decide +kernel, by decide +kernel, by decide +kernel⟩

end SolPrint
end Mutagenyx
