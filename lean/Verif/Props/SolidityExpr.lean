import Verif.Proofs.SolidityExpr
import Verif.Spec.DemoNodes

/-!
# Printed Solidity expressions are read as the expressions they show (property C49)
-/

namespace Mutagenyx
namespace SolPrint

open NodePrinter SolGrammar Printer

/-- **C49 for Solidity.** The text printed for an expression is read as that expression, whatever its size, if
operands that need parentheses have them in the tree, `-` does not stand before another `-`, and the characters of
string literals need no escapes (`Plain`).
Missing: other trees, which mutations make, and `-` before `-`; for both there are counterexamples; string literals
with escapes, `hex` and `unicode` literals, slices `a[i:j]` (see the counterexample), and expressions whose type is a function type. -/
theorem C49_solidity_read_back_partial (checks : Bool) (e : Expr) (node : Json) (h : Shows e node) (hp : Plain e) :
    ∃ text, printText checks node = .ok text ∧ SolGrammar.read text = some e := by
  obtain ⟨text, h1, h2⟩ := printText_of (p_expr (m := ⟨checks, false⟩) h (legible_of_plain _ hp))
  exact ⟨text, h1, by simp only [SolGrammar.read, h2, readExpr_strE hp]⟩

/-- **C49 for Solidity.** Different expressions are printed differently, with the same restriction. -/
theorem C49_solidity_distinct_partial (checks : Bool) (e f : Expr) (n m : Json) (hn : Shows e n) (hm : Shows f m)
    (he : Plain e) (hf : Plain f) (hne : e ≠ f) : printText checks n ≠ printText checks m := by
  obtain ⟨t, h1, h2⟩ := C49_solidity_read_back_partial checks e n hn he
  obtain ⟨u, h3, h4⟩ := C49_solidity_read_back_partial checks f m hm hf
  intro h
  rw [h1, h3] at h
  cases h
  rw [h2] at h4
  cases h4
  exact hne rfl

/-! ### The hypotheses are satisfiable -/

/-- A node that stands for the type behind `new`. -/
def nodeNew (p : List String) : Nat → Json
  | 0 => SolNode.mk "UserDefinedTypeName" [("pathNode", SolNode.mk "IdentifierPath" [("name", .str (dotted p))])]
  | n + 1 => SolNode.mk "ArrayTypeName" [("baseType", nodeNew p n)]

mutual
/-- A node that stands for the expression. -/
def node : Expr → Json
  | .leaf t => SolNode.ident t
  | .unit n u => SolNode.mk "Literal" [("kind", .str "number"), ("subdenomination", .str u), ("value", .str n)]
  | .str t => SolNode.mk "Literal" [("kind", .str "string"), ("value", .str t)]
  | .new_ p n => SolNode.mk "NewExpression" [("typeName", nodeNew p n)]
  | .hole => .null
  | .tuple es => SolNode.tuple (nodes es)
  | .emptyIndex e => SolNode.mk "IndexAccess" [("baseExpression", node e)]
  | .named f ns args => SolNode.mk "FunctionCall"
    [("arguments", .arr (nodes args)), ("expression", node f), ("names", .arr (ns.map .str)), ("tryCall", .bool false)]
  | .options f ns args => SolNode.mk "FunctionCallOptions"
    [("expression", node f), ("names", .arr (ns.map .str)), ("options", .arr (nodes args))]
  | .paren e => SolNode.tuple [node e]
  | .member e id => SolNode.mk "MemberAccess" [("expression", node e), ("memberName", .str id)]
  | .index e i => SolNode.mk "IndexAccess" [("baseExpression", node e), ("indexExpression", node i)]
  | .call f args => SolNode.mk "FunctionCall"
    [("arguments", .arr (nodes args)), ("expression", node f), ("names", .arr []), ("tryCall", .bool false)]
  | .post e u => SolNode.mk "UnaryOperation"
    [("operator", .str u.text), ("prefix", .bool false), ("subExpression", node e)]
  | .pre u e => SolNode.mk "UnaryOperation"
    [("operator", .str u.text), ("prefix", .bool true), ("subExpression", node e)]
  | .bin l o r =>
    if o.level = 1 then
      SolNode.mk "Assignment" [("leftHandSide", node l), ("operator", .str o.text), ("rightHandSide", node r)]
    else SolNode.bin (node l) o.text (node r)
  | .cond c a b => SolNode.mk "Conditional"
    [("condition", node c), ("falseExpression", node b), ("trueExpression", node a)]
/-- Nodes that stand for the expressions. -/
def nodes : List Expr → List Json
  | [] => []
  | e :: es => node e :: nodes es
end

theorem tokens_type : Json.pointerTokens (Json.jsonPath "nodeType") = some ["nodeType"] := by decide
theorem tokens_name : Json.pointerTokens (Json.jsonPath "name") = some ["name"] := by decide
theorem tokens_member : Json.pointerTokens (Json.jsonPath "memberName") = some ["memberName"] := by decide
theorem tokens_operatorKey : Json.pointerTokens (Json.jsonPath "operator") = some ["operator"] := by decide
theorem tokens_prefix : Json.pointerTokens (Json.jsonPath "prefix") = some ["prefix"] := by decide
theorem tokens_names : Json.pointerTokens (Json.jsonPath "names") = some ["names"] := by decide
theorem tokens_tryCall : Json.pointerTokens (Json.jsonPath "tryCall") = some ["tryCall"] := by decide

theorem tokens_kind : Json.pointerTokens (Json.jsonPath "kind") = some ["kind"] := by decide
theorem tokens_value : Json.pointerTokens (Json.jsonPath "value") = some ["value"] := by decide
theorem tokens_unit : Json.pointerTokens (Json.jsonPath "subdenomination") = some ["subdenomination"] := by decide
theorem tokens_arguments : Json.pointerTokens (Json.jsonPath "arguments") = some ["arguments"] := by decide
theorem tokens_options : Json.pointerTokens (Json.jsonPath "options") = some ["options"] := by decide

/-- Compute the fields of such nodes. -/
macro "fields" "[" ts:Lean.Parser.Tactic.simpLemma,* "]" : tactic =>
  `(tactic| simp [Shows, node, IsA, SolNode.ident, SolNode.tuple, SolNode.bin, SolNode.mk, Json.ofFields, Json.objInsert,
      Json.getStrForKey, Json.getArrayForKey, Json.getBoolForKey, Json.get?, Json.field?, Json.pointer, tokens_type,
      tokens_name, tokens_member, tokens_operatorKey, tokens_prefix, tokens_names, tokens_tryCall, tokens_kind,
      tokens_value, tokens_unit, tokens_arguments, tokens_options, Json.follow, Json.step, Json.objGet, Json.asStr,
      Json.asArray, Json.asBool, $ts,*])

theorem shows_new (p : List String) : (n : Nat) → ShowsNew p n (nodeNew p n)
  | 0 => by fields [ShowsNew, nodeNew]
  | n + 1 => by
    have ih := shows_new p n
    fields [ShowsNew, nodeNew, ih]

mutual
theorem shows_node : (e : Expr) → Shows e (node e)
  | .leaf t => by fields []
  | .unit n u => by fields []
  | .str t => by fields []
  | .new_ p n => by fields [shows_new p n]
  | .hole => by fields []
  | .tuple es => by fields [shows_nodes es]
  | .emptyIndex e => by fields [shows_node e]
  | .named f ns args => by fields [shows_node f, shows_nodes args]
  | .options f ns args => by fields [shows_node f, shows_nodes args]
  | .paren e => by fields [shows_node e]
  | .member e id => by fields [shows_node e]
  | .index e i => by fields [shows_node e, shows_node i]
  | .call f args => by fields [shows_node f, shows_nodes args]
  | .post e u => by fields [shows_node e]
  | .pre u e => by fields [shows_node e]
  | .bin l o r => by
    simp only [Shows, node]
    by_cases hb : o.level = 1 <;> fields [hb, shows_node l, shows_node r]
  | .cond c a b => by fields [shows_node c, shows_node a, shows_node b]
theorem shows_nodes : (es : List Expr) → ShowAll es (nodes es)
  | [] => by simp [ShowAll, nodes]
  | e :: es => by simp [ShowAll, nodes, shows_node e, shows_nodes es]
end

/-- An expression with all kinds of grouping. -/
def sample : Expr :=
  .bin (.index (.leaf "x") (.post (.leaf "i") .inc)) .setAdd
    (.cond (.bin (.pre .not (.leaf "p")) .or_ (.bin (.leaf "a") .lt (.pre .neg (.leaf "7"))))
      (.bin (.bin (.leaf "a") .sub (.bin (.leaf "b") .mul (.leaf "c"))) .sub (.bin (.leaf "d") .exp (.leaf "e")))
      (.call (.member (.leaf "msg") "f") [.bin (.paren (.bin (.leaf "a") .add (.leaf "b"))) .mul (.leaf "2"), .leaf "y"]))

/-- It meets the hypotheses, and this is how it is printed. -/
example : Shows sample (node sample) ∧ Plain sample ∧
    printText true (node sample)
      = .ok "x[i++] += !p || a < -7 ? a - b * c - d ** e : msg.f((a + b) * 2, y)".toList := by
  refine ⟨shows_node _, ?_, by decide +kernel⟩
  simp only [sample, Plain, PlainAll]
  decide

/-- An expression with strings, units, tuples, call options, named arguments and `new`. -/
def sampleCall : Expr :=
  .bin (.tuple [.leaf "x", .hole, .leaf "y"]) .set
    (.tuple [.call (.options (.new_ ["L", "C"] 0) ["salt", "value"] [.call (.leaf "bytes32") [.str "a // b"], .unit "1" "ether"])
      [.call (.new_ ["uint"] 1) [.leaf "3"]],
      .hole, .named (.member (.leaf "a") "f") ["to", "n"] [.call (.leaf "payable") [.leaf "q"], .emptyIndex (.leaf "uint")]])

/-- It meets the hypotheses, and this is how it is printed. -/
example : Shows sampleCall (node sampleCall) ∧ Plain sampleCall ∧
    printText true (node sampleCall)
      = .ok "(x,, y) = (new L.C{salt: bytes32(\"a // b\"), value: 1 ether}(new uint[](3)),, a.f({\n    to: payable(q),\n    n: uint[]\n}))".toList := by
  refine ⟨shows_node _, ?_, by decide +kernel⟩
  simp only [sampleCall, Plain, PlainAll, PlainPlaces]
  simp only [reduceCtorEq, false_or, true_or, List.length]
  decide

/-! ### Counterexamples -/

/-- **C49: counterexample.** There is no printer for slices: `a[1:2]` is printed as `a21`, like the name `a21`. -/
theorem C49_solidity_slice_counterexample :
    printText true (SolNode.mk "IndexRangeAccess" [("baseExpression", node (.leaf "a")), ("endExpression", node (.leaf "2")),
      ("startExpression", node (.leaf "1"))]) = .ok "a21".toList ∧
    printText true (node (.leaf "a21")) = .ok "a21".toList := by decide +kernel

/-- **C49: counterexample.** The product of `a + b` and `c` is printed as `a + b * c`, like the sum of `a` and
`b * c`. -/
theorem C49_solidity_grouping_counterexample : ∃ e f : Expr, e ≠ f ∧ printText true (node e) = .ok "a + b * c".toList ∧
    printText true (node f) = .ok "a + b * c".toList :=
  ⟨.bin (.bin (.leaf "a") .add (.leaf "b")) .mul (.leaf "c"), .bin (.leaf "a") .add (.bin (.leaf "b") .mul (.leaf "c")),
    (by intro h; cases h), by decide +kernel, by decide +kernel⟩

/-- **C49: counterexample.** A mutation makes such a tree: in `a * b + c`, which is printed as it is read, the
operator mutation that changes `+` to `**` makes the power of `a * b` and `c`, and what is printed is read as the
product of `a` and `b ** c`. -/
theorem C49_solidity_mutant_counterexample : ∃ (e e' : Expr) (m : Mutator ListRand) (r r' : ListRand)
    (res : MutatorResult) (c : Option Json), Plain e ∧
    Solidity.mutatorFor DemoNodes.env .arithmeticBinaryOp = some m ∧ m.isMutable (node e) = true ∧
    m.mutate (node e) r = .ok (node e', res, c, r') ∧ printText true (node e') = .ok "a * b ** c".toList ∧
    (SolGrammar.read "a * b ** c".toList).map Expr.show ≠ some e'.show := by
  have h : DemoNodes.run (Solidity.mutatorFor DemoNodes.env .arithmeticBinaryOp)
      (node (.bin (.bin (.leaf "a") .mul (.leaf "b")) .add (.leaf "c"))) [5]
      = some (true, some (node (.bin (.bin (.leaf "a") .mul (.leaf "b")) .exp (.leaf "c")))) := by decide +kernel
  obtain ⟨m, res, c, r', h1, h2, h3⟩ := DemoNodes.run_ok h
  exact ⟨_, _, m, _, r', res, c, by simp only [Plain]; decide, h1, h2, h3, by decide +kernel, by decide +kernel⟩

/-- **C49: counterexample.** The same for exchanged operands: `a - b - c` becomes `c` minus the difference of
`a` and `b`, and what is printed, `c - a - b`, is read differently. -/
theorem C49_solidity_swap_counterexample : ∃ (e e' : Expr) (m : Mutator ListRand) (r r' : ListRand)
    (res : MutatorResult) (c : Option Json), Plain e ∧
    Solidity.mutatorFor DemoNodes.env .swapOperatorArguments = some m ∧ m.isMutable (node e) = true ∧
    m.mutate (node e) r = .ok (node e', res, c, r') ∧ printText true (node e') = .ok "c - a - b".toList ∧
    (SolGrammar.read "c - a - b".toList).map Expr.show ≠ some e'.show := by
  have h : DemoNodes.run (Solidity.mutatorFor DemoNodes.env .swapOperatorArguments)
      (node (.bin (.bin (.leaf "a") .sub (.leaf "b")) .sub (.leaf "c"))) []
      = some (true, some (node (.bin (.leaf "c") .sub (.bin (.leaf "a") .sub (.leaf "b"))))) := by decide +kernel
  obtain ⟨m, res, c, r', h1, h2, h3⟩ := DemoNodes.run_ok h
  exact ⟨_, _, m, _, r', res, c, by simp only [Plain]; decide, h1, h2, h3, by decide +kernel, by decide +kernel⟩

/-- **C49: counterexample.** `- -a` is printed as `--a`, which decrements `a`. -/
theorem C49_solidity_minus_counterexample : ∃ e : Expr, printText true (node e) = .ok "--a".toList ∧
    e.show = "(- (- a))" ∧ (SolGrammar.read "--a".toList).map Expr.show = some "(-- a)" :=
  ⟨.pre .neg (.pre .neg (.leaf "a")), by decide +kernel, by decide +kernel, by decide +kernel⟩

end SolPrint
end Mutagenyx
