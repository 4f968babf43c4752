import Verif.Proofs.VyperExpr

/-!
# Printed Vyper expressions are read as the expressions they show (property C49)
-/

namespace Mutagenyx
namespace VyPrint

open NodePrinter VyGrammar Printer

/-- **C49 for Vyper.** The text printed for an expression is read as that expression, whatever its size, if
no `not` or `~` is an operand of an operator that binds more strongly and there are no quotation marks, backslashes or
line breaks in its strings (`Plain`).  Missing: those operands,
for which there is a counterexample, and the nodes that are not printed at all (property C55). -/
theorem C49_vyper_read_back_partial (env : PrintEnv) (e : Expr) (node : Json) (h : Shows e node) (hp : Plain e)
    (hr : proper e = true) :
    ∃ text, printText env node = .ok text ∧ VyGrammar.read text = some e := by
  obtain ⟨q, text, h1, h2, h3⟩ := run_written env.checks (written_opsE e) roomy_new
  refine ⟨text, ?_, ?_⟩
  · rw [printText, printOps_shows env e node {} h, h1]
    simp only [Outcome.ok.injEq]
    rw [h2]
    rfl
  · have h4 := lexes_opsE e hp text [] h3 Lex.next_nil
    simp only [List.append_nil, Lex.tokens, Lex.emit, true_or, if_true] at h4
    simp only [VyGrammar.read, VyGrammar.tokens, h4, readExpr_strE hp hr]

/-- **C49 for Vyper.** Different expressions are printed differently, with the same restriction. -/
theorem C49_vyper_distinct_partial (env : PrintEnv) (e f : Expr) (n m : Json) (hn : Shows e n) (hm : Shows f m)
    (he : Plain e) (hf : Plain f) (hpe : proper e = true) (hpf : proper f = true) (hne : e ≠ f) : printText env n ≠ printText env m := by
  obtain ⟨t, h1, h2⟩ := C49_vyper_read_back_partial env e n hn he hpe
  obtain ⟨u, h3, h4⟩ := C49_vyper_read_back_partial env f m hm hf hpf
  intro h
  rw [h1, h3] at h
  cases h
  rw [h2] at h4
  cases h4
  exact hne rfl

/-! ### The hypotheses are satisfiable -/

mutual
/-- A node that stands for the expression. -/
def node : Expr → Json
  | .leaf t => VyNode.name t
  | .attr e id => VyNode.mk "Attribute" [("value", node e), ("attr", .str id)]
  | .str t => VyNode.mk "Str" [("value", .str t)]
  | .index e is => VyNode.mk "Subscript" [("value", node e), ("slice", VyNode.mk "Index" [("value",
      VyNode.mk "Tuple" [("elements", .arr (nodes is))])])]
  | .call f args => VyNode.mk "Call" [("func", node f), ("args", .arr (nodes args)), ("keywords", .arr [])]
  | .list es => VyNode.mk "List" [("elements", .arr (nodes es))]
  | .dict es => VyNode.mk "Dict" [("keys", .arr (keyNodes es)), ("values", .arr (valueNodes es))]
  | .named k e => VyNode.mk "keyword" [("arg", .str k), ("value", node e)]
  | .entry _ _ => .null
  | .bin l o r =>
    if o.isBool then VyNode.bool o.type [node l, node r]
    else if o.level = 4 then VyNode.compare (node l) o.type (node r)
    else VyNode.bin (node l) o.type (node r)
  | .not e => VyNode.unary "Not" (node e)
  | .inv e => VyNode.unary "Invert" (node e)
  | .neg e => VyNode.mk "Decimal" [("value", .str ("-" ++ numberText e))]
/-- Nodes that stand for the expressions. -/
def nodes : List Expr → List Json
  | [] => []
  | e :: es => node e :: nodes es
/-- Nodes that stand for the keys of entries. -/
def keyNodes : List Expr → List Json
  | [] => []
  | .entry k _ :: es => node k :: keyNodes es
  | _ :: es => keyNodes es
/-- Nodes that stand for the values of entries. -/
def valueNodes : List Expr → List Json
  | [] => []
  | .entry _ v :: es => node v :: valueNodes es
  | _ :: es => valueNodes es
end

mutual
/-- There are entries just where they belong. -/
def formed : Expr → Bool
  | .leaf _ => true
  | .str _ => true
  | .attr e _ => formed e
  | .index e is => formed e && formedAll is
  | .call f args => formed f && formedAll args
  | .list es => formedAll es
  | .dict es => formedEntries es
  | .named _ e => formed e
  | .entry _ _ => false
  | .bin l _ r => formed l && formed r
  | .not e => formed e
  | .inv e => formed e
  | .neg e => isNumber e
/-- In all of them. -/
def formedAll : List Expr → Bool
  | [] => true
  | e :: es => formed e && formedAll es
/-- They are entries. -/
def formedEntries : List Expr → Bool
  | [] => true
  | .entry k v :: es => formed k && formed v && formedEntries es
  | _ => false
end

theorem tokens_ast : Json.pointerTokens (Json.jsonPath "ast_type") = some ["ast_type"] := by decide
theorem tokens_id : Json.pointerTokens (Json.jsonPath "id") = some ["id"] := by decide
theorem tokens_attr : Json.pointerTokens (Json.jsonPath "attr") = some ["attr"] := by decide

theorem tokens_arg : Json.pointerTokens (Json.jsonPath "arg") = some ["arg"] := by decide
theorem tokens_value : Json.pointerTokens (Json.jsonPath "value") = some ["value"] := by decide

set_option linter.unusedSimpArgs false in
mutual
theorem shows_node : (e : Expr) → formed e = true → Shows e (node e)
  | .leaf t, _ => by
    simp [Shows, node, IsA, VyNode.name, VyNode.mk, Json.ofFields, Json.objInsert, Json.getStrForKey, Json.get?, Json.field?,
      Json.pointer, tokens_ast, tokens_id, tokens_attr, tokens_arg, tokens_value, Json.follow, Json.step, Json.objGet, Json.asStr]
  | .str t, _ => by
    simp [Shows, node, IsA, VyNode.mk, Json.ofFields, Json.objInsert, Json.getStrForKey, Json.get?, Json.field?,
      Json.pointer, tokens_ast, tokens_id, tokens_attr, tokens_arg, tokens_value, Json.follow, Json.step, Json.objGet, Json.asStr]
  | .attr e id, h => by
    simp only [formed, Bool.and_eq_true] at h
    simp [Shows, node, IsA, VyNode.mk, Json.ofFields, Json.objInsert, Json.getStrForKey, Json.get?, Json.field?,
      Json.pointer, tokens_ast, tokens_id, tokens_attr, tokens_arg, tokens_value, Json.follow, Json.step, Json.objGet, Json.asStr, shows_node e h]
  | .index e is, h => by
    simp only [formed, Bool.and_eq_true] at h
    simp [Shows, node, IsA, VyNode.mk, Json.ofFields, Json.objInsert, Json.getStrForKey, Json.get?, Json.field?,
      Json.pointer, tokens_ast, tokens_id, tokens_attr, tokens_arg, tokens_value, Json.follow, Json.step, Json.objGet, Json.asStr, shows_node e h.1, shows_nodes is h.2]
  | .call f args, h => by
    simp only [formed, Bool.and_eq_true] at h
    have h1 := shows_nodes args h.2
    simp [Shows, node, IsA, VyNode.mk, Json.ofFields, Json.objInsert, Json.getStrForKey, Json.get?, Json.field?,
      Json.pointer, tokens_ast, tokens_id, tokens_attr, tokens_arg, tokens_value, Json.follow, Json.step, Json.objGet, Json.asStr, shows_node f h.1]
    exact h1
  | .list es, h => by
    simp only [formed, Bool.and_eq_true] at h
    simp [Shows, node, IsA, VyNode.mk, Json.ofFields, Json.objInsert, Json.getStrForKey, Json.get?, Json.field?,
      Json.pointer, tokens_ast, tokens_id, tokens_attr, tokens_arg, tokens_value, Json.follow, Json.step, Json.objGet, Json.asStr, shows_nodes es h]
  | .dict es, h => by
    simp only [formed] at h
    have h1 := shows_entries es h
    simp [Shows, node, IsA, VyNode.mk, Json.ofFields, Json.objInsert, Json.getStrForKey, Json.get?, Json.field?,
      Json.pointer, tokens_ast, tokens_id, tokens_attr, tokens_arg, tokens_value, Json.follow, Json.step, Json.objGet, Json.asStr, h1]
  | .named k e, h => by
    simp only [formed, Bool.and_eq_true] at h
    simp [Shows, node, IsA, VyNode.mk, Json.ofFields, Json.objInsert, Json.getStrForKey, Json.get?, Json.field?,
      Json.pointer, tokens_ast, tokens_id, tokens_attr, tokens_arg, tokens_value, Json.follow, Json.step, Json.objGet, Json.asStr, shows_node e h]
  | .entry k v, h => by simp [formed] at h
  | .bin l o r, h => by
    simp only [formed, Bool.and_eq_true] at h
    simp only [Shows, node]
    by_cases hb : o.isBool = true
    · simp [hb, IsA, VyNode.bool, VyNode.oper, VyNode.mk, Json.ofFields, Json.objInsert, Json.getStrForKey, Json.get?, Json.field?,
        Json.pointer, tokens_ast, Json.follow, Json.step, Json.objGet, Json.asStr]
      exact ⟨_, _, ⟨rfl, rfl⟩, shows_node l h.1, shows_node r h.2⟩
    · by_cases hc : o.level = 4
      · simp [hb, hc, IsA, VyNode.compare, VyNode.oper, VyNode.mk, Json.ofFields, Json.objInsert, Json.getStrForKey, Json.get?,
          Json.field?, Json.pointer, tokens_ast, Json.follow, Json.step, Json.objGet, Json.asStr, shows_node l h.1,
          shows_node r h.2]
      · simp [hb, hc, IsA, VyNode.bin, VyNode.oper, VyNode.mk, Json.ofFields, Json.objInsert, Json.getStrForKey, Json.get?,
          Json.field?, Json.pointer, tokens_ast, Json.follow, Json.step, Json.objGet, Json.asStr, shows_node l h.1,
          shows_node r h.2]
  | .not e, h => by
    simp only [formed] at h
    simp [Shows, node, IsA, VyNode.unary, VyNode.oper, VyNode.mk, Json.ofFields, Json.objInsert, Json.getStrForKey, Json.get?, Json.field?,
      Json.pointer, tokens_ast, tokens_id, tokens_attr, tokens_arg, tokens_value, Json.follow, Json.step, Json.objGet, Json.asStr, shows_node e h]
  | .inv e, h => by
    simp only [formed] at h
    simp [Shows, node, IsA, VyNode.unary, VyNode.oper, VyNode.mk, Json.ofFields, Json.objInsert, Json.getStrForKey, Json.get?, Json.field?,
      Json.pointer, tokens_ast, tokens_id, tokens_attr, tokens_arg, tokens_value, Json.follow, Json.step, Json.objGet, Json.asStr, shows_node e h]
  | .neg e, h => by
    simp only [formed] at h
    obtain ⟨t, rfl, hl⟩ := isNumber_leaf h
    simp [Shows, node, numberText, IsA, VyNode.mk, Json.ofFields, Json.objInsert, Json.getStrForKey, Json.get?, Json.field?,
      Json.pointer, tokens_ast, tokens_value, Json.follow, Json.step, Json.objGet, Json.asStr]
theorem shows_nodes : (es : List Expr) → formedAll es = true → ShowAll es (nodes es)
  | [], _ => by simp [ShowAll, nodes]
  | e :: es, h => by
    simp only [formedAll, Bool.and_eq_true] at h
    simp [ShowAll, nodes, shows_node e h.1, shows_nodes es h.2]
theorem shows_entries : (es : List Expr) → formedEntries es = true → ShowEntries es (keyNodes es) (valueNodes es)
  | [], _ => by simp [ShowEntries, keyNodes, valueNodes]
  | .entry k v :: es, h => by
    simp only [formedEntries, Bool.and_eq_true] at h
    simp [ShowEntries, keyNodes, valueNodes, shows_node k h.1.1, shows_node v h.1.2, shows_entries es h.2]
  | .leaf _ :: _, h => by simp [formedEntries] at h
  | .str _ :: _, h => by simp [formedEntries] at h
  | .attr _ _ :: _, h => by simp [formedEntries] at h
  | .index _ _ :: _, h => by simp [formedEntries] at h
  | .call _ _ :: _, h => by simp [formedEntries] at h
  | .list _ :: _, h => by simp [formedEntries] at h
  | .dict _ :: _, h => by simp [formedEntries] at h
  | .named _ _ :: _, h => by simp [formedEntries] at h
  | .bin _ _ _ :: _, h => by simp [formedEntries] at h
  | .not _ :: _, h => by simp [formedEntries] at h
  | .inv _ :: _, h => by simp [formedEntries] at h
  | .neg _ :: _, h => by simp [formedEntries] at h
end

/-- An expression with all kinds of grouping. -/
def sample : Expr :=
  .bin (.not (.bin (.bin (.leaf "a") .add (.leaf "7")) .mult (.attr (.leaf "self") "b"))) .and_
    (.bin (.call (.leaf "f") [.inv (.leaf "x"), .neg (.leaf "2.5"), .str "y z", .named "k" (.dict [.entry (.leaf "u") (.leaf "1")])]) .notIn
      (.index (.leaf "g") [.list [], .leaf "z"]))

/-- It meets the hypotheses, and this is how it is printed. -/
example : Shows sample (node sample) ∧ Plain sample ∧
    proper sample = true ∧
    printText ⟨true, fun _ => ""⟩ (node sample)
      = .ok "not ((a + 7) * self.b) and (f(~x, -2.5, \"y z\", k={\n    u: 1\n}) not in g[[], z])".toList := by
  refine ⟨shows_node _ (by decide +kernel), ?_, by decide, by decide +kernel⟩
  simp only [sample, Plain, PlainAll]
  decide

/-! ### Counterexamples -/

/-- **C49: counterexample.** `(not a) == b` is printed as `not a == b`, which is read as `not (a == b)`. -/
theorem C49_vyper_not_counterexample : ∃ e node text shown, Shows e node ∧
    printText ⟨true, fun _ => ""⟩ node = .ok text ∧ (VyGrammar.read text).map Expr.show = some shown ∧ shown ≠ e.show :=
  ⟨.bin (.not (.leaf "a")) .eq (.leaf "b"), node (.bin (.not (.leaf "a")) .eq (.leaf "b")), "not a == b".toList,
    "(not (a==b))", shows_node _ (by decide +kernel), by decide +kernel, by decide +kernel, by decide +kernel⟩

/-- **C49: counterexample.** `(~a) ** b` is printed as `~a ** b`, which is read as `~(a ** b)`. -/
theorem C49_vyper_invert_counterexample : ∃ e node text shown, Shows e node ∧
    printText ⟨true, fun _ => ""⟩ node = .ok text ∧ (VyGrammar.read text).map Expr.show = some shown ∧ shown ≠ e.show :=
  ⟨.bin (.inv (.leaf "a")) .pow (.leaf "b"), node (.bin (.inv (.leaf "a")) .pow (.leaf "b")), "~a ** b".toList,
    "(~(a**b))", shows_node _ (by decide +kernel), by decide +kernel, by decide +kernel, by decide +kernel⟩

/-- A negative number is one node, and is printed with its sign. -/
example : Shows (.neg (.leaf "5")) (VyNode.mk "Int" [("value", .num (.int (-5)))]) ∧
    printText ⟨true, fun _ => ""⟩ (VyNode.mk "Int" [("value", .num (.int (-5)))]) = .ok "-5".toList :=
  ⟨.inl ⟨by unfold IsA; decide +kernel, 4, by decide +kernel, congrArg Expr.leaf (by decide)⟩, by decide +kernel⟩

/-- **C49: counterexample.** `(-5) ** b` is printed as `-5 ** b`, which is read as `-(5 ** b)`. -/
theorem C49_vyper_negative_counterexample : ∃ e node text shown, Shows e node ∧
    printText ⟨true, fun _ => ""⟩ node = .ok text ∧ (VyGrammar.read text).map Expr.show = some shown ∧ shown ≠ e.show := by
  refine ⟨.bin (.neg (.leaf "5")) .pow (.leaf "b"),
    VyNode.bin (VyNode.mk "Int" [("value", .num (.int (-5)))]) "Pow" (VyNode.name "b"), "-5 ** b".toList,
    "(-(5**b))", ?_, by decide +kernel, by decide +kernel, by decide +kernel⟩
  have h5 : Shows (.neg (.leaf "5")) (VyNode.mk "Int" [("value", .num (.int (-5)))]) :=
    .inl ⟨by unfold IsA; decide +kernel, 4, by decide +kernel, congrArg Expr.leaf (by decide)⟩
  have hb : Shows (.leaf "b") (VyNode.name "b") := shows_node (.leaf "b") (by decide +kernel)
  simp [Shows, Operator.isBool, Operator.type, IsA, VyNode.bin, VyNode.oper, VyNode.mk, Json.ofFields, Json.objInsert,
    Json.getStrForKey, Json.get?, Json.field?, Json.pointer, tokens_ast, Json.follow, Json.step, Json.objGet, Json.asStr] at h5 hb ⊢
  exact ⟨h5, hb⟩

/-- **C49: counterexample.** `(a + b).c` is printed as `a + b.c`, which is read as `a + (b.c)`. -/
theorem C49_vyper_attribute_counterexample : ∃ e node text shown, Shows e node ∧
    printText ⟨true, fun _ => ""⟩ node = .ok text ∧ (VyGrammar.read text).map Expr.show = some shown ∧ shown ≠ e.show :=
  ⟨.attr (.bin (.leaf "a") .add (.leaf "b")) "c", node (.attr (.bin (.leaf "a") .add (.leaf "b")) "c"),
    "a + b.c".toList, "(a+(b.c))", shows_node _ (by decide +kernel), by decide +kernel, by decide +kernel,
    by decide +kernel⟩

/-- **C49: counterexample.** `(a + b)[i]` is printed as `a + b[i]`, which is read as `a + (b[i])`. -/
theorem C49_vyper_subscript_counterexample : ∃ e node text shown, Shows e node ∧
    printText ⟨true, fun _ => ""⟩ node = .ok text ∧ (VyGrammar.read text).map Expr.show = some shown ∧ shown ≠ e.show :=
  ⟨.index (.bin (.leaf "a") .add (.leaf "b")) [.leaf "i"], node (.index (.bin (.leaf "a") .add (.leaf "b")) [.leaf "i"]),
    "a + b[i]".toList, "(a+(b at i))", shows_node _ (by decide +kernel), by decide +kernel, by decide +kernel,
    by decide +kernel⟩

/-- **C49: counterexample.** A call with named arguments only, as newer compilers have it for structs, `f(k=a)`, is printed
as `f(, k=a)`, which is not an expression. -/
theorem C49_vyper_named_counterexample : ∃ text,
    printText ⟨true, fun _ => ""⟩ (VyNode.mk "Call" [("func", VyNode.name "f"), ("args", .arr []),
      ("keywords", .arr [VyNode.mk "keyword" [("arg", .str "k"), ("value", VyNode.name "a")]])]) = .ok text ∧
    VyGrammar.read text = none :=
  ⟨"f(, k=a)".toList, by decide +kernel, by
    have h : (VyGrammar.read "f(, k=a)".toList).isNone = true := by decide +kernel
    simpa using h⟩

/-- **C49: counterexample.** A call with a tuple, `f((a, b))`, is printed like the call with two arguments. -/
theorem C49_vyper_tuple_counterexample : ∃ text,
    printText ⟨true, fun _ => ""⟩ (VyNode.mk "Call" [("func", VyNode.name "f"),
      ("args", .arr [VyNode.mk "Tuple" [("elements", .arr [VyNode.name "a", VyNode.name "b"])]]), ("keywords", .arr [])])
      = .ok text ∧
    printText ⟨true, fun _ => ""⟩ (VyNode.mk "Call" [("func", VyNode.name "f"),
      ("args", .arr [VyNode.name "a", VyNode.name "b"]), ("keywords", .arr [])]) = .ok text :=
  ⟨"f(a, b)".toList, by decide +kernel, by decide +kernel⟩

/-- **C49: counterexample.** Two different expressions, `-a` and `a`, are printed the same. -/
theorem C49_vyper_same_text_counterexample :
    VyNode.unary "USub" (VyNode.name "a") ≠ VyNode.name "a" ∧
    printText ⟨true, fun _ => ""⟩ (VyNode.unary "USub" (VyNode.name "a"))
      = printText ⟨true, fun _ => ""⟩ (VyNode.name "a") := by
  decide +kernel

end VyPrint
end Mutagenyx
