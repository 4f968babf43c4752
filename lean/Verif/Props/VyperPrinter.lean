import Verif.Props.NodePrinter
import Verif.Spec.VyperExpr

/-!
# Operators and calls of printed Vyper nodes (property C55)
-/

namespace Mutagenyx
namespace VyPrint

open NodePrinter
open Vyper (symbolOf)
open VyGrammar (Operator)

/-! ## Lemmas -/

theorem printOps_of {env : PrintEnv} {s : PrintSettings} {node : Json} {body : Ps}
    (h : layout env s node = { body := body }) :
    printOps env s node = expand env.checks (printOps env) body := by
  unfold printOps
  rw [ops_eq (good_layout env), pieces_eq, h]
  simp only [around, List.nil_append, Bool.false_eq_true, if_false, List.append_nil]

/-! ## What the statements talk about -/

/-- A token. -/
def word (t : String) : List Op := [.token t.toList]

/-- The operands that the printer puts into parentheses. -/
def compound (n : Json) : Bool :=
  n.getStrForKey "ast_type" == some "BinOp" || n.getStrForKey "ast_type" == some "Compare" ||
    n.getStrForKey "ast_type" == some "BoolOp"

theorem symbolOf_type (o : Operator) (h : o.isBool = false) : symbolOf o.type = some o.text := by
  cases o <;> first | decide | cases h

/-- The calls that print a node as an operand. -/
def operand (env : PrintEnv) (s : PrintSettings) (n : Json) : List Op :=
  if compound n then word "(" ++ printOps env s n ++ word ")" else printOps env s n

theorem expand_withParens {env : PrintEnv} {s : PrintSettings} {n : Json} {t : String}
    (h : n.getStrForKey "ast_type" = some t) :
    expand env.checks (printOps env) (withParens s n) = operand env s n := by
  simp only [withParens, onStr, h, onSome, operand, compound]
  by_cases h1 : t = "BinOp"
  · simp [h1, when, expand, tok, word]
  · by_cases h2 : t = "Compare"
    · simp [h2, when, expand, tok, word]
    · by_cases h3 : t = "BoolOp"
      · simp [h3, when, expand, tok, word]
      · simp [h1, h2, h3, when, expand]

/-! ## Property C55 -/

/-- **C55, binary operators and comparisons.** What is printed is the left operand, the operator, the right
operand, with a space on either side of the operator.  Missing: the operators `//`, `<<` and `>>`, see the
counterexample. -/
theorem C55_binary_partial (env : PrintEnv) (s : PrintSettings) (node l op r : Json) (o : Operator) (tl tr : String)
    (ht : node.getStrForKey "ast_type" = some "BinOp" ∨ node.getStrForKey "ast_type" = some "Compare")
    (hl : Json.field? "left" node = some l) (hlt : l.getStrForKey "ast_type" = some tl)
    (hr : Json.field? "right" node = some r) (hrt : r.getStrForKey "ast_type" = some tr)
    (ho : Json.field? "op" node = some op) (hot : op.getStrForKey "ast_type" = some o.type)
    (hb : o.isBool = false) :
    printOps env s node = operand env s l ++ ([.space] ++ word o.text ++ [.space]) ++ operand env s r := by
  have hlay : layout env s node = { body := binOp s node } := by
    rcases ht with ht | ht <;> simp [layout, ht]
  rw [printOps_of hlay, binOp]
  simp only [onField, onStr, hl, hr, ho, hot, symbolOf_type o hb, onSome, expand_append, expand_withParens hlt,
    expand_withParens hrt]
  simp [expand, tok, sp, word]

example : printOps ⟨true, fun _ => ""⟩ {} (VyNode.bin (VyNode.bin (VyNode.name "a") "Add" (VyNode.name "b")) "Mult"
    (VyNode.name "c")) = [.token ['('], .token ['a'], .space, .token ['+'], .space, .token ['b'], .token [')'],
      .space, .token ['*'], .space, .token ['c']] := by decide +kernel

/-- **C55: counterexample.** The operators `//`, `<<`, `>>` are not printed: the operands stand next to each
other. -/
theorem C55_floor_division_counterexample : ∀ op ∈ ["FloorDiv", "LShift", "RShift"],
    printText ⟨true, fun _ => ""⟩ (VyNode.bin (VyNode.name "a") op (VyNode.name "b")) = .ok "ab".toList := by
  decide +kernel

/-- **C55, `and` and `or` with two operands.**  Missing: more operands, see the counterexample. -/
theorem C55_bool_partial (env : PrintEnv) (s : PrintSettings) (node l op r : Json) (tl tr text : String)
    (ht : node.getStrForKey "ast_type" = some "BoolOp") (hv : Json.field? "values" node = some (.arr [l, r]))
    (hlt : l.getStrForKey "ast_type" = some tl) (hrt : r.getStrForKey "ast_type" = some tr)
    (ho : Json.field? "op" node = some op)
    (hot : (op.getStrForKey "ast_type" = some "And" ∧ text = "and") ∨
      (op.getStrForKey "ast_type" = some "Or" ∧ text = "or")) :
    printOps env s node = operand env s l ++ ([.space] ++ word text ++ [.space]) ++ operand env s r := by
  have hlay : layout env s node = { body := boolOp s node } := by simp [layout, ht]
  have hop : printOps env s op = word text := by
    have hlay : layout env s op = { body := andOr op } := by
      rcases hot with ⟨h, _⟩ | ⟨h, _⟩ <;> simp [layout, h]
    rw [printOps_of hlay, andOr]
    rcases hot with ⟨h, rfl⟩ | ⟨h, rfl⟩ <;> simp [onStr, h, onSome, tok, expand, word]
  rw [printOps_of hlay, boolOp]
  simp only [onArray, field, onField, hv, ho, Json.asArray, onSome, expand_append, expand_withParens hlt,
    expand_withParens hrt]
  simp [expand, sp, hop]

example : printText ⟨true, fun _ => ""⟩ (VyNode.bool "Or" [VyNode.name "a", VyNode.bool "And" [VyNode.name "b",
    VyNode.name "c"]]) = .ok "a or (b and c)".toList := by decide +kernel

/-- **C55: counterexample.** Of `a and b and c` the third operand is not printed. -/
theorem C55_third_operand_counterexample :
    printText ⟨true, fun _ => ""⟩ (VyNode.bool "And" [VyNode.name "a", VyNode.name "b", VyNode.name "c"])
      = .ok "a and b".toList := by
  decide +kernel

/-- **C55, `not` and `~`.**  Missing: the unary minus, see the counterexample. -/
theorem C55_unary_partial (env : PrintEnv) (s : PrintSettings) (node a op : Json) (ta : String)
    (ht : node.getStrForKey "ast_type" = some "UnaryOp") (ha : Json.field? "operand" node = some a)
    (hat : a.getStrForKey "ast_type" = some ta) (ho : Json.field? "op" node = some op) :
    (op.getStrForKey "ast_type" = some "Not" →
      printOps env s node = word "not" ++ [.space] ++ operand env s a) ∧
    (op.getStrForKey "ast_type" = some "Invert" → printOps env s node = word "~" ++ operand env s a) := by
  have hlay : layout env s node = { body := unaryOp s node } := by simp [layout, ht]
  have hname : unaryName node = op.getStrForKey "ast_type" := by simp [unaryName, ho]
  rw [printOps_of hlay, unaryOp, hname]
  simp only [onField, ha, onSome, expand_append, expand_withParens hat]
  constructor
  · intro h
    simp [h, expand, when, tok, sp, word]
  · intro h
    simp [h, expand, when, tok, word]

example : printText ⟨true, fun _ => ""⟩ (VyNode.unary "Not" (VyNode.bin (VyNode.name "a") "Eq" (VyNode.name "b")))
    = .ok "not (a == b)".toList := by decide +kernel

/-- **C55: counterexample.** The unary minus is not printed. -/
theorem C55_minus_counterexample :
    printText ⟨true, fun _ => ""⟩ (VyNode.unary "USub" (VyNode.name "a")) = .ok "a".toList := by
  decide +kernel

/-- **C55, augmented assignments** with an operator that has a text. -/
theorem C55_augmented_assignment_partial (env : PrintEnv) (s : PrintSettings) (node a v op : Json) (o : Operator)
    (ht : node.getStrForKey "ast_type" = some "AugAssign") (ha : Json.field? "target" node = some a)
    (hv : Json.field? "value" node = some v) (ho : Json.field? "op" node = some op)
    (hot : op.getStrForKey "ast_type" = some o.type) (hb : o.isBool = false) :
    printOps env s node = printOps env s a ++ [.space] ++ word o.text ++ word "=" ++ [.space] ++ printOps env s v := by
  have hlay : layout env s node = { body := augAssign s node } := by simp [layout, ht]
  rw [printOps_of hlay, augAssign]
  simp [field, onField, onStr, ha, hv, ho, hot, symbolOf_type o hb, onSome, expand_append, expand, tok, sp, word]

/-- **C55: counterexample.** `a //= b` is printed as the plain assignment `a = b`. -/
theorem C55_augmented_assignment_counterexample :
    printText ⟨true, fun _ => ""⟩ (VyNode.mk "AugAssign" [("target", VyNode.name "a"), ("op", VyNode.oper "FloorDiv"),
      ("value", VyNode.name "b")]) = .ok "a = b".toList := by
  decide +kernel

/-- The calls that print the elements with commas between them. -/
def commaList (l : List (List Op)) : List Op := (word "," ++ [Op.space]).intercalate l

/-- **C55, calls.** The function, then in parentheses all arguments and then all keyword arguments, in order.
Missing: keyword arguments without other arguments, see the counterexample. -/
theorem C55_call_partial (env : PrintEnv) (s : PrintSettings) (node f : Json) (args kws : List Json)
    (ht : node.getStrForKey "ast_type" = some "Call") (hf : Json.field? "func" node = some f)
    (ha : Json.field? "args" node = some (.arr args)) (hk : Json.field? "keywords" node = some (.arr kws))
    (hne : args ≠ [] ∨ kws = []) :
    printOps env s node = printOps env s f ++ word "(" ++ commaList ((args ++ kws).map (printOps env s)) ++ word ")" := by
  have hlay : layout env s node = { body := call s node } := by simp [layout, ht]
  have harr := fun xs => C47_list_calls env.checks (layout env) s xs
  change ∀ xs, expand env.checks (printOps env) (array s xs) = commaList (xs.map (printOps env s)) at harr
  have happ : ∀ a b : List (List Op), a ≠ [] → b ≠ [] →
      commaList (a ++ b) = commaList a ++ (word "," ++ [Op.space]) ++ commaList b := by
    intro a b ha hb
    induction a with
    | nil => exact absurd rfl ha
    | cons x a ih =>
      cases a with
      | nil =>
        cases b with
        | nil => exact absurd rfl hb
        | cons y b => simp [commaList, List.intercalate]
      | cons z a =>
        have := ih (by simp)
        simp only [commaList, List.intercalate, List.cons_append, List.intersperse_cons₂, List.flatten_cons] at this ⊢
        rw [this]
        simp
  rw [printOps_of hlay, call]
  simp only [field, onField, onArray, hf, ha, hk, Json.asArray, onSome, expand_append, harr]
  cases kws with
  | nil => simp [when, expand, tok, word]
  | cons k ks =>
    have hne : args ≠ [] := by rcases hne with h | h; exact h; cases h
    rw [List.map_append, happ _ _ (by simpa using hne) (by simp)]
    simp only [List.isEmpty_cons, Bool.not_false, when, if_true, expand_append, harr]
    simp [expand, tok, sp, word]

example : printText ⟨true, fun _ => ""⟩ (VyNode.mk "Call" [("func", VyNode.name "f"), ("args", .arr [VyNode.name "a",
    VyNode.name "b"]), ("keywords", .arr [VyNode.mk "keyword" [("arg", .str "k"), ("value", VyNode.name "c")]])])
    = .ok "f(a, b, k=c)".toList := by decide +kernel

/-- **C55: counterexample.** A call with only keyword arguments starts with a comma. -/
theorem C55_keywords_only_counterexample :
    printText ⟨true, fun _ => ""⟩ (VyNode.mk "Call" [("func", VyNode.name "f"), ("args", .arr []),
      ("keywords", .arr [VyNode.mk "keyword" [("arg", .str "k"), ("value", VyNode.name "c")]])])
    = .ok "f(, k=c)".toList := by decide +kernel

/-! ## Property C61 -/

/-- What is printed for the parameters of a function: the first ones without default values, then the last
ones, each with its default value. -/
def parameters (env : PrintEnv) (s : PrintSettings) (plain : List Json) (withDefault : List (Json × Json)) :
    List (List Op) :=
  plain.map (printOps env s) ++ withDefault.map fun p => printOps env s p.1 ++ word "=" ++ printOps env s p.2

theorem commaList_cons (x : List Op) (l : List (List Op)) :
    commaList (x :: l) = x ++ (if l.isEmpty then [] else word "," ++ [Op.space]) ++ commaList l := by
  cases l with
  | nil => simp [commaList, List.intercalate]
  | cons y l => simp [commaList, List.intercalate]

theorem argumentLoop_defaults (env : PrintEnv) (s : PrintSettings) (first : Nat) :
    (ps : List (Json × Json)) → (i len : Nat) → first ≤ i → len = i + ps.length →
    expand env.checks (printOps env) (argumentLoop s len first i (ps.map (·.1)) (ps.map (·.2)))
      = commaList (parameters env s [] ps)
  | [], _, _, _, _ => rfl
  | p :: ps, i, len, hi, hl => by
    have ih := argumentLoop_defaults env s first ps (i + 1) len (by omega) (by simp only [List.length_cons] at hl; omega)
    simp only [List.map_cons, argumentLoop, hi, if_true, expand_append, ih, parameters, List.map_nil,
      List.nil_append, commaList_cons]
    cases ps with
    | nil => simp only [List.length_cons, List.length_nil] at hl; subst hl; simp [when, expand, tok, word]
    | cons q ps =>
      have : i < len - 1 := by simp only [List.length_cons] at hl; omega
      simp [when, this, expand, tok, sp, word]

theorem argumentLoop_plain (env : PrintEnv) (s : PrintSettings) (first : Nat) (ps : List (Json × Json)) :
    (as : List Json) → (i len : Nat) → first = i + as.length → len = i + as.length + ps.length →
    expand env.checks (printOps env) (argumentLoop s len first i (as ++ ps.map (·.1)) (ps.map (·.2)))
      = commaList (parameters env s as ps)
  | [], i, len, hf, hl => by
    simpa using argumentLoop_defaults env s first ps i len (by simp at hf; omega) (by simpa using hl)
  | a :: as, i, len, hf, hl => by
    simp only [List.length_cons] at hf hl
    have ih := argumentLoop_plain env s first ps as (i + 1) len (by omega) (by omega)
    have hi : ¬first ≤ i := by omega
    rw [List.cons_append, argumentLoop.eq_def]
    simp only [hi, if_false]
    rw [expand_append, expand_append, ih]
    simp only [parameters, List.map_cons, List.cons_append, commaList_cons]
    by_cases hlast : i < len - 1
    · have hne : (List.map (printOps env s) as ++
          ps.map fun p => printOps env s p.1 ++ word "=" ++ printOps env s p.2).isEmpty = false := by
        simp only [List.isEmpty_eq_false_iff, ne_eq, List.append_eq_nil_iff, List.map_eq_nil_iff]
        rintro ⟨rfl, rfl⟩
        simp at hl
        omega
      rw [hne]
      simp [when, hlast, expand, tok, sp, word]
    · have h1 : as = [] := List.eq_nil_of_length_eq_zero (by omega)
      have h2 : ps = [] := List.eq_nil_of_length_eq_zero (by omega)
      subst h1 h2
      simp [when, hlast, expand, parameters]

/-- **C61.** The parameters of a function are printed in order, and the default values with the last
parameters, in order: the `k`-th last default with the `k`-th last parameter. -/
theorem C61_defaults_with_last_parameters (env : PrintEnv) (s : PrintSettings) (node : Json) (plain : List Json)
    (withDefault : List (Json × Json)) (ht : node.getStrForKey "ast_type" = some "arguments")
    (ha : Json.field? "args" node = some (.arr (plain ++ withDefault.map (·.1))))
    (hd : Json.field? "defaults" node = some (.arr (withDefault.map (·.2)))) :
    printOps env s node = commaList (parameters env s plain withDefault) := by
  have hlay : layout env s node = { body := arguments env.checks s node } := by simp [layout, ht]
  rw [printOps_of hlay, arguments]
  simp only [onArray, onField, ha, hd, Json.asArray, onSome]
  cases withDefault with
  | nil =>
    have := C47_list_calls env.checks (layout env) s plain
    change expand env.checks (printOps env) (array s plain) = commaList (plain.map (printOps env s)) at this
    simp [parameters, this]
  | cons p ps =>
    have hlen : ¬(plain ++ (p :: ps).map (·.1)).length < ((p :: ps).map (·.2)).length := by
      simp only [List.length_append, List.length_map]
      omega
    simp only [List.map_cons, List.isEmpty_cons, Bool.false_eq_true, if_false] at hlen ⊢
    rw [if_neg hlen]
    have := argumentLoop_plain env s plain.length (p :: ps) plain 0 (plain.length + (p :: ps).length) (by simp) (by simp)
    simp only [List.map_cons, List.length_cons] at this
    rw [← this]
    congr 2
    · simp
    · simp

example : printText ⟨true, fun _ => ""⟩ (VyNode.mk "arguments"
    [("args", .arr [VyNode.mk "arg" [("arg", .str "a")], VyNode.mk "arg" [("arg", .str "b")],
      VyNode.mk "arg" [("arg", .str "c")]]), ("defaults", .arr [VyNode.name "x", VyNode.name "y"])])
    = .ok "a, b=x, c=y".toList := by decide +kernel

end VyPrint
end Mutagenyx
