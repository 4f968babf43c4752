import Verif.Spec.VyperGrammar
import Verif.Model.VyperPrinter
import Verif.Proofs.VyperPrinter

/-!
# Vyper nodes without a printer of their own (property C74)

For a node of a kind that `printer_for` (`vyper/pretty_printer.rs:1564-1633`) does not know, only the nodes below it are
printed, with nothing before, between and after them.
-/

namespace Mutagenyx
namespace VyPrint

open NodePrinter

/-- The kinds of nodes that have a printer. -/
def printedKinds : List String := ["Name", "VariableDecl", "Subscript", "Index", "Tuple", "FunctionDef", "arguments", "arg",
  "Assign", "Attribute", "AugAssign", "Int", "Decimal", "BinOp", "BoolOp", "Compare", "Assert", "Str", "Module", "AnnAssign",
  "Expr", "Call", "NameConstant", "UnaryOp", "InterfaceDef", "StructDef", "For", "List", "If", "Break", "Continue", "Pass",
  "Return", "Raise", "Import", "ImportFrom", "EventDef", "Log", "Comment", "And", "Or", "keyword", "Bytes", "Dict", "Hex",
  "EnumDef"]

theorem layout_unprinted (env : PrintEnv) (s : PrintSettings) (n : Json)
    (h : ∀ t ∈ printedKinds, n.getStrForKey "ast_type" ≠ some t) : layout env s n = { visitChildren := true } := by
  unfold layout
  cases ht : n.getStrForKey "ast_type" with
  | none => rfl
  | some t =>
    have h' : t ∉ printedKinds := fun hm => h t hm ht
    simp only [printedKinds, List.mem_cons, List.not_mem_nil, or_false, not_or] at h'
    obtain ⟨_, _, _, _, _, _, _, _, _, _, _, _, _, _, _, _, _, _, _, _, _, _, _, _, _, _, _, _, _, _, _, _, _, _, _, _,
      _, _, _, _, _, _, _, _, _, _⟩ := h'
    simp only [*, if_false]

/-- **C74, where it fails, in general.** A node of any other kind is printed as the nodes below it, one right behind
the other. -/
theorem C74_unprinted_counterexample (env : PrintEnv) (s : PrintSettings) (n : Json)
    (h : ∀ t ∈ printedKinds, n.getStrForKey "ast_type" ≠ some t) :
    printOps env s n = n.children.flatMap (printOps env s) := by
  unfold printOps
  rw [ops_eq (good_layout env), pieces_eq, layout_unprinted env s n h]
  simp only [around, List.nil_append, List.append_nil, if_true]
  induction n.children with
  | nil => rfl
  | cons x xs ih => rw [List.flatMap_cons, expand_append, ih, List.flatMap_cons, ← ops_eq (good_layout env)]

/-- A name. -/
def nameNode (x : String) : Json := .obj [("ast_type", .str "Name"), ("id", .str x)]

/-- **C74: counterexample.** The declaration `implements: ERC20` is printed as `ERC20`, like a statement that is just
that name. -/
theorem C74_implements_counterexample : ∃ text,
    printText ⟨true, fun _ => ""⟩ (.obj [("ast_type", .str "Module"), ("body", .arr [
      .obj [("ast_type", .str "ImplementsDecl"), ("annotation", nameNode "ERC20")]])]) = .ok text ∧
    printText ⟨true, fun _ => ""⟩ (.obj [("ast_type", .str "Module"), ("body", .arr [
      .obj [("ast_type", .str "Expr"), ("value", nameNode "ERC20")]])]) = .ok text :=
  ⟨"ERC20\n\n".toList, by decide +kernel, by decide +kernel⟩

/-- **C74: counterexample.** The expression `b if a else c` is printed as the name `bca`, whatever the order of the keys one
name. -/
theorem C74_conditional_counterexample : ∃ text,
    printText ⟨true, fun _ => ""⟩ (.obj [("ast_type", .str "IfExp"), ("body", nameNode "b"), ("orelse", nameNode "c"),
      ("test", nameNode "a")]) = .ok text ∧ printText ⟨true, fun _ => ""⟩ (nameNode "bca") = .ok text :=
  ⟨"bca".toList, by decide +kernel, by decide +kernel⟩

/-- **C74: counterexample.** The calls `extcall f()` and `staticcall f()` are both printed as `f()`. -/
theorem C74_extcall_counterexample : ∃ text,
    printText ⟨true, fun _ => ""⟩ (.obj [("ast_type", .str "ExtCall"), ("value", .obj [("ast_type", .str "Call"),
      ("func", nameNode "f"), ("args", .arr []), ("keywords", .arr [])])]) = .ok text ∧
    printText ⟨true, fun _ => ""⟩ (.obj [("ast_type", .str "StaticCall"), ("value", .obj [("ast_type", .str "Call"),
      ("func", nameNode "f"), ("args", .arr []), ("keywords", .arr [])])]) = .ok text :=
  ⟨"f()".toList, by decide +kernel, by decide +kernel⟩

/-- **C74: counterexample.** A declaration `flag F` with the members `A` and `B` is printed as `AB`. -/
theorem C74_flag_counterexample :
    printText ⟨true, fun _ => ""⟩ (.obj [("ast_type", .str "FlagDef"), ("name", .str "F"), ("body", .arr [
      .obj [("ast_type", .str "Expr"), ("value", nameNode "A")],
      .obj [("ast_type", .str "Expr"), ("value", nameNode "B")]])]) = .ok "AB".toList := by decide +kernel

end VyPrint
end Mutagenyx
