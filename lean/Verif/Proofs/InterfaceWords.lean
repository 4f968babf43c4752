import Verif.Proofs.VyperCalls
import Verif.Proofs.Mutators

/-!
# How the word of a function of an interface is printed
-/

namespace Mutagenyx
namespace VyPrint
open NodePrinter VyGrammar Printer

/-- The word is printed as it is. -/
theorem printText_word {env : PrintEnv} {w : String} (hw : w ∈ ["view", "nonpayable", "payable"]) {b v : Json}
    (h1 : IsVyperKind "Expr" b) (h2 : b.field "value" = some v) (h3 : IsVyperKind "Name" v) (h4 : TextField "id" v w) :
    printText env b = .ok w.toList := by
  have hb : b.getStrForKey "ast_type" = some "Expr" := (getStr_iff (by decide) (textField_isObj h1)).2 h1
  have hs : Shows (.leaf w) v :=
    Or.inl ⟨(getStr_iff (by decide) (textField_isObj h3)).2 h3, (getStr_iff (by decide) (textField_isObj h4)).2 h4⟩
  have ho : printOps env {} b = word w := by
    rw [printOps_of (body := field ({} : PrintSettings) "value" b) (by simp [layout, hb])]
    pieces [(field?_eq_field "value" b).trans h2, printOps_shows env _ v {} hs, opsE]
  unfold printText
  rw [ho]
  generalize env.checks = c
  clear ho hs h4
  simp only [List.mem_cons, List.not_mem_nil, or_false] at hw
  rcases hw with rfl | rfl | rfl <;> cases c <;> decide +kernel

end VyPrint
end Mutagenyx
