import Std.Data.String.ToInt
import Verif.Proofs.VyperCalls
import Verif.Proofs.Mutators

/-!
# How integers of Vyper programs are printed
-/

namespace Mutagenyx
namespace VyPrint
open NodePrinter Printer

/-- A short token on an empty page is printed as it is. -/
theorem short_token {t : List Char} (h : utf8Len t ≤ 149) : ((Printer.new 4 150).writeToken t).out = t := by
  have h1 : ¬ (Printer.new 4 150).column > (Printer.new 4 150).pageWidth := by decide
  have h2 : ¬ utf8Len t > (Printer.new 4 150).pageWidth - (Printer.new 4 150).column := by
    rw [show (Printer.new 4 150).pageWidth - (Printer.new 4 150).column = 149 by decide]; omega
  have h3 : ¬ utf8Len t > (Printer.new 4 150).pageWidth := by
    rw [show (Printer.new 4 150).pageWidth = 150 by decide]; omega
  unfold writeToken
  simp only [if_neg h1, if_neg h2, if_neg h3]
  rfl

theorem utf8Len_le (t : List Char) : utf8Len t ≤ 4 * t.length := by
  induction t with
  | nil => simp
  | cons c t ih =>
    have := Char.utf8Size_le_four c
    rw [utf8Len_cons, List.length_cons]
    omega

/-- Integers of 64 bits are written with few characters. -/
theorem short_int {i : Int} (h1 : -(2 ^ 63 : Int) ≤ i) (h2 : i < 2 ^ 63) : utf8Len (toString i).toList ≤ 149 := by
  have key : ∀ n : Nat, n < 10 ^ 20 → (Nat.repr n).toList.length ≤ 20 := by
    intro n hn
    rw [String.length_toList]
    exact (Nat.length_repr_le_iff (by decide)).2 hn
  have := utf8Len_le (toString i).toList
  have hl : (toString i).toList.length ≤ 21 := by
    cases i with
    | ofNat n =>
      have := key n (by have : (n : Int) < 2 ^ 63 := h2; omega)
      exact Nat.le_succ_of_le this
    | negSucc n =>
      have := key (n + 1) (by omega)
      show ("-" ++ Nat.repr (n + 1)).toList.length ≤ 21
      rw [String.toList_append, List.length_append]
      have h : "-".toList.length = 1 := by decide
      omega
  omega

/-- What is printed for an integer. -/
theorem printText_int {env : PrintEnv} {j : Json} {n : JNum} (h1 : IsVyperKind "Int" j) (h2 : j.field "value" = some (.num n)) :
    printText env j = .ok ((Printer.new 4 150).writeToken
      (match (Json.num n).asI64 with | some i => toString i | none => env.f64 n).toList).out := by
  have hj : j.getStrForKey "ast_type" = some "Int" := (getStr_iff (by decide) (textField_isObj h1)).2 h1
  have hg : j.get? "value" = some (.num n) := by rw [Json.get?_field (by decide) (textField_isObj h1)]; exact h2
  have hi : j.getIntForKey "value" = (Json.num n).asI64 := by rw [Json.getIntForKey, hg]; rfl
  have key : printOps env {} j = [.token (match (Json.num n).asI64 with | some i => toString i | none => env.f64 n).toList] := by
    rw [printOps_of (body := intNode env j) (by simp [layout, hj])]
    unfold intNode
    rw [hi, hg]
    cases (Json.num n).asI64 <;> simp [tok, expand]
  unfold printText
  rw [key]
  rfl

end VyPrint
end Mutagenyx
