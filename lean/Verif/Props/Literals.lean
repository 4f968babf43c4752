import Verif.Proofs.Literals
import Verif.Spec.DemoVyper
import Verif.Spec.DemoNodes

/-!
# C96: integers of Vyper programs keep their values
-/

namespace Mutagenyx
namespace VyPrint
open Json

/-- The node is an integer of a Vyper program. -/
def IntegerNode (i : Int) (j : Json) : Prop := IsVyperKind "Int" j ∧ j.field "value" = some (.num (.int i))

/-- **C96, partial: integers keep their values.** The text that is printed for an integer of a program is read as that integer.
Missing: integers of 2^63 and more, see `C96_counterexample`. -/
theorem C96_partial (env : PrintEnv) {i : Int} {j : Json} (h : IntegerNode i j) (hi : -(2 ^ 63 : Int) ≤ i ∧ i < 2 ^ 63) :
    ∃ text, printText env j = .ok text ∧ (String.ofList text).toInt? = some i := by
  refine ⟨_, printText_int h.1 h.2, ?_⟩
  rw [show (Json.num (.int i)).asI64 = some i from if_pos ⟨hi.2, hi.1⟩, short_token (short_int hi.1 hi.2), String.ofList_toList]
  exact Int.toInt?_repr i

/-- The floating point number that is closest to a number between 2^63 and 2^64: such numbers are multiples of 2^11; of two
that are as close, it is the one with the even multiple. -/
def closest (n : Nat) : Nat :=
  if n % 2048 < 1024 ∨ n % 2048 = 1024 ∧ n / 2048 % 2 = 0 then n / 2048 * 2048 else (n / 2048 + 1) * 2048

open DemoVyper

/-- An integer. -/
def integer (i : Int) : Json := node "Int" 30 [("value", .num (.int i))]

/-- **C96 fails for large integers.** They are printed as floating point numbers: however those are written, different integers
are printed as the same text, which cannot be read as both. -/
theorem C96_counterexample (env : PrintEnv)
    (hf : ∀ a b : Nat, 2 ^ 63 ≤ a → a < 2 ^ 64 → 2 ^ 63 ≤ b → b < 2 ^ 64 → closest a = closest b → env.f64 (.int a) = env.f64 (.int b)) :
    ∃ i k ji jk text, i ≠ k ∧ IntegerNode i ji ∧ IntegerNode k jk ∧ printText env ji = .ok text ∧ printText env jk = .ok text := by
  refine ⟨(2 ^ 63 : Nat), (2 ^ 63 + 1 : Nat), integer (2 ^ 63 : Nat), integer (2 ^ 63 + 1 : Nat), _, by decide, ⟨by rfl, by rfl⟩,
    ⟨by rfl, by rfl⟩, printText_int (n := .int (2 ^ 63 : Nat)) (by rfl) (by rfl), ?_⟩
  rw [printText_int (n := .int (2 ^ 63 + 1 : Nat)) (by rfl) (by rfl)]
  rw [show (Json.num (.int (2 ^ 63 : Nat))).asI64 = none by decide, show (Json.num (.int (2 ^ 63 + 1 : Nat))).asI64 = none by decide]
  simp only
  rw [hf (2 ^ 63) (2 ^ 63 + 1) (by decide) (by decide) (by decide) (by decide) (by decide)]

/-- **C96 fails for mutants of large integers.** Adding one to them or taking one away does nothing, though the mutant is written
like any other. -/
theorem C96_unchanged_counterexample (env : MutEnv) : ∀ d ∈ [0, 1], ∃ rep comment rng,
    Vyper.integerMutate env (integer (2 ^ 63)) (⟨[d]⟩ : ListRand) = .ok (integer (2 ^ 63), rep, some comment, rng) := by
  intro d hd
  simp only [List.mem_cons, List.not_mem_nil, or_false] at hd
  rcases hd with rfl | rfl <;> exact ⟨_, _, _, rfl⟩

/-- Example: an integer and its text; a printer that writes equal floating point numbers alike; and how two integers are rounded. -/
example : IntegerNode (-17) (integer (-17)) ∧ (∀ env, printText env (integer (-17)) = .ok "-17".toList) ∧
    (∃ env : PrintEnv, ∀ a b : Nat, 2 ^ 63 ≤ a → a < 2 ^ 64 → 2 ^ 63 ≤ b → b < 2 ^ 64 → closest a = closest b →
      env.f64 (.int a) = env.f64 (.int b)) ∧
    closest (2 ^ 64 - 1) = 2 ^ 64 ∧ closest (2 ^ 63 + 3072) = 2 ^ 63 + 4096 := by
  refine ⟨⟨by rfl, by rfl⟩, fun env =>
    (printText_int (j := integer (-17)) (n := .int (-17)) (by rfl) (by rfl)).trans (by show Outcome.ok ((Printer.new 4 150).writeToken "-17".toList).out = _; decide +kernel),
    ⟨⟨true, fun n => match n with
    | .int i => toString (closest i.toNat)
    | .flt t => t⟩, ?_⟩, by decide, by decide⟩
  intro a b _ _ _ _ h
  show toString (closest (Int.toNat a)) = toString (closest (Int.toNat b))
  rw [Int.toNat_natCast, Int.toNat_natCast, h]

end VyPrint
end Mutagenyx
