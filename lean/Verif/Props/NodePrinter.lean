import Verif.Proofs.VyperPrinter
import Verif.Proofs.SolidityPrinter
import Verif.Props.Printer
import Verif.Spec.PrintNodes

/-!
# Lists and indentation of printed nodes (properties C47, C58)

`VyPrint.printOps` and `SolPrint.printOps` are the calls on the token printer made for a node.
-/

namespace Mutagenyx
namespace NodePrinter

variable {σ : Type}

/-! ## Lemmas -/

theorem arrayLoop_eq (node : Json → List (Piece σ)) (between : List (Piece σ)) : (i : Nat) → (xs : List Json) →
    arrayLoop node between (i + xs.length) i xs = between.intercalate (xs.map node)
  | _, [] => by simp [arrayLoop, List.intercalate]
  | i, [x] => by simp [arrayLoop, List.intercalate, when]
  | i, x :: y :: xs => by
    have := arrayLoop_eq node between (i + 1) (y :: xs)
    rw [show i + 1 + (y :: xs).length = i + (x :: y :: xs).length by simp; omega] at this
    unfold arrayLoop
    rw [this]
    have hi : i < i + (x :: y :: xs).length - 1 := by simp only [List.length_cons]; omega
    simp [when, hi, List.intercalate]

theorem expand_intercalate {checks : Bool} {f : σ → Json → List Op} (sep : List (Piece σ)) :
    (l : List (List (Piece σ))) →
    expand checks f (sep.intercalate l) = (expand checks f sep).intercalate (l.map (expand checks f))
  | [] => rfl
  | [a] => by simp [List.intercalate]
  | a :: b :: l => by
    have := expand_intercalate (f := f) (checks := checks) sep (b :: l)
    simp only [List.intercalate, List.intersperse_cons₂, List.flatten_cons, expand_append] at this ⊢
    simp [this, List.intercalate]

/-! ## Property C47 -/

/-- **C47.** The helper that prints a list handles each element once, in order, and formats the space between
two consecutive elements once, and does nothing before the first and after the last element; for every
handler of elements and every formatter. -/
theorem C47_handler_and_separator (node : Json → List (Piece σ)) (between : List (Piece σ)) (xs : List Json) :
    arrayWith node between xs = between.intercalate (xs.map node) := by
  have := arrayLoop_eq node between 0 xs
  rwa [Nat.zero_add] at this

/-- **C47.** Printing a list of nodes makes the calls that print each of them, in order, and between
consecutive ones a `,` and a space. -/
theorem C47_list_calls (checks : Bool) (pf : σ → Json → Layout σ) (s : σ) (xs : List Json) :
    expand checks (ops checks pf) (array s xs)
      = [Op.token [','], Op.space].intercalate (xs.map (ops checks pf s)) := by
  rw [array, C47_handler_and_separator, expand_intercalate, List.map_map]
  congr 1
  simp only [List.map_inj_left, Function.comp_apply, expand, List.append_nil, implies_true]

/-- The arguments of a call: two separators for three arguments. -/
example : (expand true (ops true (VyPrint.layout ⟨true, fun _ => ""⟩))
    (array {} [.ofFields [("ast_type", .str "Name"), ("id", .str "a")],
      .ofFields [("ast_type", .str "Name"), ("id", .str "b")],
      .ofFields [("ast_type", .str "Name"), ("id", .str "c")]]) : List Op)
    = [.token ['a'], .token [','], .space, .token ['b'], .token [','], .space, .token ['c']] := by
  decide +kernel

/-! ## Property C58 -/

open Printer (change changes)

/-- The calls never want a smaller level of indentation than at the start, and end with that level. -/
def Balanced (os : List Op) : Prop := changes os = 0 ∧ ∀ k, 0 ≤ changes (os.take k)

theorem changes_cons (o : Op) (os : List Op) : changes (o :: os) = change o + changes os := by
  simp [changes]

theorem changes_append (a b : List Op) : changes (a ++ b) = changes a + changes b := by
  simp [changes]

/-- Lower bound for the level within calls. -/
def Above (n : Int) (os : List Op) : Prop := ∀ k, n ≤ changes (os.take k)

theorem Above.cons {n : Int} {o : Op} {os : List Op} (h : Above (n - change o) os) (h0 : n ≤ 0) :
    Above n (o :: os) := by
  intro k
  cases k with
  | zero => simpa [changes] using h0
  | succ k =>
    rw [List.take_succ_cons, changes_cons]
    have := h k
    omega

theorem Above.append {n : Int} {a b : List Op} (ha : Above n a) (hb : Above (n - changes a) b) :
    Above n (a ++ b) := by
  intro k
  rw [List.take_append, changes_append]
  by_cases hk : k ≤ a.length
  · rw [show k - a.length = 0 by omega]
    simpa [changes] using ha k
  · rw [List.take_of_length_le (by omega)]
    have := hb (k - a.length)
    omega

theorem Above.mono {m n : Int} {os : List Op} (h : Above n os) (hm : m ≤ n) : Above m os := fun k =>
  Int.le_trans hm (h k)

theorem Above.nil {n : Int} (h : n ≤ 0) : Above n [] := fun k => by simpa [changes] using h

theorem walk_changes {checks : Bool} {f : σ → Json → List Op} : (ps : List (Piece σ)) →
    (∀ s x, .sub s x ∈ ps → Balanced (f s x)) → (n m : Nat) → walk n ps = some m →
    changes (expand checks f ps) = (m : Int) - n ∧ Above (-(n : Int)) (expand checks f ps)
  | [], _, n, m, h => by
    cases h
    exact ⟨by simp [expand, changes], Above.nil (by omega)⟩
  | .sub s x :: ps, hf, n, m, h => by
    have ⟨h1, h2⟩ := walk_changes (checks := checks) ps (fun s x hm => hf s x (List.mem_cons_of_mem _ hm)) n m h
    have ⟨h3, h4⟩ := hf s x (List.mem_cons_self ..)
    simp only [expand]
    refine ⟨by rw [changes_append]; omega, Above.append (Above.mono h4 (by omega)) ?_⟩
    rw [h3]
    exact h2.mono (by omega)
  | .quote s x next :: ps, hf, n, m, h => by
    have ⟨h1, h2⟩ := walk_changes (checks := checks) ps (fun s x hm => hf s x (List.mem_cons_of_mem _ hm)) n m h
    have h0 : ∀ o : Op, change o = 0 → changes (o :: expand checks f ps) = (m : Int) - n ∧
        Above (-(n : Int)) (o :: expand checks f ps) := fun o h0 =>
      ⟨by rw [changes_cons, h0]; omega, Above.cons (h2.mono (by rw [h0]; omega)) (by omega)⟩
    simp only [expand]
    exact h0 _ (by split <;> rfl)
  | .op o :: ps, hf, n, m, h => by
    have ih := walk_changes (checks := checks) ps (fun s x hm => hf s x (List.mem_cons_of_mem _ hm))
    simp only [expand]
    cases o with
    | incr =>
      have ⟨h1, h2⟩ := ih (n + 1) m h
      exact ⟨by rw [changes_cons, h1]; simp only [change]; omega,
        Above.cons (h2.mono (by simp only [change]; omega)) (by omega)⟩
    | decr =>
      cases n with
      | zero => cases h
      | succ n =>
        have ⟨h1, h2⟩ := ih n m h
        exact ⟨by rw [changes_cons, h1]; simp only [change]; omega,
          Above.cons (h2.mono (by simp only [change]; omega)) (by omega)⟩
    | incrBy k => simp [walk] at h
    | decrBy k => simp [walk] at h
    | _ =>
      have ⟨h1, h2⟩ := ih n m h
      exact ⟨by rw [changes_cons, h1]; simp only [change]; omega,
        Above.cons (h2.mono (by simp only [change]; omega)) (by omega)⟩

theorem ops_balanced {pf : σ → Json → Layout σ} (h : GoodPrinter pf) (checks : Bool) (s : σ) (n : Json) :
    Balanced (ops checks pf s n) := by
  have key : ∀ k s n, depth n < k → Balanced (ops checks pf s n) := by
    intro k
    induction k with
    | zero => intro _ _ h; omega
    | succ k ih =>
      intro s n hn
      have hg := good_pieces h s n
      rw [ops_eq h]
      have ⟨h1, h2⟩ := walk_changes (checks := checks) (f := ops checks pf) (pieces (pf s) n)
        (fun s x hm => ih s x (Nat.lt_of_lt_of_le (hg.below _ hm x rfl) (by omega))) 0 0 (hg.level 0)
      exact ⟨h1, h2⟩
  exact key _ s n (Nat.lt_succ_self _)

/-- **C58.** Printing any Vyper node asks for as many increases of the indentation as decreases, and never
for less indentation than at its start. -/
theorem C58_vyper_balanced (env : PrintEnv) (s : VyPrint.PrintSettings) (node : Json) :
    changes (VyPrint.printOps env s node) = 0 ∧ ∀ k, 0 ≤ changes ((VyPrint.printOps env s node).take k) :=
  ops_balanced (VyPrint.good_layout env) env.checks s node

/-- **C58.** The same for any Solidity node. -/
theorem C58_solidity_balanced (checks : Bool) (s : SolPrint.PrintSettings) (node : Json) :
    changes (SolPrint.printOps checks s node) = 0 ∧
      ∀ k, 0 ≤ changes ((SolPrint.printOps checks s node).take k) :=
  ops_balanced SolPrint.good_layout checks s node

/-- Whatever was printed before on a page of 150 columns: calls that are balanced and want at most `36`
levels in between leave the indentation as it is. -/
theorem restores {checks : Bool} {before os : List Op} {p q : Printer} (hb : Balanced os)
    (h1 : Printer.run checks before (Printer.new 4 150) = .ok p) (h2 : Printer.run checks os p = .ok q)
    (hdeep : ∀ k, p.indent + changes (os.take k) ≤ 36) : q.indent = p.indent := by
  have := Printer.C43_indentation_balances checks 4 150 (by omega) before os p q h1 h2 (fun k => by
    have := hb.2 k
    have := hdeep k
    omega)
  have := hb.1
  omega

/-- **C58, without very deep nesting.** What follows a printed Vyper node is indented as if the node was not
there, if the levels of the node fit on the page.  Missing: deeper nodes, see the counterexample. -/
theorem C58_vyper_restores_partial (env : PrintEnv) (s : VyPrint.PrintSettings) (node : Json)
    (before : List Op) (p q : Printer) (h1 : Printer.run env.checks before (Printer.new 4 150) = .ok p)
    (h2 : Printer.run env.checks (VyPrint.printOps env s node) p = .ok q)
    (hdeep : ∀ k, p.indent + changes ((VyPrint.printOps env s node).take k) ≤ 36) : q.indent = p.indent :=
  restores (C58_vyper_balanced env s node) h1 h2 hdeep

/-- **C58, without very deep nesting**, for Solidity. -/
theorem C58_solidity_restores_partial (checks : Bool) (s : SolPrint.PrintSettings) (node : Json)
    (before : List Op) (p q : Printer) (h1 : Printer.run checks before (Printer.new 4 150) = .ok p)
    (h2 : Printer.run checks (SolPrint.printOps checks s node) p = .ok q)
    (hdeep : ∀ k, p.indent + changes ((SolPrint.printOps checks s node).take k) ≤ 36) : q.indent = p.indent :=
  restores (C58_solidity_balanced checks s node) h1 h2 hdeep

/-- A block in a block: the hypotheses hold and the level is 1 before and after. -/
example : Printer.endsWith (fun q => q.indent == 1) (Printer.run true
    (.incr :: VyPrint.printOps ⟨true, fun _ => ""⟩ {} (VyNode.nest 3 [VyNode.pass])) (Printer.new 4 150)) = true ∧
    ((VyPrint.printOps ⟨true, fun _ => ""⟩ {} (VyNode.nest 3 [VyNode.pass])).map change).count 1 = 4 := by
  decide +kernel

/-- **C58: counterexample.** A Vyper statement behind 37 nested `if`s that is to be run under the outermost
`if` is printed without indentation, that is, outside of it. -/
theorem C58_deep_nesting_counterexample :
    (match VyPrint.printText ⟨true, fun _ => ""⟩
        (VyNode.if_ (VyNode.name "a") [VyNode.nest 36 [VyNode.pass], VyNode.assign (VyNode.name "b") (VyNode.name "c")]) with
      | .ok t => (Printer.lines t).contains "b = c".toList
      | _ => false) = true := by decide +kernel

end NodePrinter
end Mutagenyx
