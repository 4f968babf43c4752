import Verif.Props.Considered
import Verif.Proofs.InterfaceWords
import Verif.Spec.DemoVyper
import Verif.Spec.DemoNodes

/-!
# C95: what an interface says about a function is kept
-/

namespace Mutagenyx
namespace VyPrint
open Json

variable {R : Type} [Rand R]

/-- The node is a function of an interface: instead of statements it has the one word that says what a call may do. -/
def FunctionOfInterface (word : String) (f b v : Json) : Prop :=
  IsVyperKind "FunctionDef" f ∧ ListField "body" f [b] ∧ IsVyperKind "Expr" b ∧ b.field "value" = some v ∧
    IsVyperKind "Name" v ∧ TextField "id" v word

/-- **C95, partial: what an interface says about a function is kept.** When a function of an interface is declared
`view`, `nonpayable` or `payable`, no algorithm takes the function, the statement that holds the word, or the word.
Missing: functions that are declared `pure`, see `C95_counterexample`; the function can still go with the whole
interface, and numbers in its signature can be changed. -/
theorem C95_partial {env : MutEnv} {penv : PrintEnv} (hpp : ∀ j text, printText penv j = .ok text → env.pp j = String.ofList text)
    {w : String} (hw : w ∈ ["view", "nonpayable", "payable"]) {f b v : Json} (h : FunctionOfInterface w f b v)
    {t : MutationType} {m : Mutator R} (hm : Vyper.mutatorFor env t = some m) :
    m.isMutable f = false ∧ m.isMutable b = false ∧ m.isMutable v = false := by
  obtain ⟨h1, h2, h3, h4, h5, h6⟩ := h
  have hp : env.pp b = w := by rw [hpp _ _ (printText_word (env := penv) hw h3 h4 h5 h6), String.ofList_toList]
  have one : ∀ {k l : String} {j : Json}, IsVyperKind k j → IsVyperKind l j → k = l := by
    intro k l j hk hl
    exact Json.str.inj (Option.some.inj (hk.symm.trans hl))
  have no : ∀ {j : Json}, ¬ VyperNodeFor env.pp t j → m.isMutable j = false := by
    intro j hj
    exact Bool.eq_false_iff.2 fun h => hj ((C69_vyper hm j).1 h)
  have other : ∀ {k : String} {j : Json}, IsVyperKind k j →
      k ∉ ["Assign", "FunctionDef", "For", "If", "Module", "Call", "Int", "BinOp", "BoolOp", "Compare", "UnaryOp"] →
      ¬ VyperNodeFor env.pp t j := by
    intro k j hk hn hj
    cases t <;> simp only [VyperNodeFor, VyperOperation] at hj
    all_goals first
      | exact hj
      | exact hn (by rw [one hk hj]; decide)
      | exact hn (by rw [one hk hj.1]; decide)
      | (rcases hj.1 with hj | hj | hj | hj <;> exact hn (by rw [one hk hj]; decide))
      | (rcases hj.1 with hj | hj | hj <;> exact hn (by rw [one hk hj]; decide))
  refine ⟨no fun hj => ?_, no (other h3 (by decide)), no (other h5 (by decide))⟩
  have list : ∀ {ss}, ListField "body" f ss → ss = [b] := by
    intro ss hs
    exact Json.arr.inj (Option.some.inj (hs.symm.trans h2))
  cases t <;> simp only [VyperNodeFor, VyperOperation] at hj
  case deleteStatement =>
    obtain ⟨-, ss, hs, hj⟩ := hj
    cases list hs
    rcases hj with hj | ⟨s, hs, n1, n2, n3⟩
    · simp at hj
    · cases hs
      rw [hp] at n1 n2 n3
      simp [n1, n2, n3] at hw
  case swapLines =>
    obtain ⟨-, ss, hs, hj⟩ := hj
    cases list hs
    rcases hj with hj | ⟨hj, -⟩ <;> simp at hj
  all_goals first
    | exact hj
    | exact absurd (one h1 hj) (by decide)
    | exact absurd (one h1 hj.1) (by decide)
    | (rcases hj.1 with hj | hj | hj <;> exact absurd (one h1 hj) (by decide))

open DemoVyper

/-- `def g() -> uint256: …` -/
def declared (w : String) : Json := function 3 "g" [] [] [node "Expr" 6 [("value", name 7 w)]]

/-- A program with an interface that has the function. -/
def interfaceWith (f : Json) : Json :=
  node "Module" 1 [("body", .arr [node "InterfaceDef" 2 [("body", .arr [f]), ("name", .str "I")]]), ("doc_string", .null)]

/-- The function without its word. -/
def undeclared : Json :=
  function 3 "g" [] [] [Vyper.commentNodeFromNode (node "Expr" 6 [("value", name 7 "pure")]),
    Vyper.returnNode (Vyper.integerConstantNode DemoNodes.env 7)]

/-- The printer of a debug build. -/
def debugEnv : PrintEnv := ⟨true, fun _ => ""⟩

/-- **C95 fails for `pure`.** The word is not in the list of words to be kept: deleting statements takes a function of an
interface that is declared `pure`, and puts the word in a comment.  The mutant has a line that is no declaration. -/
theorem C95_counterexample {env : MutEnv} (hpp : ∀ j text, printText debugEnv j = .ok text → env.pp j = String.ofList text) :
    FunctionOfInterface "pure" (declared "pure") (node "Expr" 6 [("value", name 7 "pure")]) (name 7 "pure") ∧
    Vyper.deleteStatementMutable env (declared "pure") = true ∧
    printText debugEnv (interfaceWith (declared "pure")) = .ok "interface I:\n    def g() -> uint256: pure\n\n\n".toList ∧
    (∃ rep comment rng, Vyper.deleteStatementMutate DemoNodes.env (declared "pure") (⟨[0, 17]⟩ : ListRand) =
      .ok (undeclared, rep, comment, rng)) ∧
    printText debugEnv (interfaceWith undeclared) = .ok "interface I:\n    def g() -> uint256: # pure, return 7\n\n\n".toList := by
  have hp : env.pp (node "Expr" 6 [("value", name 7 "pure")]) = "pure" :=
    (hpp _ "pure".toList (by decide +kernel)).trans (by decide)
  refine ⟨⟨by rfl, by rfl, by rfl, by rfl, by rfl, by rfl⟩, ?_, by decide +kernel, ⟨Vyper.result .deleteStatement (some 6) (some "2"),
    some (Vyper.commentNode "DeleteStatement Mutator: commented out the following line."), ⟨[]⟩, by decide +kernel⟩, by decide +kernel⟩
  have hm : Vyper.mutatorFor (R := ListRand) env .deleteStatement = some ⟨.deleteStatement, Vyper.deleteStatementMutable env,
      Vyper.deleteStatementMutate env⟩ := rfl
  refine (C69_vyper hm (declared "pure")).2 ⟨Or.inl (by rfl), _, by rfl, Or.inr ⟨_, rfl, ?_⟩⟩
  rw [hp]
  decide

/-- Example: a mutator that looks at statements as they are printed; the function of the interface stays when it is declared
`view`. -/
example : ∃ env : MutEnv, (∀ j text, printText debugEnv j = .ok text → env.pp j = String.ofList text) ∧
    FunctionOfInterface "view" (declared "view") (node "Expr" 6 [("value", name 7 "view")]) (name 7 "view") ∧
    Vyper.deleteStatementMutable env (declared "view") = false ∧
    Vyper.deleteStatementMutable env (function 3 "g" [] [] [node "Pass" 6 []]) = true := by
  refine ⟨{ DemoNodes.env with pp := fun j => match printText debugEnv j with | .ok t => String.ofList t | _ => "" }, ?_,
    ⟨by rfl, by rfl, by rfl, by rfl, by rfl, by rfl⟩, by decide +kernel, by decide +kernel⟩
  intro j text h
  show (match printText debugEnv j with | .ok t => String.ofList t | _ => "") = _
  rw [h]

end VyPrint
end Mutagenyx
