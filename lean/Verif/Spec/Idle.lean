import Verif.Spec.VyperMutation
import Verif.Spec.SolidityMutation

/-!
# Mutations that change nothing
-/

namespace Mutagenyx

namespace VyGrammar

mutual
/-- There is no comment in the statement. -/
def noComments : Stmt → Bool
  | .simple _ => true
  | .for_ _ _ _ body => noCommentsIn body
  | .if_ _ body els => noCommentsIn body && noCommentsIn els
  | .comment _ => false
  | .quote _ => false
/-- There is no comment in the statements. -/
def noCommentsIn : List Stmt → Bool
  | [] => true
  | s :: ss => noComments s && noCommentsIn ss
end

/-- There is no comment in the declaration. -/
def Decl.noComments : Decl → Bool
  | .fn _ _ _ body => noCommentsIn body
  | .comment _ => false
  | .quote _ => false
  | _ => true

/-- There is no comment in the program. -/
def Program.noComments (p : Program) : Bool := p.decls.all Decl.noComments

/-- The changes that leave what they change as it is.  There is no comment in it, but there may be new ones. -/
def idle (c : Change) : Change where
  expr e e' := c.expr e e' ∧ e' = e
  simple s s' := c.simple s s' ∧ s' = s
  stmt s s' := c.stmt s s' ∧ VyGrammar.noComments s = true ∧ bare s' = bare s
  decl d d' := c.decl d d' ∧ d.noComments = true ∧ d'.bare = d.bare

/-- What an algorithm finds when it changes nothing: equal operands, arguments or statements that change places, the new
number, value or condition, or a deleted statement that is put in again. -/
def idleOf (decimal : Nat → String) : MutationType → Change
  | .swapOperatorArguments => { expr := fun e _ => ∃ l o, e = .bin l o l }
  | .swapFunctionArguments => { expr := fun e _ => ∃ f pre a mid post, e = .call f (pre ++ a :: (mid ++ a :: post)) }
  | .integer => { expr := fun e _ => ∃ n : Int, e = numeral n }
  | .assignment =>
    { simple := fun s _ => ∃ ts v, s = .assign ts [v] ∧
        ((∃ k : Int, v = numeral k) ∨ v = .leaf "True" ∨ v = .leaf "False" ∨ ∃ d, v = decimalNumber (decimal d)) }
  | .ifStatement => { stmt := fun s _ => ∃ b els, s = .if_ (.leaf "True") b els ∨ s = .if_ (.leaf "False") b els }
  | .swapLines =>
    { stmt := fun s _ => ∃ pre a mid post,
        (∃ x ty it, s = .for_ x ty it (pre ++ a :: (mid ++ a :: post))) ∨ ∃ c els, s = .if_ c (pre ++ a :: (mid ++ a :: post)) els
      decl := fun d _ => ∃ ds g doc pre a mid post, d = .fn ds g doc (pre ++ a :: (mid ++ a :: post)) }
  | .deleteStatement =>
    { stmt := fun s _ => ∃ x, (x = .pass ∨ ∃ vs, x = .ret vs) ∧
        ((∃ n ty it, s = .for_ n ty it [.simple x]) ∨ ∃ c els, s = .if_ c [.simple x] els)
      decl := fun d _ => ∃ x, (x = .pass ∨ ∃ vs, x = .ret vs) ∧ ∃ ds g doc, d = .fn ds g doc [.simple x] }
  | _ => {}

end VyGrammar

namespace SolGrammar

/-- The tokens without braces, which may be new around a comment. -/
def unbraced (ts : List String) : List String := ts.filter fun t => t != "{" && t != "}"

/-- What an algorithm finds when it changes no tokens but braces: equal operands, arguments or statements that change places,
the new number, value or condition. -/
def idleTokens : MutationType → List String → Prop
  | .swapOperatorArguments, u => ∃ l o r, u = l ++ o :: r ∧ o ∈ nonCommutative ∧ unbraced (l ++ o :: r) = unbraced (r ++ o :: l)
  | .swapFunctionArguments, u => ∃ a m b, u = a ++ (m ++ b) ∧ unbraced (a ++ (m ++ b)) = unbraced (b ++ (m ++ a))
  | .integer, u => ∃ t k, (u = [t] ∨ u = ["-", t]) ∧ unbraced u = numeralToks k
  | .assignment, u => ∃ (o : Operator) (r : List String), u = o.text :: r ∧ o.level = 1 ∧
      ((∃ k, unbraced r = numeralToks k) ∨ unbraced r = ["true"] ∨ unbraced r = ["false"])
  | .ifStatement, u => ∃ c, u = "if" :: "(" :: (c ++ [")"]) ∧ (unbraced c = ["true"] ∨ unbraced c = ["false"])
  | .swapLines, u => ∃ a m b, u = a ++ (m ++ b) ∧ unbraced (a ++ (m ++ b)) = unbraced (b ++ (m ++ a))
  | _, _ => False

end SolGrammar

/-- The algorithms that may find nothing to change in the tokens or the program. -/
def mayBeIdle : List MutationType :=
  [.swapOperatorArguments, .swapFunctionArguments, .integer, .assignment, .ifStatement, .swapLines, .deleteStatement]

end Mutagenyx
