import Verif.Spec.VyperChange
import Verif.Spec.MutatorSpec
import Verif.Spec.Comments
import Verif.Model.MutatorBase

/-!
# What the mutations of a Vyper program are

In terms of programs, not of trees.
-/

namespace Mutagenyx
namespace VyGrammar

/-- Two elements at different places, both of the kind, changed places. -/
def Swapped {α : Type} (kind : α → Prop) (xs ys : List α) : Prop :=
  ∃ pre a mid b post, kind a ∧ kind b ∧ xs = pre ++ a :: (mid ++ b :: post) ∧ ys = pre ++ b :: (mid ++ a :: post)

/-- Not a `return`. -/
def NoReturn (s : Stmt) : Prop := ∀ vs, s ≠ .simple (.ret vs)

/-- One statement is turned into a comment.  When it was the only one, at most one `pass` or `return` is added. -/
def Deleted (xs ys : List Stmt) : Prop :=
  ∃ a x b more, xs = a ++ x :: b ∧ ys = a ++ .quote x :: (b ++ more) ∧
    (more = [] ∨ a = [] ∧ b = [] ∧ (more = [.simple .pass] ∨ ∃ vs, more = [.simple (.ret vs)]))

/-- Another operator of the same class. -/
def operatorChange (t : MutationType) : Change where
  expr e e' := ∃ l o o' r, e = .bin l o r ∧ e' = .bin l o' r ∧ o' ≠ o ∧ o.type ∈ vyperOperatorClass t ∧
    o'.type ∈ vyperOperatorClass t

/-- The number in decimal notation. -/
def numeral : Int → Expr
  | .ofNat n => .leaf (toString n)
  | .negSucc n => .neg (.leaf (toString (n + 1)))

/-- The number with this text. -/
def decimalNumber (t : String) : Expr :=
  match t.toList with
  | '-' :: cs => .neg (.leaf (String.ofList cs))
  | _ => .leaf t

/-- What an algorithm does to a program; `decimal` are the texts of the random decimals. -/
def changeOf (decimal : Nat → String) : MutationType → Change
  | .swapOperatorArguments =>
    { expr := fun e e' => ∃ l o r, e = .bin l o r ∧ e' = .bin r o l ∧ o.type ∈ vyperNonCommutative }
  | .functionCall => { expr := fun e e' => ∃ f args, e = .call f args ∧ e' ∈ args }
  | .swapFunctionArguments =>
    { expr := fun e e' => ∃ f args args', e = .call f args ∧ e' = .call f args' ∧ Swapped (fun _ => True) args args' }
  | .unaryOp => { expr := fun e e' => e = .not e' ∨ e = .inv e' }
  | .integer => { expr := fun e e' => ∃ n k : Int, e = numeral n ∧ e' = numeral k }
  | .assignment =>
    { simple := fun s s' => ∃ ts vs v, s = .assign ts vs ∧ s' = .assign ts [v] ∧
        ((∃ k : Int, v = numeral k) ∨ v = .leaf "True" ∨ v = .leaf "False" ∨ ∃ d, v = decimalNumber (decimal d)) }
  | .ifStatement =>
    { stmt := fun s s' => ∃ c c' b els, s = .if_ c b els ∧ s' = .if_ c' b els ∧
        (c' = .leaf "True" ∨ c' = .leaf "False" ∨ c' = .not c) }
  | .swapLines =>
    { stmt := fun s s' =>
        (∃ x ty it b b', s = .for_ x ty it b ∧ s' = .for_ x ty it b' ∧ Swapped NoReturn b b') ∨
        ∃ c b b' els, s = .if_ c b els ∧ s' = .if_ c b' els ∧ Swapped NoReturn b b'
      decl := fun d d' => ∃ ds g doc b b', d = .fn ds g doc b ∧ d' = .fn ds g doc b' ∧ Swapped NoReturn b b' }
  | .deleteStatement =>
    { stmt := fun s s' =>
        (∃ x ty it b b', s = .for_ x ty it b ∧ s' = .for_ x ty it b' ∧ Deleted b b') ∨
        ∃ c b b' els, s = .if_ c b els ∧ s' = .if_ c b' els ∧ Deleted b b'
      decl := fun d d' =>
        (∃ ds g doc b b', d = .fn ds g doc b ∧ d' = .fn ds g doc b' ∧ Deleted b b') ∨
        d' = .quote d }
  | t => operatorChange t

/-- The number fits into 64 bits. -/
def SmallNumber (v : Json) : Prop := ∃ k : Int, v.getIntForKey "value" = some k

/-- The mutated node can be written in the grammar: a new result is an expression, not the only declaration of the module is
commented out, and assigned numbers fit into 64 bits. -/
def Writable (t : MutationType) (new : Json) : Prop :=
  (t = .deleteStatement → ∀ xs, Json.field? "body" new = some (.arr xs) →
    (∀ x ∈ xs, IsA "Return" x → ∃ s, ShowsSimple s x) ∧ (IsA "Module" new → ∀ x ∈ xs, ¬ IsA "Pass" x ∧ ¬ IsA "Return" x)) ∧
    (t = .assignment → ∀ v, Json.field? "value" new = some v → IsA "Int" v → SmallNumber v)

/-- The node with this id is in the body of a function of an interface. -/
def InInterface (id : Nat) (j : Json) : Prop :=
  ∃ bs d₀ d fs f xs x, Json.field? "body" j = some (.arr bs) ∧ d₀ ∈ bs ∧ Held d₀ d ∧ IsA "InterfaceDef" d ∧
    Json.field? "body" d = some (.arr fs) ∧ f ∈ fs ∧ Json.field? "body" f = some (.arr xs) ∧ x ∈ xs ∧ ContainsId vyperId id x

/-- The statements that Vyper accepts outside of functions. -/
def Simple.topLevel : Simple → Bool
  | .ann _ _ _ => true
  | .import_ _ _ => true
  | .from_ _ _ _ _ => true
  | _ => false

/-- Declarations that Vyper accepts in a module. -/
def Decl.accepted : Decl → Bool
  | .simple s => s.topLevel
  | _ => true

/-- A comment is added in a list of statements. -/
def commentIn (text : String) : Change where
  stmt := fun s s' =>
    (∃ x ty it a b, s = .for_ x ty it (a ++ b) ∧ s' = .for_ x ty it (a ++ .comment text :: b)) ∨
    (∃ c a b els, s = .if_ c (a ++ b) els ∧ s' = .if_ c (a ++ .comment text :: b) els) ∨
    ∃ c body a b, s = .if_ c body (a ++ b) ∧ s' = .if_ c body (a ++ .comment text :: b)
  decl := fun d d' => ∃ ds g doc a b, d = .fn ds g doc (a ++ b) ∧ d' = .fn ds g doc (a ++ .comment text :: b)

/-- The program with a new comment. -/
inductive NewComment (text : String) : Program → Program → Prop
  | between {doc a b} : NewComment text ⟨doc, a ++ b⟩ ⟨doc, a ++ .comment text :: b⟩
  | inside {p p'} : InProgram (commentIn text) p p' → NewComment text p p'

end VyGrammar
end Mutagenyx
