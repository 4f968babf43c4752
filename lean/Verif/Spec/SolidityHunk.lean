import Verif.Spec.SolidityText
import Verif.Model.SolidityPrinter

/-!
# The lines of one statement in the text of a Solidity tree
-/

namespace Mutagenyx
namespace SolText
open Json

/-- No line of the text of the tree is indented by more than the 36 levels that the printer knows. -/
def Shallow (checks : Bool) (ast : Json) : Prop := ∀ n, Printer.changes ((SolPrint.printOps checks {} ast).take n) ≤ 36

/-- What is written for a statement, or for a declaration of a contract, on an empty page at a level of indentation. -/
def TextAt (checks : Bool) (declaration : Bool) (level : Nat) (node : Json) (text : List Char) : Prop :=
  ∃ q, Printer.run checks (.indent :: (SolPrint.printOps checks {} node ++
      if declaration = true ∧ node.getStrForKey "nodeType" = some "VariableDeclaration" then [.token ";".toList] else []))
    { Printer.new 4 150 with indent := level } = .ok q ∧ q.out = text

/-- The second text has the lines `new` where the first has the lines `old`; everything else is the same. -/
def LinesReplaced (old new text text' : List Char) : Prop :=
  ∃ pre post, text = pre ++ ('\n' :: (old ++ ('\n' :: post))) ∧ text' = pre ++ ('\n' :: (new ++ ('\n' :: post)))

/-- The second text has the lines `b` where the first has the lines `a` and the other way round; everything else is the same, also
the lines in between. -/
def LinesSwapped (a b text text' : List Char) : Prop :=
  ∃ pre mid post, mid.head? = some '\n' ∧ mid.getLast? = some '\n' ∧
    text = pre ++ ('\n' :: (a ++ (mid ++ (b ++ ('\n' :: post))))) ∧ text' = pre ++ ('\n' :: (b ++ (mid ++ (a ++ ('\n' :: post)))))

end SolText
end Mutagenyx
