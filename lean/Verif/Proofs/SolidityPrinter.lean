import Verif.Model.SolidityPrinter
import Verif.Proofs.NodePrinter

/-!
# The Solidity node printers behave well
-/

namespace Mutagenyx
namespace SolPrint

open NodePrinter

variable {s : PrintSettings} {node : Json} {d : Nat}

theorem good_documentation : Good (depth node) (documentation s node) := by unfold documentation; good

theorem good_operator : Good d (operator node) := by unfold operator; good

theorem good_statements : Good (depth node) (statements s node) := by unfold statements; good

theorem good_returnParameters : Good (depth node) (returnParameters s node) := by unfold returnParameters; good

theorem good_nullableList : (xs : List Json) → (∀ x ∈ xs, depth x < d) → Good d (nullableList s xs)
  | [], _ => good_nil
  | [x], h => good_sub (h x (by simp))
  | x :: y :: xs, h => by
    have hx := h x (by simp)
    have := good_nullableList (y :: xs) fun z hz => h z (List.mem_cons_of_mem _ hz)
    unfold nullableList
    good

theorem good_pragmaLoop {len : Nat} : (i : Nat) → (prev : String) → (vs : List Json) →
    Good d (pragmaLoop len i prev vs)
  | _, _, [] => good_nil
  | i, prev, v :: vs => by
    unfold pragmaLoop
    split
    · exact good_pragmaLoop _ _ _
    · next t _ =>
      have := good_pragmaLoop (len := len) (i + 1) t vs
      dsimp only
      good

theorem good_pragma : Good d (pragma node) := by
  unfold pragma
  refine good_onArray fun xs _ => ?_
  have := good_pragmaLoop (d := d) (len := xs.length) 0 "pragma" xs
  good

theorem good_userType : Good d (userType node) := by
  unfold userType
  split <;> good

theorem good_indentedStatement {n : Json} (h : depth n < d) : Good d (indentedStatement s n) := by
  unfold indentedStatement; good

theorem good_ifStatement : Good (depth node) (ifStatement s node) := by
  unfold ifStatement
  good
  all_goals exact good_indentedStatement ‹_›

theorem good_forStatement : Good (depth node) (forStatement s node) := by
  unfold forStatement
  good
  all_goals exact good_indentedStatement ‹_›

theorem good_clauseLoop : (i : Nat) → (xs : List Json) → (∀ x ∈ xs, depth x < d) → Good d (clauseLoop s i xs)
  | _, [], _ => good_nil
  | i, x :: xs, h => by
    have hx := h x (by simp)
    have := good_clauseLoop (i + 1) xs fun z hz => h z (List.mem_cons_of_mem _ hz)
    unfold clauseLoop
    good

theorem good_tryStatement : Good (depth node) (tryStatement s node) := by
  unfold tryStatement
  good
  exact good_clauseLoop _ _ ‹_›

theorem good_literal : Good d (literal node) := by
  unfold literal
  refine good_append (good_onStr fun v => ?_) (good_onStr fun u => ?_)
  · split <;> good
  · good

theorem good_namedLoop {len : Nat} : (i : Nat) → (ks vs : List Json) → (∀ x ∈ vs, depth x < d) →
    Good d (namedLoop s len i ks vs)
  | i, k :: ks, v :: vs, h => by
    have hv := h v (List.mem_cons_self ..)
    have := good_namedLoop (len := len) (i + 1) ks vs fun y hy => h y (List.mem_cons_of_mem _ hy)
    unfold namedLoop
    split <;> good
  | _, [], _, _ => by unfold namedLoop; good
  | _, _ :: _, [], _ => by unfold namedLoop; good

theorem good_optionLoop {len : Nat} : (i : Nat) → (ks vs : List Json) → (∀ x ∈ vs, depth x < d) →
    Good d (optionLoop s len i ks vs)
  | i, k :: ks, v :: vs, h => by
    have hv := h v (List.mem_cons_self ..)
    have := good_optionLoop (len := len) (i + 1) ks vs fun y hy => h y (List.mem_cons_of_mem _ hy)
    unfold optionLoop
    split <;> good
  | _, [], _, _ => by unfold optionLoop; good
  | _, _ :: _, [], _ => by unfold optionLoop; good

theorem good_functionCallBody : Good (depth node) (functionCall s node).body := by
  unfold functionCall
  dsimp only
  split
  · refine good_onGetArray fun xs hxs => ?_
    refine good_ite good_crash ?_
    have := good_namedLoop (s := s) (len := (‹Json› :: ‹List Json›).length) 0 (‹Json› :: ‹List Json›) xs hxs
    good
    exact good_namedLoop _ _ _ hxs
  · unfold arguments; good

theorem good_functionCallOptions : Good (depth node) (functionCallOptions s node) := by
  unfold functionCallOptions
  refine good_append good_field (good_onGetArray fun ns _ => good_onGetArray fun os hos => ?_)
  have := good_optionLoop (s := s) (len := ns.length) 0 ns os hos
  good

theorem good_typeNameExpression : Good (depth node) (typeNameExpression s node) := by
  unfold typeNameExpression
  refine good_when (good_onField fun t ht => ?_)
  split <;> good

theorem good_yulCase : Good (depth node) (yulCase s node) := by
  unfold yulCase
  refine good_append (good_onField fun v hv => ?_) good_field
  split <;> good

theorem good_variableDeclarationStatement : Good (depth node) (variableDeclarationStatement s node) := by
  unfold variableDeclarationStatement
  good
  exact good_nullableList _ ‹_›

theorem good_tuple : Good (depth node) (tuple s node) := by
  unfold tuple
  good
  exact good_nullableList _ ‹_›

theorem good_importBody : Good (depth node) (importDirective s node).body := by
  unfold importDirective
  dsimp only
  good
  exact good_field.mono (Nat.le_of_lt ‹_›)

theorem goodLayout_structDef : GoodLayout (depth node) (structDef s node) := by
  intro inner _
  have e : around (structDef s node) inner =
      (tok "struct" ++ sp ++ strTok "name" node ++ sp ++ tok "{" ++ nl) ++
        (inc ++ onArray "members" node (arrayWith (fun n => ind ++ [.sub s n] ++ tok ";") nl) ++ dec) ++
        (nl ++ ind ++ tok "}") := by
    simp [around, structDef]
  rw [e]
  good

theorem goodLayout_functionCall : GoodLayout (depth node) (functionCall s node) := by
  refine goodLayout_of ?_ good_functionCallBody ?_ <;> unfold functionCall <;> dsimp only <;> good

theorem goodLayout_importDirective : GoodLayout (depth node) (importDirective s node) := by
  refine goodLayout_of ?_ good_importBody ?_ <;> unfold importDirective <;> dsimp only <;> good

/-- The Solidity node printers only print nodes below the node, and leave the indentation as it is. -/
theorem good_layout : GoodPrinter layout := by
  intro s node
  unfold layout
  cases node.getStrForKey "nodeType" with
  | none => exact goodLayout_of good_nil good_nil good_nil
  | some t =>
    simp only
    have h1 := good_documentation (s := s) (node := node)
    have h2 := good_operator (d := depth node) (node := node)
    have h3 := good_statements (s := s) (node := node)
    have h4 := good_returnParameters (s := s) (node := node)
    repeat' apply goodLayout_ite
    all_goals first
      | with_reducible exact goodLayout_structDef
      | with_reducible exact goodLayout_functionCall
      | with_reducible exact goodLayout_importDirective
      | ((refine goodLayout_of ?_ ?_ ?_ <;> try dsimp only) <;> first
          | with_reducible exact good_nil
          | with_reducible exact good_pragma | with_reducible exact good_userType
          | with_reducible exact good_ifStatement | with_reducible exact good_forStatement
          | with_reducible exact good_tryStatement | with_reducible exact good_literal
          | with_reducible exact good_functionCallOptions | with_reducible exact good_typeNameExpression
          | with_reducible exact good_yulCase | with_reducible exact good_variableDeclarationStatement
          | with_reducible exact good_tuple
          | (dsimp only [sourceUnit, contract, elementaryType, mapping, variableDeclaration, functionDefinition,
            spaceAndArray, parameterList, inheritance, modifierInvocation, usingFor,
            modifierDefinition, structuredDoc, overrideSpecifier, functionTypeName, eventDefinition,
            enumDefinition, block, returnStatement, emitStatement, comment, inlineAssembly,
            tryCatchClause, whileStatement, doWhileStatement, binaryOperation, assignment,
            unaryOperation, conditional, yulVariableDeclaration, yulAssignment, yulLiteral, yulFor,
            yulSwitch, yulFunction, arguments]; good; done)
          | (good; done))

end SolPrint
end Mutagenyx
