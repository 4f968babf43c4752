import Verif.Model.VyperPrinter
import Verif.Proofs.NodePrinter

/-!
# The Vyper node printers behave well
-/

namespace Mutagenyx
namespace VyPrint

open NodePrinter

variable {s : PrintSettings} {node : Json} {d : Nat}

theorem good_valueAssignment : Good (depth node) (valueAssignment s node) := by unfold valueAssignment; good

theorem good_bodyAsNodes : Good (depth node) (bodyAsNodes s node) := by unfold bodyAsNodes; good

theorem good_indentedLoop {len : Nat} : (i : Nat) → (xs : List Json) → (∀ x ∈ xs, depth x < d) →
    Good d (indentedLoop s len i xs)
  | _, [], _ => good_nil
  | i, x :: xs, h => good_append good_ind (good_append (good_sub (h x (List.mem_cons_self ..)))
      (good_append (good_when good_nl) (good_indentedLoop (i + 1) xs fun y hy => h y (List.mem_cons_of_mem _ hy))))

theorem good_indentedArray {xs : List Json} (h : ∀ x ∈ xs, depth x < d) : Good d (indentedArray s xs) :=
  good_indentedLoop 0 xs h

theorem good_indentedBody : Good (depth node) (indentedBody s node) :=
  good_onArray fun _ h => good_indentedArray h

theorem good_withParens (h : depth node < d) : Good d (withParens s node) := by unfold withParens; good

theorem good_docString {doc : String} : Good d (docString doc) := by unfold docString; good

theorem good_variableDecl : Good (depth node) (variableDecl s node) := by
  unfold variableDecl
  have := good_valueAssignment (s := s) (node := node)
  good

theorem good_decorators : Good (depth node) (decorators s node) := by
  unfold decorators
  refine good_onArray fun xs hxs => ?_
  cases xs with
  | nil => good
  | cons x xs =>
    have hx := hxs x (List.mem_cons_self ..)
    have h : ∀ y ∈ xs, depth y < depth node := fun y hy => hxs y (List.mem_cons_of_mem _ hy)
    simp only
    good

theorem good_functionDef : Good (depth node) (functionDef s node) := by
  unfold functionDef
  good
  · exact good_docString
  · exact good_indentedArray ‹_›

theorem good_argumentLoop {len first : Nat} : (i : Nat) → (as ds : List Json) → (∀ x ∈ as, depth x < d) →
    (∀ x ∈ ds, depth x < d) → Good d (argumentLoop s len first i as ds)
  | _, [], _, _, _ => by unfold argumentLoop; good
  | i, a :: as, ds, h1, h2 => by
    have ha := h1 a (List.mem_cons_self ..)
    have has : ∀ x ∈ as, depth x < d := fun y hy => h1 y (List.mem_cons_of_mem _ hy)
    unfold argumentLoop
    split
    · cases ds with
      | nil => simp only; good
      | cons x ds =>
        have hd := h2 x (List.mem_cons_self ..)
        have := good_argumentLoop (len := len) (first := first) (i + 1) as ds has
          fun y hy => h2 y (List.mem_cons_of_mem _ hy)
        simp only; good
    · have := good_argumentLoop (len := len) (first := first) (i + 1) as ds has h2
      good

theorem good_arguments {checks : Bool} : Good (depth node) (arguments checks s node) := by
  unfold arguments
  good
  · exact good_argumentLoop _ _ _ ‹_› (fun _ h => by cases h)
  · exact good_argumentLoop _ _ _ ‹_› ‹_›

theorem good_augAssign : Good (depth node) (augAssign s node) := by unfold augAssign; good

theorem good_intNode {env : PrintEnv} : Good d (intNode env node) := by
  unfold intNode
  split
  · good
  · split <;> good

theorem good_binOp : Good (depth node) (binOp s node) := by
  unfold binOp
  good
  all_goals exact good_withParens ‹_›

theorem good_boolOp : Good (depth node) (boolOp s node) := by
  unfold boolOp
  refine good_onArray fun xs hxs => ?_
  split
  · next l r t =>
    have h1 := good_withParens (s := s) (hxs l (by simp))
    have h2 := good_withParens (s := s) (hxs r (by simp))
    good
  · good

theorem good_assertNode : Good (depth node) (assertNode s node) := by unfold assertNode; good

theorem good_moduleNode : Good (depth node) (moduleNode s node) := by
  unfold moduleNode
  good
  exact good_docString

theorem good_call : Good (depth node) (call s node) := by unfold call; good

theorem good_nameConstant : Good (depth node) (nameConstant node) := by
  unfold nameConstant
  refine good_onField fun n hn => ?_
  split <;> good

theorem good_unaryOp : Good (depth node) (unaryOp s node) := by
  unfold unaryOp
  good
  exact good_withParens ‹_›

theorem good_forNode : Good (depth node) (forNode s node) := by
  unfold forNode
  have := good_bodyAsNodes (s := s) (node := node)
  good

theorem good_ifNode : Good (depth node) (ifNode s node) := by
  unfold ifNode
  have := good_indentedBody (s := s) (node := node)
  good
  exact good_indentedArray ‹_›

theorem good_listDef {kw : String} : Good (depth node) (listDef kw s node) := by
  unfold listDef
  have := good_indentedBody (s := s) (node := node)
  good

theorem good_importFrom : Good (depth node) (importFrom node) := by unfold importFrom; good

theorem good_comment : Good (depth node) (comment s node) := by
  unfold comment
  refine good_onField fun n hn => ?_
  split <;> good

theorem good_bytesNode : Good (depth node) (bytesNode node) := by
  unfold bytesNode
  good
  split <;> good

theorem good_dictLoop {len : Nat} : (i : Nat) → (ks vs : List Json) → (∀ x ∈ ks, depth x < d) →
    (∀ x ∈ vs, depth x < d) → Good d (dictLoop s len i ks vs)
  | i, k :: ks, v :: vs, h1, h2 => by
    have hk := h1 k (List.mem_cons_self ..)
    have hv := h2 v (List.mem_cons_self ..)
    have := good_dictLoop (len := len) (i + 1) ks vs (fun y hy => h1 y (List.mem_cons_of_mem _ hy))
      fun y hy => h2 y (List.mem_cons_of_mem _ hy)
    unfold dictLoop
    good
  | _, [], _, _, _ => by unfold dictLoop; good
  | _, _ :: _, [], _, _ => by unfold dictLoop; good

theorem good_dict : Good (depth node) (dict s node) := by
  unfold dict
  good
  exact good_dictLoop _ _ _ ‹_› ‹_›

/-- A printer that starts with `bodyEntry`, ends with a decrease and is good in between. -/
theorem goodLayout_bodyEntry {kw : String} {body : Ps} (h : Good d body) :
    GoodLayout d { entry := bodyEntry kw node, body := body, exit := dec } := by
  intro inner _
  have e : around { entry := bodyEntry kw node, body := body, exit := dec } inner =
      (tok kw ++ sp ++ onStr "name" node fun n => tok n ++ tok ":" ++ nl) ++ (inc ++ body ++ dec) := by
    simp [around, bodyEntry]
  rw [e]
  good

/-- The Vyper node printers only print nodes below the node, and leave the indentation as it is. -/
theorem good_layout (env : PrintEnv) : GoodPrinter (layout env) := by
  intro s node
  unfold layout
  cases node.getStrForKey "ast_type" with
  | none => exact goodLayout_of good_nil good_nil good_nil
  | some t =>
    simp only
    repeat' apply goodLayout_ite
    all_goals first
      | with_reducible exact goodLayout_bodyEntry good_bodyAsNodes
      | (refine goodLayout_of ?_ ?_ ?_ <;> dsimp only <;> first
          | with_reducible exact good_nil | with_reducible exact good_variableDecl | with_reducible exact good_decorators | with_reducible exact good_functionDef
          | with_reducible exact good_arguments | with_reducible exact good_augAssign | with_reducible exact good_intNode | with_reducible exact good_binOp
          | with_reducible exact good_boolOp | with_reducible exact good_assertNode | with_reducible exact good_moduleNode | with_reducible exact good_call
          | with_reducible exact good_nameConstant | with_reducible exact good_unaryOp | with_reducible exact good_forNode | with_reducible exact good_ifNode
          | with_reducible exact good_listDef | with_reducible exact good_importFrom | with_reducible exact good_comment | with_reducible exact good_bytesNode
          | with_reducible exact good_dict
          | (have := good_valueAssignment (s := s) (node := node); good; done)
          | (unfold returnNode; good; done)
          | (unfold importNode; good; done)
          | (unfold logNode; good; done)
          | (unfold andOr; good; done)
          | (unfold keyword; good; done))

end VyPrint
end Mutagenyx
