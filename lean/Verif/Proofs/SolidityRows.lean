import Verif.Proofs.SolidityPlace
import Verif.Proofs.PrinterText
import Verif.Props.CommentedOut

/-!
# The lines of statements and declarations of Solidity
-/

namespace Mutagenyx
namespace SolPrint
open NodePrinter SolGrammar SolText
open Json hiding field

/-- The usual settings. -/
local notation "s₀" => ({} : PrintSettings)

variable {checks : Bool}

theorem arrayLoop_rows (node : Json → Ps) (between : Ps) : (x : Json) → (xs : List Json) → (i len : Nat) → i + (xs.length + 1) = len →
    arrayLoop node between len i (x :: xs) = node x ++ xs.flatMap (fun y => between ++ node y)
  | x, [], i, len, h => by
    have hn : ¬ i < len - 1 := by simp at h; omega
    simp [arrayLoop, when, hn]
  | x, y :: ys, i, len, h => by
    have hn : i < len - 1 := by simp at h; omega
    have ih := arrayLoop_rows node between y ys (i + 1) len (by simp at h; omega)
    rw [arrayLoop, ih]
    simp [when, hn]

theorem arrayWith_rows (node : Json → Ps) (between : Ps) (x : Json) (xs : List Json) :
    arrayWith node between (x :: xs) = node x ++ xs.flatMap (fun y => between ++ node y) :=
  arrayLoop_rows node between x xs 0 _ (by simp)

/-- The elements before one of them, that one, and those after it. -/
theorem arrayWith_split (node : Json → Ps) (between : Ps) (s : Json) (post : List Json) : (pre : List Json) →
    arrayWith node between (pre ++ s :: post) =
      pre.flatMap (fun y => node y ++ between) ++ (node s ++ post.flatMap (fun y => between ++ node y))
  | [] => by simp [arrayWith_rows]
  | x :: pre => by
    have ih := arrayWith_split node between s post pre
    rw [List.cons_append, arrayWith_rows]
    cases pre with
    | nil => simp
    | cons y ys =>
      simp only [List.cons_append, arrayWith_rows] at ih
      simp only [List.cons_append, List.flatMap_cons, List.append_assoc] at ih ⊢
      rw [← ih]

theorem expand_flatMap (f : Json → Ps) : (xs : List Json) →
    expand checks (printOps checks) (xs.flatMap f) = xs.flatMap fun x => expand checks (printOps checks) (f x)
  | [] => rfl
  | x :: xs => by rw [List.flatMap_cons, expand_append, expand_flatMap f xs]; rfl

/-- What is printed for one of the statements or declarations. -/
def row (checks : Bool) (k : String) (n : Json) : List Op :=
  .indent :: (printOps checks {} n ++
    (if k = "nodes" ∧ n.getStrForKey "nodeType" = some "VariableDeclaration" then [.token ";".toList] else []))

/-- What is printed between them. -/
def gap (k : String) : List Op := if k = "nodes" then [.newline, .newline] else [.newline]

theorem row_balanced (k : String) (n : Json) : Balanced (row checks k n) := by
  have hb : Balanced (printOps checks {} n) := ops_balanced good_layout checks {} n
  have ht : ∀ c : Prop, [Decidable c] → Printer.changes (if c then [Op.token ";".toList] else []) = 0 ∧
      Above 0 (if c then [Op.token ";".toList] else []) := by
    intro c _
    split
    · exact ⟨rfl, Above.cons (by simp [Printer.change]; exact Above.nil (by omega)) (by omega)⟩
    · exact ⟨rfl, Above.nil (by omega)⟩
  obtain ⟨h1, h2⟩ := ht (k = "nodes" ∧ n.getStrForKey "nodeType" = some "VariableDeclaration")
  refine ⟨?_, ?_⟩
  · unfold row
    rw [changes_cons, changes_append, hb.1, h1]
    rfl
  · refine Above.cons ?_ (by omega)
    simp only [Printer.change]
    refine Above.append hb.2 ?_
    rw [hb.1]
    exact h2

/-- The node with these statements or declarations. -/
theorem list_ops {kvs : List (String × Json)} {i : Nat} {t k : String} {v : Json} (hx : kvs[i]? = some (k, v))
    (hi : (kvs.map Prod.fst).findIdx? (· == k) = some i) (hv : Container v) (ht : IsA t (.obj kvs))
    (hm : (t, k) ∈ [("Block", "statements"), ("UncheckedBlock", "statements"), ("ContractDefinition", "nodes")]) :
    ∃ X Y, Printer.changes X = 1 ∧ Above 0 X ∧ Printer.EndsTheLine Y ∧ ∀ pre s post,
      printOps checks {} (.obj (setField i (.arr (pre ++ s :: post)) kvs)) =
        X ++ (.newline :: (pre.flatMap (fun y => row checks k y ++ gap k) ++
          (row checks k s ++ (post.flatMap (fun y => gap k ++ row checks k y) ++ Y)))) := by
  have hvar := varies_setField hx hi hv
  have hc : ∀ xs : List Json, Container (.arr xs) := fun _ => trivial
  have hT : ∀ xs, getStrForKey "nodeType" (.obj (setField i (.arr xs) kvs)) = some t := fun xs =>
    (hvar.str _ (hc _) _ (by decide)).trans ht
  have hne : ∀ (pre : List Json) (s : Json) post, (pre ++ s :: post).isEmpty = false := by intro pre; cases pre <;> intros <;> rfl
  have hsplit := fun (node : Json → Ps) between pre s post => arrayWith_split node between s post pre
  -- the pieces
  have key : ∀ (P : Ps) (E : Ps) (Q : List Op), NodePrinter.Good (depth (.obj kvs)) P → Printer.EndsTheLine Q →
      expand checks (printOps checks) E = Q →
      (∀ ys, ys ≠ [] → whole (.obj (setField i (.arr ys) kvs)) = P ++ (inc ++ (nl ++ (arrayWith (fun n => ind ++ ([.sub s₀ n] ++
        when (k = "nodes" ∧ n.getStrForKey "nodeType" = some "VariableDeclaration") (tok ";"))) (if k = "nodes" then nl ++ nl else nl) ys ++ E)))) →
      (∀ ys, (layout {} (.obj (setField i (.arr ys) kvs))).visitChildren = false) →
      ∃ X Y, Printer.changes X = 1 ∧ Above 0 X ∧ Printer.EndsTheLine Y ∧ ∀ pre s post,
      printOps checks {} (.obj (setField i (.arr (pre ++ s :: post)) kvs)) =
        X ++ (.newline :: (pre.flatMap (fun y => row checks k y ++ gap k) ++
          (row checks k s ++ (post.flatMap (fun y => gap k ++ row checks k y) ++ Y)))) := by
    intro P E Q hP hQ hE hw hl
    have hwalk : walk 0 (P ++ inc) = some 1 := by
      rw [walk_append, hP.level]
      rfl
    have hch := walk_changes (checks := checks) (f := printOps checks) (P ++ inc) (fun s x _ => ops_balanced good_layout checks s x) 0 1 hwalk
    refine ⟨expand checks (printOps checks) (P ++ inc), Q, by simpa using hch.1, by simpa using hch.2, hQ, fun pre s post => ?_⟩
    have hrow : ∀ n, expand checks (printOps checks) (ind ++ ([.sub s₀ n] ++
        when (k = "nodes" ∧ n.getStrForKey "nodeType" = some "VariableDeclaration") (tok ";"))) = row checks k n := by
      intro n
      unfold row
      by_cases hh : k = "nodes" ∧ n.getStrForKey "nodeType" = some "VariableDeclaration"
      · simp [hh, when, ind, tok, expand]
      · simp [hh, when, ind, expand]
    have hgap : expand checks (printOps checks) (if k = "nodes" then nl ++ nl else nl) = gap k := by
      unfold gap
      split <;> rfl
    rw [printOps_whole (hl _), hw _ (by simp), hsplit]
    simp only [expand_append, expand_flatMap, hrow, hgap, hE]
    simp [expand, nl]
  simp only [List.mem_cons, Prod.mk.injEq, List.not_mem_nil, or_false] at hm
  have hb : ¬ ("statements" = "nodes") := by decide
  rcases hm with ⟨rfl, rfl⟩ | ⟨rfl, rfl⟩ | ⟨rfl, rfl⟩
  · refine key (tok "{") (dec ++ nl ++ ind ++ tok "}") _ good_tok ⟨_, .inr rfl⟩ rfl (fun ys hys => ?_) fun ys => by simp [layout, hT, block]
    have : ys.isEmpty = false := by cases ys <;> first | rfl | exact absurd rfl hys
    simp [whole, layout, hT, block, statements, onArray, onField, onSome, hvar.child _ (hc ys), asArray, when, this]
  · refine key (tok "unchecked" ++ sp ++ tok "{") (dec ++ nl ++ ind ++ tok "}") _ (by good) ⟨_, .inr rfl⟩ rfl (fun ys hys => ?_)
      fun ys => by simp [layout, hT, block]
    have : ys.isEmpty = false := by cases ys <;> first | rfl | exact absurd rfl hys
    simp [whole, layout, hT, block, statements, onArray, onField, onSome, hvar.child _ (hc ys), asArray, when, this]
  · refine key ((contract s₀ (.obj kvs)).entry ++ (sp ++ tok "{")) (nl ++ dec ++ ind ++ tok "}") _ (by
      have := good_documentation (s := {}) (node := .obj kvs)
      simp only [contract]
      good) ⟨_, .inl rfl⟩ rfl (fun ys hys => ?_) fun ys => by simp [layout, hT, contract]
    have : ys.isEmpty = false := by cases ys <;> first | rfl | exact absurd rfl hys
    simp [whole, layout, hT, contract, documentation, strTok, onArray, onField, onStr, onSome, getArray_child (by decide) hvar (hc ys), asArray,
      when, this, hvar.other _ (hc ys), hvar.str _ (hc ys) _ (show PlainKey "contractKind" by decide),
      hvar.str _ (hc ys) _ (show PlainKey "name" by decide), hvar.bool _ (hc ys) _ (show PlainKey "abstract" by decide)]

end SolPrint
end Mutagenyx
