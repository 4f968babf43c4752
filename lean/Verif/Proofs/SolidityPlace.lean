import Verif.Spec.SolidityText
import Verif.Proofs.SolidityEdit
import Verif.Proofs.Mutators

/-!
# The calls around those for a node in a Solidity tree
-/

namespace Mutagenyx
namespace SolPrint
open NodePrinter SolGrammar SolText
open Json hiding field

/-- The usual settings. -/
local notation "s₀" => ({} : PrintSettings)

variable {checks : Bool} {d e : Nat}

/-! ### A node among the pieces of another node -/

/-- The pieces raise the level of indentation by `d`. -/
def Rises (d : Nat) (ps : Ps) : Prop := ∀ n, walk n ps = some (n + d)

theorem rises_append {a b : Ps} (ha : Rises d a) (hb : Rises e b) : Rises (d + e) (a ++ b) := by
  intro n
  rw [walk_append, ha]
  simp only [Option.bind_some]
  rw [hb, Nat.add_assoc]

/-- Nodes of a kind. -/
def Fits (t : Option String) (w : Json) : Prop := IsObj w ∧ w.getStrForKey "nodeType" = t

/-- The pieces are those for the node with others around, `d` levels deeper. -/
def Hole (t : Option String) (d : Nat) (f : Json → Ps) : Prop :=
  ∃ P Q, Rises d P ∧ ∀ w, Fits t w → f w = P ++ ([.sub s₀ w] ++ Q)

variable {t : Option String} {f g : Json → Ps}

theorem hole_sub : Hole t 0 fun w => [.sub s₀ w] := ⟨[], [], fun _ => rfl, fun _ _ => rfl⟩

theorem Hole.right (h : Hole t d f) (b : Ps) : Hole t d fun w => f w ++ b := by
  obtain ⟨P, Q, h1, h2⟩ := h
  exact ⟨P, Q ++ b, h1, fun w hw => by simp [h2 w hw]⟩

theorem Hole.left (h : Hole t d f) {k : Nat} {a : Ps} (ha : NodePrinter.Good k a) : Hole t d fun w => a ++ f w := by
  obtain ⟨P, Q, h1, h2⟩ := h
  refine ⟨a ++ P, Q, ?_, fun w hw => by simp [h2 w hw]⟩
  have := rises_append (show Rises 0 a from ha.level) h1
  rwa [Nat.zero_add] at this

theorem Hole.inc (h : Hole t d f) : Hole t (1 + d) fun w => NodePrinter.inc ++ f w := by
  obtain ⟨P, Q, h1, h2⟩ := h
  exact ⟨NodePrinter.inc ++ P, Q, rises_append (d := 1) (fun _ => rfl) h1, fun w hw => by simp [h2 w hw]⟩

theorem Hole.congr (h : Hole t d f) (e : ∀ w, Fits t w → g w = f w) : Hole t d g := by
  obtain ⟨P, Q, h1, h2⟩ := h
  exact ⟨P, Q, h1, fun w hw => by rw [e w hw, h2 w hw]⟩

theorem hole_indented : Hole t 1 fun w => indentedStatement s₀ w :=
  (((hole_sub.left (good_ind (d := 0))).right dec).inc.left (good_nl (d := 0))).congr fun w _ => by
    simp [indentedStatement]

theorem arrayLoop_append (node : Json → Ps) (between : Ps) (len : Nat) : (i : Nat) → (xs ys : List Json) →
    arrayLoop node between len i (xs ++ ys) = arrayLoop node between len i xs ++ arrayLoop node between len (i + xs.length) ys
  | i, [], ys => by simp [arrayLoop]
  | i, x :: xs, ys => by
    simp only [List.cons_append, arrayLoop, List.length_cons]
    rw [arrayLoop_append node between len (i + 1) xs ys, show i + 1 + xs.length = i + (xs.length + 1) by omega]
    simp

/-- One of the elements of an array. -/
theorem hole_array {node : Json → Ps} {between : Ps} {pre post : List Json} {k : Nat} (hn : ∀ x ∈ pre, NodePrinter.Good k (node x))
    (hb : NodePrinter.Good k between) (h : Hole t d node) : Hole t d fun w => arrayWith node between (pre ++ w :: post) := by
  refine ((h.right _).left (good_arrayLoop (len := (pre ++ Json.null :: post).length) hb 0 pre hn)).congr
    (f := fun w => arrayLoop node between (pre ++ Json.null :: post).length 0 pre ++
      (node w ++ (when (0 + pre.length < (pre ++ Json.null :: post).length - 1) between ++
        arrayLoop node between (pre ++ Json.null :: post).length (0 + pre.length + 1) post))) fun w _ => ?_
  have hl : (pre ++ w :: post).length = (pre ++ Json.null :: post).length := by simp
  unfold arrayWith
  rw [hl, arrayLoop_append]
  rfl

theorem clauseLoop_append (s : PrintSettings) : (i : Nat) → (xs ys : List Json) →
    clauseLoop s i (xs ++ ys) = clauseLoop s i xs ++ clauseLoop s (i + xs.length) ys
  | i, [], ys => by simp [clauseLoop]
  | i, x :: xs, ys => by
    simp only [List.cons_append, clauseLoop, List.length_cons]
    rw [clauseLoop_append s (i + 1) xs ys, show i + 1 + xs.length = i + (xs.length + 1) by omega]
    simp

/-! ### A node with another child -/

/-- The nodes that differ from `j` in the value of the field `k`. -/
structure Varies (k : String) (j : Json) (P : Json → Prop) (h : Json → Json) : Prop where
  obj : ∀ w, P w → IsObj (h w)
  str : ∀ w, P w → ∀ k', PlainKey k' → getStrForKey k' (h w) = getStrForKey k' j
  bool : ∀ w, P w → ∀ k', PlainKey k' → getBoolForKey k' (h w) = getBoolForKey k' j
  other : ∀ w, P w → ∀ k', k' ≠ k → Json.field? k' (h w) = Json.field? k' j
  child : ∀ w, P w → Json.field? k (h w) = some w

theorem varies_setField {kvs : List (String × Json)} {i : Nat} {k : String} {v : Json} (hx : kvs[i]? = some (k, v))
    (hi : (kvs.map Prod.fst).findIdx? (· == k) = some i) (hv : Container v) :
    Varies k (.obj kvs) Container fun w => .obj (setField i w kvs) := by
  have hget : ∀ w, Container w → ∀ {α : Type} (f : Json → Option α), (∀ x, Container x → f x = none) → ∀ k', PlainKey k' →
      (get? k' (.obj (setField i w kvs))).bind f = (get? k' (.obj kvs)).bind f := by
    intro w hw α f hf k' hk'
    obtain ⟨g1, g2⟩ := objGet_setField hx w
    rw [get?_obj hk', get?_obj hk']
    by_cases e : k' = k
    · subst e
      rcases g2 with ⟨h3, h4, _⟩ | ⟨h3, _⟩
      · rw [h3, h4]
        simp [hf _ hv, hf _ hw]
      · rw [h3]
    · rw [g1 k' e]
  refine ⟨fun w _ => trivial, fun w hw k' hk' => hget w hw asStr ?_ k' hk', fun w hw k' hk' => hget w hw asBool ?_ k' hk',
    fun w _ k' hk' => (objGet_setField hx w).1 k' hk', fun w _ => ?_⟩
  · intro x hx; cases x <;> first | rfl | cases hx
  · intro x hx; cases x <;> first | rfl | cases hx
  · rcases (objGet_setField hx w).2 with ⟨_, h4, _⟩ | ⟨_, h4⟩
    · exact h4
    · exact absurd hi h4

theorem Fits.container {w : Json} (h : Fits t w) : Container w := by
  obtain ⟨kvs, rfl⟩ := isObj_iff.1 h.1
  trivial

variable {j : Json} {k T : String} {h : Json → Json}

/-- All that a node printer does with a node. -/
def whole (j : Json) : Ps := (layout {} j).entry ++ ((layout {} j).body ++ (layout {} j).exit)

theorem printOps_whole (hl : (layout {} j).visitChildren = false) :
    printOps checks {} j = expand checks (printOps checks) (whole j) :=
  printOps_around (by
    revert hl
    generalize layout {} j = l
    intro hl
    cases l
    cases hl
    rfl)

/-- The statements that are bodies. -/
theorem hole_body (hj : IsA T j) (hv : Varies k j Container h) {v : Json} (hb : bodyLevel T k v = some d)
    (ht : v.getStrForKey "nodeType" = t) :
    Hole t d (fun w => whole (h w)) ∧ ∀ w, Fits t w → (layout {} (h w)).visitChildren = false := by
  unfold bodyLevel at hb
  have hT : ∀ {w}, Fits t w → getStrForKey "nodeType" (h w) = some T := fun hw =>
    (hv.str _ hw.container _ (by decide)).trans hj
  split at hb
  · rename_i hm
    simp only [List.mem_cons, Prod.mk.injEq, List.not_mem_nil, or_false] at hm
    split at hb
    · cases hb
    · rename_i T' ht'
      rw [ht'] at ht
      subst ht
      have hnt : ∀ {w}, Fits (some T') w → w.getStrForKey "nodeType" = some T' := fun hw => hw.2
      rcases hm with ⟨rfl, rfl⟩ | ⟨rfl, rfl⟩ | ⟨rfl, rfl⟩
      · refine ⟨?_, fun w hw => by simp [layout, hT hw]⟩
        have e : ∀ w, Fits (some T') w → whole (h w) = (tok "if" ++ tok "(" ++ field s₀ "condition" j ++ tok ")" ++ sp) ++
            ((if T' = "Block" then [.sub s₀ w] else indentedStatement s₀ w) ++
              onField "falseBody" j fun b => onStr "nodeType" b fun t =>
                if t = "Block" then sp ++ tok "else" ++ sp ++ [.sub s₀ b] else nl ++ ind ++ tok "else" ++ indentedStatement s₀ b) := by
          intro w hw
          simp [whole, layout, hT hw, ifStatement, field, onField, onStr, onSome, hv.other w hw.container, hv.child w hw.container, hnt hw]
        refine Hole.congr (Hole.left (Hole.right ?_ _) (k := depth j) (by good)) e
        split at hb <;> cases hb
        · rename_i hB; simp only [hB, if_true]; exact hole_sub
        · rename_i hB; simp only [hB, if_false]; exact hole_indented
      · refine ⟨?_, fun w hw => by simp [layout, hT hw]⟩
        have e : ∀ w, Fits (some T') w → whole (h w) = ((tok "if" ++ tok "(" ++ field s₀ "condition" j ++ tok ")" ++ sp) ++
            (onField "trueBody" j fun b => onStr "nodeType" b fun t =>
                if t = "Block" then [.sub s₀ b] else indentedStatement s₀ b)) ++
            (if T' = "Block" then (sp ++ tok "else" ++ sp) ++ [.sub s₀ w] else (nl ++ ind ++ tok "else") ++ indentedStatement s₀ w) := by
          intro w hw
          simp [whole, layout, hT hw, ifStatement, field, onField, onStr, onSome, hv.other w hw.container, hv.child w hw.container, hnt hw]
        refine Hole.congr (Hole.left ?_ (k := depth j) ?_) e
        · split at hb <;> cases hb
          · rename_i hB; simp only [hB, if_true]; exact hole_sub.left (k := 0) (by good)
          · rename_i hB; simp only [hB, if_false]; exact hole_indented.left (k := 0) (by good)
        · good
          all_goals exact good_indentedStatement ‹_›
      · refine ⟨?_, fun w hw => by simp [layout, hT hw]⟩
        have e : ∀ w, Fits (some T') w → whole (h w) = (tok "for(" ++ field s₀ "initializationExpression" j ++
            (onField "condition" j fun c => sp ++ [.sub s₀ c] ++ tok ";") ++
            (onField "loopExpression" j fun l => sp ++ [.sub { ({} : PrintSettings) with semicolon := false } l]) ++ tok ")") ++
            (if T' = "Block" then sp ++ [.sub s₀ w] else indentedStatement s₀ w) := by
          intro w hw
          simp [whole, layout, hT hw, forStatement, field, onField, onStr, onSome, hv.other w hw.container, hv.child w hw.container, hnt hw]
        refine Hole.congr (Hole.left ?_ (k := depth j) (by good)) e
        split at hb <;> cases hb
        · rename_i hB; simp only [hB, if_true]; exact hole_sub.left (k := 0) (by good)
        · rename_i hB; simp only [hB, if_false]; exact hole_indented
  · split at hb
    · rename_i hm
      simp only [List.mem_cons, Prod.mk.injEq, List.not_mem_nil, or_false] at hm
      cases hb
      rcases hm with ⟨rfl, rfl⟩ | ⟨rfl, rfl⟩ | ⟨rfl, rfl⟩ | ⟨rfl, rfl⟩ | ⟨rfl, rfl⟩
      · refine ⟨?_, fun w hw => by simp [layout, hT hw]⟩
        have e : ∀ w, Fits t w → whole (h w) =
            ((tok "while" ++ sp ++ (onField "condition" j fun c => tok "(" ++ [.sub s₀ c] ++ tok ")")) ++ sp) ++ [.sub s₀ w] := by
          intro w hw
          simp [whole, layout, hT hw, whileStatement, onField, onSome, hv.other w hw.container, hv.child w hw.container]
        exact Hole.congr (hole_sub.left (k := depth j) (by good)) e
      · refine ⟨?_, fun w hw => by simp [layout, hT hw]⟩
        have e : ∀ w, Fits t w → whole (h w) = (tok "do" ++ sp) ++ ([.sub s₀ w] ++
            ((onField "condition" j fun c => sp ++ tok "while" ++ sp ++ tok "(" ++ [.sub s₀ c] ++ tok ")") ++ tok ";")) := by
          intro w hw
          simp [whole, layout, hT hw, doWhileStatement, onField, onSome, hv.other w hw.container, hv.child w hw.container]
        exact Hole.congr ((hole_sub.right _).left (k := depth j) (by good)) e
      · refine ⟨?_, fun w hw => by simp [layout, hT hw, functionDefinition]⟩
        have hs : ∀ {w}, Fits t w → ∀ k, PlainKey k → getStrForKey k (h w) = getStrForKey k j := fun hw => hv.str _ hw.container
        have hb : ∀ {w}, Fits t w → ∀ k, PlainKey k → getBoolForKey k (h w) = getBoolForKey k j := fun hw => hv.bool _ hw.container
        have e : ∀ w, Fits t w → whole (h w) = ((functionDefinition s₀ j).entry ++ (field s₀ "parameters" j ++
            (onStr "visibility" j fun v => sp ++ tok v) ++
            when (j.getBoolForKey "virtual" = some true) (sp ++ tok "virtual") ++
            (onStr "stateMutability" j fun m => when (m ≠ "nonpayable" || ({} : PrintSettings).nonpayable) (sp ++ tok m)) ++
            (onField "overrides" j fun o => sp ++ [.sub s₀ o]) ++ spaceAndArray s₀ "modifiers" j ++ returnParameters s₀ j ++ sp)) ++
            ([.sub s₀ w] ++ when (j.getBoolForKey "implemented" = some false) (tok ";")) := by
          intro w hw
          simp [whole, layout, hT hw, functionDefinition, field, documentation, spaceAndArray, returnParameters, onArray, strTok, onField,
            onStr, onSome, hv.other w hw.container, hv.child w hw.container, hs hw _ (show PlainKey "visibility" by decide),
            hs hw _ (show PlainKey "kind" by decide), hs hw _ (show PlainKey "name" by decide),
            hs hw _ (show PlainKey "stateMutability" by decide), hb hw _ (show PlainKey "virtual" by decide),
            hb hw _ (show PlainKey "implemented" by decide)]
        refine Hole.congr ((hole_sub.right _).left (k := depth j) ?_) e
        have h1 := good_documentation (s := {}) (node := j)
        have h2 := good_returnParameters (s := {}) (node := j)
        simp only [functionDefinition, spaceAndArray]
        good
      · refine ⟨?_, fun w hw => by simp [layout, hT hw, modifierDefinition]⟩
        have hs : ∀ {w}, Fits t w → ∀ k, PlainKey k → getStrForKey k (h w) = getStrForKey k j := fun hw => hv.str _ hw.container
        have hb : ∀ {w}, Fits t w → ∀ k, PlainKey k → getBoolForKey k (h w) = getBoolForKey k j := fun hw => hv.bool _ hw.container
        have e : ∀ w, Fits t w → whole (h w) = ((documentation s₀ j ++ tok "modifier" ++ sp ++ strTok "name" j ++ field s₀ "parameters" j) ++
            (when (j.getBoolForKey "virtual" = some true) (sp ++ tok "virtual") ++ field s₀ "overrides" j ++ sp)) ++ [.sub s₀ w] := by
          intro w hw
          simp [whole, layout, hT hw, modifierDefinition, field, documentation, strTok, onField, onStr, onSome, hv.other w hw.container,
            hv.child w hw.container, hs hw _ (show PlainKey "name" by decide), hb hw _ (show PlainKey "virtual" by decide)]
        refine Hole.congr (hole_sub.left (k := depth j) ?_) e
        have h1 := good_documentation (s := {}) (node := j)
        good
      · refine ⟨?_, fun w hw => by simp [layout, hT hw]⟩
        have e : ∀ w, Fits t w → whole (h w) = ((onStr "errorName" j fun e => when (!e.toList.isEmpty) (tok e)) ++
            (onField "parameters" j fun p => [.sub s₀ p] ++ sp)) ++ [.sub s₀ w] := by
          intro w hw
          simp [whole, layout, hT hw, tryCatchClause, field, onField, onStr, onSome, hv.other w hw.container, hv.child w hw.container,
            hv.str _ hw.container _ (show PlainKey "errorName" by decide)]
        exact Hole.congr (hole_sub.left (k := depth j) (by good)) e
    · cases hb

theorem getArray_child {w : Json} (hk : PlainKey k) (hv : Varies k j Container h) (hw : Container w) :
    getArrayForKey k (h w) = asArray w := by
  rw [getArray_field hk (hv.obj w hw), ← field?_eq_field, hv.child w hw]
  rfl

/-- The elements of lists of which each begins a line or is a clause. -/
theorem hole_list (hj : IsA T j) (hv : Varies k j Container h) {pre post : List Json} (hb : listLevel T k = some d) :
    Hole t d (fun w => whole (h (.arr (pre ++ w :: post)))) ∧
      ∀ w, Fits t w → (layout {} (h (.arr (pre ++ w :: post)))).visitChildren = false := by
  unfold listLevel at hb
  have hc : ∀ w : Json, Container (.arr (pre ++ w :: post)) := fun _ => trivial
  have hT : ∀ {w}, Fits t w → getStrForKey "nodeType" (h (.arr (pre ++ w :: post))) = some T := fun hw =>
    (hv.str _ (hc _) _ (by decide)).trans hj
  have hs : ∀ w k', PlainKey k' → getStrForKey k' (h (.arr (pre ++ w :: post))) = getStrForKey k' j := fun w => hv.str _ (hc w)
  have hbo : ∀ w k', PlainKey k' → getBoolForKey k' (h (.arr (pre ++ w :: post))) = getBoolForKey k' j := fun w => hv.bool _ (hc w)
  have hne : ∀ w : Json, (pre ++ w :: post).isEmpty = false := by intro w; cases pre <;> rfl
  -- the largest depth of the elements before
  let D := depth (.arr pre)
  have hD : ∀ x ∈ pre, depth x < D := fun x hx => depth_mem_arr hx
  have hblock : ∀ (P : Ps), NodePrinter.Good 0 P → Hole t 1 fun w => P ++ ((inc ++ (nl ++ arrayWith (fun n => ind ++ [.sub s₀ n]) nl
      (pre ++ w :: post)) ++ dec) ++ nl ++ ind ++ tok "}") := by
    intro P hP
    have h1 : Hole t 0 fun w => arrayWith (fun n => ind ++ [.sub s₀ n]) nl (pre ++ w :: post) :=
      hole_array (k := D) (fun x hx => by have := hD x hx; good) good_nl (hole_sub.left (good_ind (d := 0)))
    exact (((h1.left (good_nl (d := 0))).right (dec ++ (nl ++ (ind ++ tok "}")))).inc.left hP).congr fun w _ => by simp
  split at hb
  · rename_i hm
    simp only [List.mem_cons, Prod.mk.injEq, List.not_mem_nil, or_false] at hm
    cases hb
    rcases hm with ⟨rfl, rfl⟩ | ⟨rfl, rfl⟩ | ⟨rfl, rfl⟩
    · refine ⟨(hblock (tok "{") good_tok).congr fun w hw => ?_, fun w hw => by simp [layout, hT hw, block]⟩
      simp [whole, layout, hT hw, block, statements, onArray, onField, onSome, hv.child _ (hc w), asArray, when, hne w]
    · refine ⟨(hblock (tok "unchecked" ++ sp ++ tok "{") (by good)).congr fun w hw => ?_, fun w hw => by simp [layout, hT hw, block]⟩
      simp [whole, layout, hT hw, block, statements, onArray, onField, onSome, hv.child _ (hc w), asArray, when, hne w]
    · refine ⟨?_, fun w hw => by simp [layout, hT hw, contract]⟩
      have h1 : Hole t 0 fun w => arrayWith (fun n => ind ++ [.sub s₀ n] ++
          when (n.getStrForKey "nodeType" = some "VariableDeclaration") (tok ";")) (nl ++ nl) (pre ++ w :: post) := by
        refine hole_array (k := D) (fun x hx => by have := hD x hx; good) (good_append good_nl good_nl) ?_
        refine ((hole_sub.left (good_ind (d := 0))).right (when (t = some "VariableDeclaration") (tok ";"))).congr fun w hw => ?_
        rw [hw.2]
      have h2 := (((h1.left (good_nl (d := 0))).right (nl ++ (dec ++ (ind ++ tok "}")))).inc).left (k := depth j)
        (a := (contract s₀ j).entry ++ (sp ++ tok "{")) (by
          have := good_documentation (s := {}) (node := j)
          simp only [contract]
          good)
      refine h2.congr fun w hw => ?_
      simp [whole, layout, hT hw, contract, documentation, strTok, onArray, onField, onStr, onSome, getArray_child (by decide) hv (hc w), asArray, when, hne w,
        hv.other _ (hc w), hs w _ (show PlainKey "contractKind" by decide), hs w _ (show PlainKey "name" by decide),
        hbo w _ (show PlainKey "abstract" by decide)]
  · split at hb
    · rename_i hm
      simp only [List.mem_cons, Prod.mk.injEq, List.not_mem_nil, or_false] at hm
      cases hb
      rcases hm with ⟨rfl, rfl⟩ | ⟨rfl, rfl⟩
      · refine ⟨?_, fun w hw => by simp [layout, hT hw, sourceUnit]⟩
        have h1 : Hole t 0 fun w => arrayWith (fun n => ind ++ [.sub s₀ n]) (nl ++ nl) (pre ++ w :: post) :=
          hole_array (k := D) (fun x hx => by have := hD x hx; good) (good_append good_nl good_nl) (hole_sub.left (good_ind (d := 0)))
        have h2 := (h1.right (nl ++ nl)).left (k := depth j) (a := (sourceUnit s₀ j).entry) (by simp only [sourceUnit]; good)
        refine h2.congr fun w hw => ?_
        simp [whole, layout, hT hw, sourceUnit, onArray, onField, onStr, onSome, hv.child _ (hc w), asArray,
          hs w _ (show PlainKey "license" by decide)]
      · refine ⟨?_, fun w hw => by simp [layout, hT hw]⟩
        have h2 := ((hole_sub (t := t)).right (sp ++ clauseLoop s₀ (pre.length + 1) post)).left (k := max D (depth j))
          (a := (tok "try" ++ sp ++ (onField "externalCall" j fun c => [.sub s₀ c] ++ sp)) ++ (clauseLoop s₀ 0 pre ++
            when (decide (1 ≤ pre.length)) (tok "catch" ++ sp))) (by
            refine good_append (NodePrinter.Good.mono (d := depth j) (by good) (by omega)) (NodePrinter.Good.mono (d := D) ?_ (by omega))
            have := good_clauseLoop (s := s₀) (d := D) 0 pre hD
            good)
        refine h2.congr fun w hw => ?_
        simp [whole, layout, hT hw, tryStatement, onField, onSome, getArray_child (by decide) hv (hc w), asArray, hv.other _ (hc w),
          clauseLoop_append, clauseLoop]
    · cases hb

/-! ### Any number of steps -/

/-- The calls for a tree are those for the node at the position with others around. -/
def Surrounds (checks : Bool) (d : Nat) (t : Option String) (f : Json → Json) : Prop :=
  ∃ A B, Printer.changes A = d ∧ Above 0 A ∧ ∀ x, Fits t x → printOps checks {} (f x) = A ++ (printOps checks {} x ++ B)

theorem surrounds_of_hole {f : Json → Json} (hh : Hole t d fun w => whole (f w)) (hl : ∀ w, Fits t w → (layout {} (f w)).visitChildren = false) :
    Surrounds checks d t f := by
  obtain ⟨P, Q, h1, h2⟩ := hh
  have := walk_changes (checks := checks) (f := printOps checks) P (fun s x _ => ops_balanced good_layout checks s x) 0 d (by
    have := h1 0
    rwa [Nat.zero_add] at this)
  refine ⟨expand checks (printOps checks) P, expand checks (printOps checks) Q, by simpa using this.1, by simpa using this.2, fun x hx => ?_⟩
  rw [printOps_whole (hl x hx), show whole (f x) = _ from h2 x hx, expand_append, expand_append]
  simp [expand]

theorem Surrounds.comp {f g : Json → Json} {t' : Option String} (hf : Surrounds checks d t' f) (hg : Surrounds checks e t g)
    (hk : ∀ x, Fits t x → Fits t' (g x)) : Surrounds checks (d + e) t fun x => f (g x) := by
  obtain ⟨A, B, a1, a2, a3⟩ := hf
  obtain ⟨A', B', b1, b2, b3⟩ := hg
  refine ⟨A ++ A', B' ++ B, ?_, ?_, fun x hx => ?_⟩
  · rw [changes_append, a1, b1]; omega
  · refine a2.append (b2.mono ?_)
    rw [a1]; omega
  · rw [a3 _ (hk x hx), b3 x hx]; simp

theorem kind_kept : (pos : Pos) → (j n x : Json) → nodeAt pos j = some n → IsObj n → Fits (n.getStrForKey "nodeType") x →
    IsObj j → Fits (j.getStrForKey "nodeType") (replaceAt pos x j)
  | [], j, n, x, hn, _, hx, _ => by
    simp only [nodeAt, Option.some.injEq] at hn
    subst hn
    exact hx
  | i :: p, j, n, x, hn, ho, hx, hj => by
    obtain ⟨kvs, rfl⟩ := isObj_iff.1 hj
    rcases edit_obj ho hx.1 (vis := visible (i :: p) (.obj kvs)) ⟨i :: p, hn, rfl, rfl⟩ with ⟨h1, h2, _⟩ | ⟨k, h1⟩
    · rw [h2, h1]; exact hx
    · exact ⟨h1.obj', h1.str _ (by decide)⟩

theorem surrounds_at : (pos : Pos) → (j n : Json) → (d : Nat) → levelAt pos j = some d → nodeAt pos j = some n → IsObj n → IsObj j →
    Surrounds checks d (n.getStrForKey "nodeType") fun x => replaceAt pos x j
  | [], j, n, d, hd, hn, _, _ => by
    cases hd
    exact ⟨[], [], rfl, Above.nil (by omega), fun x _ => by simp [replaceAt]⟩
  | i :: p, j, n, d, hd, hn, ho, hj => by
    obtain ⟨kvs, rfl⟩ := isObj_iff.1 hj
    unfold levelAt at hd
    split at hd
    case h_2 => cases hd
    rename_i k v t hx ht
    split at hd
    case isFalse => cases hd
    rename_i hi
    have hc : (kvs.map Prod.snd)[i]? = some v := by simp [hx]
    simp only [nodeAt, children, hc] at hn
    have hrep : ∀ x, replaceAt (i :: p) x (.obj kvs) = .obj (setField i (replaceAt p x v) kvs) := fun x => by
      simp only [replaceAt, children, hc, setChildren, setField]
    simp only [hrep]
    split at hd
    · rename_i xs
      cases p with
      | nil => cases hd
      | cons m p =>
        simp only at hd
        split at hd
        case h_2 => cases hd
        rename_i y d1 hy hl
        simp only [Option.map_eq_some_iff] at hd
        obtain ⟨d2, hd2, rfl⟩ := hd
        simp only [nodeAt, children, hy] at hn
        have hlt := (List.getElem?_eq_some_iff.1 hy).1
        have hr : ∀ x, replaceAt (m :: p) x (.arr xs) = .arr (xs.take m ++ replaceAt p x y :: xs.drop (m + 1)) := fun x => by
          simp only [replaceAt, children, hy, setChildren]
          rw [List.set_eq_take_append_cons_drop, if_pos hlt]
        simp only [hr]
        have hyo : IsObj y := by
          cases p with
          | nil =>
            simp only [nodeAt, Option.some.injEq] at hn
            exact hn ▸ ho
          | cons => cases y <;> first | trivial | simp [levelAt] at hd2
        obtain ⟨h1, h2⟩ := hole_list (t := y.getStrForKey "nodeType") (pre := xs.take m) (post := xs.drop (m + 1)) ht
          (varies_setField hx hi trivial) hl
        exact (surrounds_of_hole h1 h2).comp (surrounds_at p y n d2 hd2 hn ho hyo) fun x hx => kind_kept p y n x hn ho hx hyo
    · rename_i hna
      split at hd
      case h_2 => cases hd
      rename_i d1 hl
      simp only [Option.map_eq_some_iff] at hd
      obtain ⟨d2, hd2, rfl⟩ := hd
      have hyo : IsObj v := by
        cases p with
        | nil =>
          simp only [nodeAt, Option.some.injEq] at hn
          exact hn ▸ ho
        | cons => cases v <;> first | trivial | simp [levelAt] at hd2
      obtain ⟨h1, h2⟩ := hole_body (t := v.getStrForKey "nodeType") ht (varies_setField hx hi (by
        obtain ⟨_, rfl⟩ := isObj_iff.1 hyo; trivial)) hl rfl
      exact (surrounds_of_hole h1 h2).comp (surrounds_at p v n d2 hd2 hn ho hyo) fun x hx => kind_kept p v n x hn ho hx hyo

end SolPrint
end Mutagenyx
