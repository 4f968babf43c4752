import Verif.Proofs.SolidityEdit

/-!
# Replacing a node changes the Solidity program at one place
-/

namespace Mutagenyx
namespace SolPrint
open SolGrammar Json

/-- The types of the nodes that are replaced. -/
def wholeTypes : List String :=
  ["BinaryOperation", "UnaryOperation", "Assignment", "FunctionCall", "IfStatement", "Literal", "Block", "MemberAccess",
   "UncheckedBlock", "ContractDefinition", "WhileStatement", "ForStatement", "DoWhileStatement", "FunctionDefinition",
   "ModifierDefinition", "TryCatchClause"]

/-- Putting `n'` in the place of `n` is the change. -/
structure Carries (c : Change) (n n' : Json) : Prop where
  obj' : IsObj n'
  whole : ∃ t ∈ wholeTypes, IsA t n
  expr : ∀ e, Shows e n → ∃ e', Shows e' n' ∧ c.expr e e'
  try_ : ∀ e, ShowsTry e n → ∃ e', ShowsTry e' n' ∧ c.expr e e'
  block : ∀ ss, ShowsStmt (.block ss) n → ∃ ss', ShowsStmt (.block ss') n' ∧ c.stmt (.block ss) (.block ss')
  stmt : ∀ s, ShowsStmt s n → (∀ ss, s ≠ .block ss) → ∃ s', ShowsStmt s' n' ∧ c.stmt s s'
  clause : ∀ t ps b, ¬ ShowsStmt (.clause t ps b) n
  member : ∀ m, ¬ ShowsMember m n
  contract : ∀ k, ShowsContract k n → ∃ k', ShowsContract k' n' ∧ c.contract k k'

variable {c : Change} {n n' : Json} {vis : Bool} {j j' : Json}

theorem Carries.obj (C : Carries c n n') : IsObj n := by
  obtain ⟨t, _, h⟩ := C.whole
  obtain ⟨kvs, rfl⟩ := isObj_of_isA h
  trivial

theorem Carries.not (C : Carries c n n') {t : String} (h : IsA t j) (ht : t ∉ wholeTypes) : j ≠ n := by
  rintro rfl
  obtain ⟨u, hu, h'⟩ := C.whole
  unfold IsA at h h'
  rw [h] at h'
  cases h'
  exact ht hu

/-- One step into a node that is not replaced. -/
theorem Carries.into (C : Carries c n n') (h : Edit n n' vis j j') {t : String} (hA : IsA t j) (ht : t ∉ wholeTypes) :
    ∃ k, Step n n' vis (partsOf t) k j j' := by
  rcases edit_step C.obj C.obj' h hA with ⟨e, _⟩ | h
  · exact absurd e (C.not hA ht)
  · exact h

/-- Nodes whose texts alone matter. -/
theorem Carries.inert (C : Carries c n n') (h : Edit n n' vis j j') {t : String} (hA : IsA t j) (ht : t ∉ wholeTypes) :
    IsA t j' ∧ ∀ key, PlainKey key → getStrForKey key j' = getStrForKey key j := by
  obtain ⟨k, S⟩ := C.into h hA ht
  exact ⟨S.isA hA, S.str⟩

theorem Carries.noStr (C : Carries c n n') {t : String} {v' : Json} : ¬ Edit n n' vis (.str t) v' :=
  no_edit C.obj C.obj' id

theorem Carries.noNull (C : Carries c n n') {v' : Json} : ¬ Edit n n' vis .null v' :=
  no_edit C.obj C.obj' id

variable {ps : List String} {k : String}

theorem Carries.texts (C : Carries c n n') (S : Step n n' vis ps k j j') {key : String} (hk : PlainKey key) {ts : List String}
    (h : j.getArrayForKey key = some (ts.map .str)) : j'.getArrayForKey key = some (ts.map .str) := by
  rw [S.arr hk] at h
  rw [S.arr' hk]
  refine S.plain C.obj C.obj' h ?_
  intro vis' v' hE
  obtain ⟨pre, x, x', post, h1, _, h3⟩ := edit_arr C.obj hE
  have hm : x ∈ ts.map Json.str := by rw [h1]; simp
  obtain ⟨t, _, rfl⟩ := List.mem_map.1 hm
  exact C.noStr h3

/-! ### Expressions -/

theorem inList_cons_head {α : Type} {r : α → α → Prop} {a a' : α} {as : List α} (h : r a a') : InList r (a :: as) (a' :: as) :=
  .mk (pre := []) h

theorem inList_cons_tail {α : Type} {r : α → α → Prop} {a : α} {as as' : List α} (h : InList r as as') : InList r (a :: as) (a :: as') := by
  obtain ⟨h⟩ := h
  exact .mk (pre := _ :: _) h

theorem edit_elemType (C : Carries c n n') {p : List String} : {m : Nat} → {vis : Bool} → {j j' : Json} → ShowsNew p m j → Edit n n' vis j j' → ShowsNew p m j'
  | 0, vis, j, j', hS, h => by
    simp only [ShowsNew] at hS ⊢
    rcases hS with ⟨t, rfl, hA, h1, h2⟩ | ⟨hA, v, h1, h2, h3⟩
    · obtain ⟨hA', hs⟩ := C.inert h hA (by decide)
      exact .inl ⟨t, rfl, hA', by rw [hs _ (by decide)]; exact h1, by rw [hs _ (by decide)]; exact h2⟩
    · obtain ⟨k, S⟩ := C.into h hA (by decide)
      obtain ⟨v', g1, g2⟩ := S.keep (P := fun v => IsA "IdentifierPath" v ∧ v.getStrForKey "name" = some (dotted p)) h1 ⟨h2, h3⟩
        (fun vis' v' hE => by
          obtain ⟨hA', hs⟩ := C.inert hE h2 (by decide)
          exact ⟨hA', by rw [hs _ (by decide)]; exact h3⟩)
      exact .inr ⟨S.isA hA, v', g1, g2⟩
  | m + 1, vis, j, j', hS, h => by
    simp only [ShowsNew] at hS ⊢
    obtain ⟨hA, ⟨v, h1, h2⟩, h3⟩ := hS
    obtain ⟨k, S⟩ := C.into h hA (by decide)
    obtain ⟨v', g1, g2⟩ := S.keep h1 h2 (fun vis' v' hE => edit_elemType C h2 hE)
    exact ⟨S.isA hA, ⟨v', g1, g2⟩, S.gone h3⟩

/-- The replaced node is the expression. -/
theorem Carries.hereExpr (C : Carries c n n') {e : Expr} (h : Shows e n) : ∃ e', Shows e' n' ∧ Chg (InExpr c) true e e' := by
  obtain ⟨e', h1, h2⟩ := C.expr e h
  exact ⟨e', h1, .inl (.here h2)⟩

mutual
theorem edit_expr (C : Carries c n n') : (e : Expr) → {vis : Bool} → {j j' : Json} → Shows e j → Edit n n' vis j j' →
    ∃ e', Shows e' j' ∧ Chg (InExpr c) vis e e'
  | .leaf t, vis, j, j', hS, h => by
    have hS' := hS
    simp only [Shows] at hS
    rcases hS with ⟨hA, h1⟩ | ⟨hA, h1, h2, h3⟩ | ⟨hA, h1, v, h2, h3, h4⟩
    · obtain ⟨k, S⟩ := C.into h hA (by decide)
      refine ⟨.leaf t, ?_, S.nothing (InExpr c) (by decide)⟩
      simp only [Shows]
      exact .inl ⟨S.isA hA, by rw [S.str _ (by decide)]; exact h1⟩
    · rcases edit_step C.obj C.obj' h hA with ⟨rfl, rfl, rfl⟩ | ⟨k, S⟩
      · exact C.hereExpr hS'
      refine ⟨.leaf t, ?_, S.nothing (InExpr c) (by decide)⟩
      simp only [Shows]
      refine .inr (.inl ⟨S.isA hA, ?_⟩)
      rw [S.str _ (by decide), S.str _ (by decide), S.str _ (by decide)]
      exact ⟨h1, h2, h3⟩
    · obtain ⟨k, S⟩ := C.into h hA (by decide)
      refine ⟨.leaf t, ?_, S.nothing (InExpr c) (by decide)⟩
      simp only [Shows]
      obtain ⟨v', g1, g2⟩ := S.keep (P := fun v => IsA "ElementaryTypeName" v ∧
        (v.getStrForKey "name" = some t ∧ v.getStrForKey "stateMutability" = none ∨
          t = "payable" ∧ v.getStrForKey "stateMutability" = some "payable")) h2 ⟨h3, h4⟩ (fun vis' v' hE => by
            obtain ⟨hA', hs⟩ := C.inert hE h3 (by decide)
            refine ⟨hA', ?_⟩
            rw [hs _ (by decide), hs _ (by decide)]
            exact h4)
      exact .inr (.inr ⟨S.isA hA, by rw [S.bool _ (by decide)]; exact h1, v', g1, g2⟩)
  | .unit m u, vis, j, j', hS, h => by
    have hS' := hS
    simp only [Shows] at hS
    obtain ⟨hA, h1, h2, h3⟩ := hS
    rcases edit_step C.obj C.obj' h hA with ⟨rfl, rfl, rfl⟩ | ⟨k, S⟩
    · exact C.hereExpr hS'
    refine ⟨.unit m u, ?_, S.nothing (InExpr c) (by decide)⟩
    simp only [Shows]
    refine ⟨S.isA hA, ?_⟩
    rw [S.str _ (by decide), S.str _ (by decide), S.str _ (by decide)]
    exact ⟨h1, h2, h3⟩
  | .str t, vis, j, j', hS, h => by
    have hS' := hS
    simp only [Shows] at hS
    obtain ⟨hA, h1, h2, h3⟩ := hS
    rcases edit_step C.obj C.obj' h hA with ⟨rfl, rfl, rfl⟩ | ⟨k, S⟩
    · exact C.hereExpr hS'
    refine ⟨.str t, ?_, S.nothing (InExpr c) (by decide)⟩
    simp only [Shows]
    refine ⟨S.isA hA, ?_⟩
    rw [S.str _ (by decide), S.str _ (by decide), S.str _ (by decide)]
    exact ⟨h1, h2, h3⟩
  | .new_ p m, vis, j, j', hS, h => by
    simp only [Shows] at hS
    obtain ⟨hA, v, h1, h2⟩ := hS
    obtain ⟨k, S⟩ := C.into h hA (by decide)
    refine ⟨.new_ p m, ?_, S.nothing (InExpr c) (by decide)⟩
    simp only [Shows]
    obtain ⟨v', g1, g2⟩ := S.keep h1 h2 (fun vis' v' hE => edit_elemType C h2 hE)
    exact ⟨S.isA hA, v', g1, g2⟩
  | .hole, vis, j, j', hS, h => by
    simp only [Shows] at hS
    subst hS
    exact absurd h C.noNull
  | .tuple es, vis, j, j', hS, h => by
    simp only [Shows] at hS
    obtain ⟨hA, vs, h1, h2⟩ := hS
    obtain ⟨k, S⟩ := C.into h hA (by decide)
    obtain ⟨vs', es', g1, g2, g3⟩ := S.kids C.obj h1 h2 (fun vis' pre x x' post e hE => edit_all C es h2 e hE) (by decide)
    refine ⟨.tuple es', ?_, S.one (InExpr c) .tuple g3 (by decide) (fun ⟨hr⟩ => .place hr)⟩
    simp only [Shows]
    exact ⟨S.isA hA, vs', g1, g2⟩
  | .paren e, vis, j, j', hS, h => by
    simp only [Shows] at hS
    obtain ⟨hA, v, h1, h2⟩ := hS
    obtain ⟨k, S⟩ := C.into h hA (by decide)
    obtain ⟨vs', e', g1, ⟨v', rfl, g2⟩, g3⟩ := S.kids C.obj (Q := fun e vs => ∃ v, vs = [v] ∧ Shows e v) h1 ⟨v, rfl, h2⟩
      (fun vis' pre x x' post e hE => by
        have := congrArg List.length e
        simp only [List.length_cons, List.length_nil, List.length_append] at this
        have hp : pre = [] := List.length_eq_zero_iff.1 (by omega)
        have hq : post = [] := List.length_eq_zero_iff.1 (by omega)
        subst hp hq
        simp only [List.nil_append, List.cons.injEq, and_true] at e
        subst e
        obtain ⟨e', g1, g2⟩ := edit_expr C _ h2 hE
        exact ⟨e', ⟨_, rfl, g1⟩, g2⟩) (by decide)
    refine ⟨.paren e', ?_, S.one (InExpr c) .paren g3 (by decide) .paren⟩
    simp only [Shows]
    exact ⟨S.isA hA, v', g1, g2⟩
  | .member e id, vis, j, j', hS, h => by
    have hS' := hS
    simp only [Shows] at hS
    obtain ⟨hA, hid, v, h1, h2⟩ := hS
    rcases edit_step C.obj C.obj' h hA with ⟨rfl, rfl, rfl⟩ | ⟨k, S⟩
    · exact C.hereExpr hS'
    obtain ⟨v', e', g1, g2, g3⟩ := S.kid h1 h2 (fun vis' v' hE => edit_expr C e h2 hE) (by decide)
    refine ⟨.member e' id, ?_, S.one (InExpr c) (.member · id) g3 (by decide) .member⟩
    simp only [Shows]
    exact ⟨S.isA hA, by rw [S.str _ (by decide)]; exact hid, v', g1, g2⟩
  | .index e i, vis, j, j', hS, h => by
    simp only [Shows] at hS
    obtain ⟨hA, ⟨v, h1, h2⟩, w, h3, h4⟩ := hS
    obtain ⟨k, S⟩ := C.into h hA (by decide)
    obtain ⟨v', e', g1, g2, g3⟩ := S.kid h1 h2 (fun vis' v' hE => edit_expr C e h2 hE) (by decide)
    obtain ⟨w', i', g4, g5, g6⟩ := S.kid h3 h4 (fun vis' v' hE => edit_expr C i h4 hE) (by decide)
    refine ⟨.index e' i', ?_, S.two (InExpr c) .index g3 g6 (by decide) (by decide) .indexed .index⟩
    simp only [Shows]
    exact ⟨S.isA hA, ⟨v', g1, g2⟩, w', g4, g5⟩
  | .emptyIndex e, vis, j, j', hS, h => by
    simp only [Shows] at hS
    obtain ⟨hA, ⟨v, h1, h2⟩, h3⟩ := hS
    obtain ⟨k, S⟩ := C.into h hA (by decide)
    obtain ⟨v', e', g1, g2, g3⟩ := S.kid h1 h2 (fun vis' v' hE => edit_expr C e h2 hE) (by decide)
    refine ⟨.emptyIndex e', ?_, S.two (InExpr c) (fun e _ => .emptyIndex e) g3 (S.goneKid h3) (by decide) (by decide) .emptyIndexed False.elim⟩
    simp only [Shows]
    exact ⟨S.isA hA, ⟨v', g1, g2⟩, S.gone h3⟩
  | .call f args, vis, j, j', hS, h => by
    have hS' := hS
    simp only [Shows] at hS
    obtain ⟨hA, ⟨v, h1, h2⟩, ⟨vs, h3, h4⟩, h5, h6⟩ := hS
    rcases edit_step C.obj C.obj' h hA with ⟨rfl, rfl, rfl⟩ | ⟨k, S⟩
    · exact C.hereExpr hS'
    obtain ⟨v', f', g1, g2, g3⟩ := S.kid h1 h2 (fun vis' v' hE => edit_expr C f h2 hE) (by decide)
    obtain ⟨vs', args', g4, g5, g6⟩ := S.kids C.obj h3 h4 (fun vis' pre x x' post e hE => edit_all C args h4 e hE) (by decide)
    refine ⟨.call f' args', ?_, S.two (InExpr c) .call g3 g6 (by decide) (by decide) .called (fun ⟨hr⟩ => .argument hr)⟩
    simp only [Shows]
    exact ⟨S.isA hA, ⟨v', g1, g2⟩, ⟨vs', g4, g5⟩, C.texts S (by decide) (ts := []) h5, by rw [S.bool _ (by decide)]; exact h6⟩
  | .named f ns args, vis, j, j', hS, h => by
    have hS' := hS
    simp only [Shows] at hS
    obtain ⟨hA, ⟨v, h1, h2⟩, ⟨vs, h3, h4⟩, h5, h6⟩ := hS
    rcases edit_step C.obj C.obj' h hA with ⟨rfl, rfl, rfl⟩ | ⟨k, S⟩
    · exact C.hereExpr hS'
    rw [S.arr (by decide)] at h3
    obtain ⟨v', f', g1, g2, g3⟩ := S.kid h1 h2 (fun vis' v' hE => edit_expr C f h2 hE) (by decide)
    obtain ⟨vs', args', g4, g5, g6⟩ := S.kids C.obj h3 h4 (fun vis' pre x x' post e hE => edit_all C args h4 e hE) (by decide)
    refine ⟨.named f' ns args', ?_, S.two (InExpr c) (.named · ns ·) g3 g6 (by decide) (by decide) .calledNamed (fun ⟨hr⟩ => .argumentNamed hr)⟩
    simp only [Shows]
    exact ⟨S.isA hA, ⟨v', g1, g2⟩, ⟨vs', (S.arr' (by decide)).2 g4, g5⟩, C.texts S (by decide) h5,
      by rw [S.bool _ (by decide)]; exact h6⟩
  | .options f ns args, vis, j, j', hS, h => by
    simp only [Shows] at hS
    obtain ⟨hA, ⟨v, h1, h2⟩, ⟨vs, h3, h4⟩, h5⟩ := hS
    obtain ⟨k, S⟩ := C.into h hA (by decide)
    rw [S.arr (by decide)] at h3
    obtain ⟨v', f', g1, g2, g3⟩ := S.kid h1 h2 (fun vis' v' hE => edit_expr C f h2 hE) (by decide)
    obtain ⟨vs', args', g4, g5, g6⟩ := S.kids C.obj h3 h4 (fun vis' pre x x' post e hE => edit_all C args h4 e hE) (by decide)
    refine ⟨.options f' ns args', ?_, S.two (InExpr c) (.options · ns ·) g3 g6 (by decide) (by decide) .calledWith (fun ⟨hr⟩ => .option hr)⟩
    simp only [Shows]
    exact ⟨S.isA hA, ⟨v', g1, g2⟩, ⟨vs', (S.arr' (by decide)).2 g4, g5⟩, C.texts S (by decide) h5⟩
  | .post e u, vis, j, j', hS, h => by
    have hS' := hS
    simp only [Shows] at hS
    obtain ⟨hA, h3, h4, v, h1, h2⟩ := hS
    rcases edit_step C.obj C.obj' h hA with ⟨rfl, rfl, rfl⟩ | ⟨k, S⟩
    · exact C.hereExpr hS'
    obtain ⟨v', e', g1, g2, g3⟩ := S.kid h1 h2 (fun vis' v' hE => edit_expr C e h2 hE) (by decide)
    refine ⟨.post e' u, ?_, S.one (InExpr c) (.post · u) g3 (by decide) .post⟩
    simp only [Shows]
    exact ⟨S.isA hA, by rw [S.bool _ (by decide)]; exact h3, by rw [S.str _ (by decide)]; exact h4, v', g1, g2⟩
  | .pre u e, vis, j, j', hS, h => by
    have hS' := hS
    simp only [Shows] at hS
    rcases hS with hS | ⟨rfl, hA, h1, t, h2, h3⟩
    rotate_left
    · rcases edit_step C.obj C.obj' h hA with ⟨rfl, rfl, rfl⟩ | ⟨k, S⟩
      · exact C.hereExpr hS'
      refine ⟨.pre .neg e, ?_, S.nothing (InExpr c) (by decide)⟩
      simp only [Shows]
      refine .inr ⟨trivial, S.isA hA, ?_⟩
      rw [S.str _ (by decide), S.str _ (by decide), S.str _ (by decide)]
      exact ⟨h1, t, h2, h3⟩
    obtain ⟨hA, h3, h4, v, h1, h2⟩ := hS
    rcases edit_step C.obj C.obj' h hA with ⟨rfl, rfl, rfl⟩ | ⟨k, S⟩
    · exact C.hereExpr hS'
    obtain ⟨v', e', g1, g2, g3⟩ := S.kid h1 h2 (fun vis' v' hE => edit_expr C e h2 hE) (by decide)
    refine ⟨.pre u e', ?_, S.one (InExpr c) (.pre u ·) g3 (by decide) .pre⟩
    simp only [Shows]
    exact .inl ⟨S.isA hA, by rw [S.bool _ (by decide)]; exact h3, by rw [S.str _ (by decide)]; exact h4, v', g1, g2⟩
  | .bin l o r, vis, j, j', hS, h => by
    have hS' := hS
    simp only [Shows] at hS
    obtain ⟨h0, hS⟩ := hS
    by_cases ho : o.level = 1
    · rw [if_pos ho] at hS
      obtain ⟨hA, ⟨v, h1, h2⟩, w, h3, h4⟩ := hS
      rcases edit_step C.obj C.obj' h hA with ⟨rfl, rfl, rfl⟩ | ⟨k, S⟩
      · exact C.hereExpr hS'
      obtain ⟨v', l', g1, g2, g3⟩ := S.kid h1 h2 (fun vis' v' hE => edit_expr C l h2 hE) (by decide)
      obtain ⟨w', r', g4, g5, g6⟩ := S.kid h3 h4 (fun vis' v' hE => edit_expr C r h4 hE) (by decide)
      refine ⟨.bin l' o r', ?_, S.two (InExpr c) (.bin · o ·) g3 g6 (by decide) (by decide) .left .right⟩
      simp only [Shows]
      rw [if_pos ho]
      exact ⟨by rw [S.str _ (by decide)]; exact h0, S.isA hA, ⟨v', g1, g2⟩, w', g4, g5⟩
    · rw [if_neg ho] at hS
      obtain ⟨hA, ⟨v, h1, h2⟩, w, h3, h4⟩ := hS
      rcases edit_step C.obj C.obj' h hA with ⟨rfl, rfl, rfl⟩ | ⟨k, S⟩
      · exact C.hereExpr hS'
      obtain ⟨v', l', g1, g2, g3⟩ := S.kid h1 h2 (fun vis' v' hE => edit_expr C l h2 hE) (by decide)
      obtain ⟨w', r', g4, g5, g6⟩ := S.kid h3 h4 (fun vis' v' hE => edit_expr C r h4 hE) (by decide)
      refine ⟨.bin l' o r', ?_, S.two (InExpr c) (.bin · o ·) g3 g6 (by decide) (by decide) .left .right⟩
      simp only [Shows]
      rw [if_neg ho]
      exact ⟨by rw [S.str _ (by decide)]; exact h0, S.isA hA, ⟨v', g1, g2⟩, w', g4, g5⟩
  | .cond x a b, vis, j, j', hS, h => by
    simp only [Shows] at hS
    obtain ⟨hA, ⟨v, h1, h2⟩, ⟨w, h3, h4⟩, u, h5, h6⟩ := hS
    obtain ⟨k, S⟩ := C.into h hA (by decide)
    obtain ⟨v', x', g1, g2, g3⟩ := S.kid h1 h2 (fun vis' v' hE => edit_expr C x h2 hE) (by decide)
    obtain ⟨w', a', g4, g5, g6⟩ := S.kid h3 h4 (fun vis' v' hE => edit_expr C a h4 hE) (by decide)
    obtain ⟨u', b', g7, g8, g9⟩ := S.kid h5 h6 (fun vis' v' hE => edit_expr C b h6 hE) (by decide)
    refine ⟨.cond x' a' b', ?_, S.three (InExpr c) .cond g3 g6 g9 (by decide) (by decide) .condition .ifTrue .ifFalse⟩
    simp only [Shows]
    exact ⟨S.isA hA, ⟨v', g1, g2⟩, ⟨w', g4, g5⟩, u', g7, g8⟩
theorem edit_all (C : Carries c n n') : (es : List Expr) → {vis : Bool} → {js : List Json} → {pre : List Json} → {x x' : Json} → {post : List Json} →
    ShowAll es js → js = pre ++ x :: post → Edit n n' vis x x' →
    ∃ es', ShowAll es' (pre ++ x' :: post) ∧ Chg (InList (InExpr c)) vis es es'
  | [], vis, js, pre, x, x', post, hS, e, h => by
    cases js with
    | nil => simp at e
    | cons y ys => simp only [ShowAll] at hS
  | a :: as, vis, js, pre, x, x', post, hS, e, h => by
    cases js with
    | nil => simp at e
    | cons y ys =>
      simp only [ShowAll] at hS
      cases pre with
      | nil =>
        simp only [List.nil_append, List.cons.injEq] at e
        obtain ⟨rfl, rfl⟩ := e
        obtain ⟨a', g1, g2⟩ := edit_expr C a hS.1 h
        refine ⟨a' :: as, ?_, g2.map (· :: as) inList_cons_head⟩
        simp only [List.nil_append, ShowAll]
        exact ⟨g1, hS.2⟩
      | cons z zs =>
        simp only [List.cons_append, List.cons.injEq] at e
        obtain ⟨rfl, e⟩ := e
        obtain ⟨as', g1, g2⟩ := edit_all C as hS.2 e h
        refine ⟨a :: as', ?_, g2.map (a :: ·) inList_cons_tail⟩
        simp only [List.cons_append, ShowAll]
        exact ⟨hS.1, g1⟩
end

/-! ### Inline assembly -/

theorem keep_pairs {α : Type} {P : α → Json → Prop} : {as : List α} → {js pre : List Json} → {x x' : Json} → {post : List Json} →
    Pairwise₂ P as js → js = pre ++ x :: post → (∀ a, P a x → P a x') → Pairwise₂ P as (pre ++ x' :: post)
  | [], [], pre, x, x', post, _, e, _ => by simp at e
  | [], _ :: _, _, _, _, _, h, _, _ => by simp [Pairwise₂] at h
  | _ :: _, [], _, _, _, _, h, _, _ => by simp [Pairwise₂] at h
  | a :: as, y :: ys, [], x, x', post, h, e, hx => by
    simp only [List.nil_append, List.cons.injEq] at e
    obtain ⟨rfl, rfl⟩ := e
    exact ⟨hx _ h.1, h.2⟩
  | a :: as, y :: ys, z :: zs, x, x', post, h, e, hx => by
    simp only [List.cons_append, List.cons.injEq] at e
    obtain ⟨rfl, e⟩ := e
    exact ⟨h.1, keep_pairs h.2 e hx⟩

/-- A field that holds a list of things that survive. -/
theorem Carries.keeps (C : Carries c n n') (S : Step n n' vis ps k j j') {key : String} {xs : List Json}
    (hv : Json.field? key j = some (.arr xs)) {Q : List Json → Prop} (hP : Q xs)
    (ih : ∀ vis' pre x x' post, xs = pre ++ x :: post → Edit n n' vis' x x' → Q (pre ++ x' :: post)) :
    ∃ xs', Json.field? key j' = some (.arr xs') ∧ Q xs' := by
  obtain ⟨v', h1, xs', rfl, h2⟩ := S.keep (P := fun v => ∃ xs, v = .arr xs ∧ Q xs) hv ⟨xs, rfl, hP⟩ (fun vis' v' hE => by
    obtain ⟨pre, x, x', post, h1, h2, h3⟩ := edit_arr C.obj hE
    exact ⟨_, h2, ih _ pre x x' post h1 h3⟩)
  exact ⟨xs', h1, h2⟩

mutual
theorem keep_yulExpr (C : Carries c n n') : (e : YulExpr) → {vis : Bool} → {j j' : Json} → ShowsYulExpr e j → Edit n n' vis j j' →
    ShowsYulExpr e j'
  | .name p, vis, j, j', hS, h => by
    simp only [ShowsYulExpr] at hS ⊢
    obtain ⟨hA, hs⟩ := C.inert h hS.1 (by decide)
    exact ⟨hA, by rw [hs _ (by decide)]; exact hS.2⟩
  | .lit t, vis, j, j', hS, h => by
    simp only [ShowsYulExpr] at hS ⊢
    obtain ⟨hA, hs⟩ := C.inert h hS.1 (by decide)
    exact ⟨hA, by rw [hs _ (by decide), hs _ (by decide)]; exact hS.2⟩
  | .str t, vis, j, j', hS, h => by
    simp only [ShowsYulExpr] at hS ⊢
    obtain ⟨hA, hs⟩ := C.inert h hS.1 (by decide)
    exact ⟨hA, by rw [hs _ (by decide), hs _ (by decide)]; exact hS.2⟩
  | .call f args, vis, j, j', hS, h => by
    simp only [ShowsYulExpr] at hS ⊢
    obtain ⟨hA, ⟨v, h1, h2, h3⟩, js, h4, h5⟩ := hS
    obtain ⟨k, S⟩ := C.into h hA (by decide)
    obtain ⟨v', g1, g2⟩ := S.keep (P := fun v => IsA "YulIdentifier" v ∧ v.getStrForKey "name" = some f) h1 ⟨h2, h3⟩
      (fun vis' v' hE => by
        obtain ⟨hA', hs⟩ := C.inert hE h2 (by decide)
        exact ⟨hA', by rw [hs _ (by decide)]; exact h3⟩)
    obtain ⟨js', g3, g4⟩ := C.keeps S h4 h5 (fun vis' pre x x' post e hE => keep_yulExprs C args h5 e hE)
    exact ⟨S.isA hA, ⟨v', g1, g2⟩, js', g3, g4⟩
theorem keep_yulExprs (C : Carries c n n') : (es : List YulExpr) → {vis : Bool} → {js pre : List Json} → {x x' : Json} → {post : List Json} →
    ShowYulExprs es js → js = pre ++ x :: post → Edit n n' vis x x' → ShowYulExprs es (pre ++ x' :: post)
  | [], vis, js, pre, x, x', post, hS, e, h => by
    cases js with
    | nil => simp at e
    | cons y ys => simp only [ShowYulExprs] at hS
  | a :: as, vis, js, pre, x, x', post, hS, e, h => by
    cases js with
    | nil => simp at e
    | cons y ys =>
      simp only [ShowYulExprs] at hS
      cases pre with
      | nil =>
        simp only [List.nil_append, List.cons.injEq] at e
        obtain ⟨rfl, rfl⟩ := e
        simp only [List.nil_append, ShowYulExprs]
        exact ⟨keep_yulExpr C a hS.1 h, hS.2⟩
      | cons z zs =>
        simp only [List.cons_append, List.cons.injEq] at e
        obtain ⟨rfl, e⟩ := e
        simp only [List.cons_append, ShowYulExprs]
        exact ⟨hS.1, keep_yulExprs C as hS.2 e h⟩
end

theorem keep_yulName (C : Carries c n n') {t : String} (hS : ShowsYulName t j) (h : Edit n n' vis j j') : ShowsYulName t j' := by
  obtain ⟨hA, hs⟩ := C.inert h hS.1 (by decide)
  exact ⟨hA, by rw [hs _ (by decide)]; exact hS.2⟩

/-- A block of statements, if the statements survive. -/
theorem keep_yulBlock (C : Carries c n n') {ss : List YulStmt}
    (ih : ∀ {vis : Bool} {js pre : List Json} {x x' : Json} {post : List Json},
      ShowYuls ss js → js = pre ++ x :: post → Edit n n' vis x x' → ShowYuls ss (pre ++ x' :: post))
    (hS : IsA "YulBlock" j ∧ ∃ js, Json.field? "statements" j = some (.arr js) ∧ ShowYuls ss js) (h : Edit n n' vis j j') :
    IsA "YulBlock" j' ∧ ∃ js, Json.field? "statements" j' = some (.arr js) ∧ ShowYuls ss js := by
  obtain ⟨hA, js, h1, h2⟩ := hS
  obtain ⟨k, S⟩ := C.into h hA (by decide)
  obtain ⟨js', g3, g4⟩ := C.keeps S h1 h2 (fun vis' pre x x' post e hE => ih h2 e hE)
  exact ⟨S.isA hA, js', g3, g4⟩

/-- The names behind a key, which may be missing. -/
def YulNames (key : String) (j : Json) : List String → Prop
  | [] => j.getArrayForKey key = none ∨ j.getArrayForKey key = some []
  | t :: ts => ∃ js, j.getArrayForKey key = some js ∧ Pairwise₂ ShowsYulName (t :: ts) js

theorem keep_yulNames (C : Carries c n n') (S : Step n n' vis ps k j j') {key : String} (hk : PlainKey key) {ts : List String}
    (h : YulNames key j ts) : YulNames key j' ts := by
  cases ts with
  | nil =>
    rcases h with h | h
    · left
      cases hb : j'.getArrayForKey key with
      | none => rfl
      | some xs =>
        exfalso
        rw [S.arr' hk] at hb
        have hno : ∀ ys, Json.field? key j ≠ some (.arr ys) := by
          intro ys hys
          rw [← S.arr hk, h] at hys
          cases hys
        by_cases e : key = k
        · subst e
          rcases S.below with ⟨v, v', vis', h1, h2, h3, _⟩ | ⟨h1, _⟩
          · rw [hb] at h2
            cases h2
            cases v with
            | arr ys => exact hno ys h1
            | obj kvs =>
              obtain ⟨p, q1, q2, _⟩ := h3
              cases p with
              | nil =>
                have : (Json.arr xs) = n' := q2
                have := C.obj'
                rw [← ‹Json.arr xs = n'›] at this
                exact this
              | cons i p =>
                simp only [replaceAt] at q2
                split at q2 <;> cases q2
            | _ => exact no_edit C.obj C.obj' id h3
          · rw [hb] at h1
            exact hno xs h1.symm
        · rw [S.other key e] at hb
          exact hno xs hb
    · exact .inr (C.texts S hk (ts := []) h)
  | cons t ts =>
    obtain ⟨js, h1, h2⟩ := h
    rw [S.arr hk] at h1
    obtain ⟨js', g1, g2⟩ := C.keeps S h1 h2 (fun vis' pre x x' post e hE => keep_pairs h2 e fun a ha => keep_yulName C ha hE)
    exact ⟨js', (S.arr' hk).2 g1, g2⟩

/-- The expression statement of inline assembly. -/
theorem keep_yulStatement (C : Carries c n n') {e : YulExpr}
    (hS : ∃ before v after, j = .obj (before ++ ("expression", v) :: after) ∧ ShowsYulExpr e v ∧
        ∀ kv ∈ before ++ after, ∃ t, kv.2 = .str t) (hA : IsA "YulExpressionStatement" j) (h : Edit n n' vis j j') :
    ∃ before v after, j' = .obj (before ++ ("expression", v) :: after) ∧ ShowsYulExpr e v ∧
        ∀ kv ∈ before ++ after, ∃ t, kv.2 = .str t := by
  obtain ⟨before, v, after, rfl, h1, h2⟩ := hS
  obtain ⟨p, q1, q2, _⟩ := h
  cases p with
  | nil =>
    simp only [nodeAt, Option.some.injEq] at q1
    exact absurd q1 (C.not hA (by decide))
  | cons i p =>
    simp only [nodeAt, children] at q1
    cases hx : (before ++ ("expression", v) :: after)[i]? with
    | none => simp only [List.getElem?_map, hx] at q1; simp at q1
    | some kv =>
      obtain ⟨k, w⟩ := kv
      have hc : ((before ++ ("expression", v) :: after).map Prod.snd)[i]? = some w := by rw [List.getElem?_map, hx]; rfl
      rw [hc] at q1
      have hE : Edit n n' (visible p w) w (replaceAt p n' w) := ⟨p, q1, rfl, rfl⟩
      have hrep : replaceAt (i :: p) n' (.obj (before ++ ("expression", v) :: after)) =
          .obj (setField i (replaceAt p n' w) (before ++ ("expression", v) :: after)) := by
        simp only [replaceAt, children, hc, setChildren, setField]
      rw [hrep] at q2
      subst q2
      have hnot : ∀ kv ∈ before ++ after, kv ≠ (k, w) := by
        rintro kv hkv rfl
        obtain ⟨t, ht⟩ := h2 _ hkv
        simp only at ht
        subst ht
        exact C.noStr hE
      rcases Nat.lt_trichotomy i before.length with hi | hi | hi
      · rw [List.getElem?_append_left hi] at hx
        exact absurd rfl (hnot _ (List.mem_append_left _ (List.mem_of_getElem? hx)))
      · subst hi
        simp only [List.getElem?_append_right (Nat.le_refl _), Nat.sub_self, List.getElem?_cons_zero, Option.some.injEq,
          Prod.mk.injEq] at hx
        obtain ⟨rfl, rfl⟩ := hx
        refine ⟨before, replaceAt p n' v, after, ?_, keep_yulExpr C e h1 hE, h2⟩
        rw [setField_middle]
      · rw [List.getElem?_append_right (by omega)] at hx
        obtain ⟨m, hm⟩ : ∃ m, i - before.length = m + 1 := ⟨i - before.length - 1, by omega⟩
        rw [hm, List.getElem?_cons_succ] at hx
        exact absurd rfl (hnot _ (List.mem_append_right _ (List.mem_of_getElem? hx)))

mutual
theorem keep_yul (C : Carries c n n') : (s : YulStmt) → {vis : Bool} → {j j' : Json} → ShowsYul s j → Edit n n' vis j j' →
    ShowsYul s j'
  | .expr e, vis, j, j', hS, h => by
    simp only [ShowsYul] at hS ⊢
    exact ⟨(C.inert h hS.1 (by decide)).1, keep_yulStatement C hS.2 hS.1 h⟩
  | .let_ vs value, vis, j, j', hS, h => by
    simp only [ShowsYul] at hS ⊢
    obtain ⟨hA, ⟨js, h1, h2⟩, h3⟩ := hS
    obtain ⟨k, S⟩ := C.into h hA (by decide)
    obtain ⟨js', g1, g2⟩ := C.keeps S h1 h2 (fun vis' pre x x' post e hE => keep_pairs h2 e fun a ha => keep_yulName C ha hE)
    refine ⟨S.isA hA, ⟨js', g1, g2⟩, ?_⟩
    cases value with
    | none => exact S.gone h3
    | some e =>
      obtain ⟨v, h4, h5⟩ := h3
      exact S.keep h4 h5 (fun vis' v' hE => keep_yulExpr C e h5 hE)
  | .assign vs e, vis, j, j', hS, h => by
    simp only [ShowsYul] at hS ⊢
    obtain ⟨hA, ⟨js, h1, h2⟩, v, h3, h4⟩ := hS
    obtain ⟨k, S⟩ := C.into h hA (by decide)
    obtain ⟨js', g1, g2⟩ := C.keeps S h1 h2 (fun vis' pre x x' post e hE => keep_pairs h2 e fun a ha => keep_yulExpr C _ ha hE)
    exact ⟨S.isA hA, ⟨js', g1, g2⟩, S.keep h3 h4 (fun vis' v' hE => keep_yulExpr C e h4 hE)⟩
  | .block ss, vis, j, j', hS, h => by
    simp only [ShowsYul] at hS ⊢
    exact keep_yulBlock C (fun a b d => keep_yuls C ss a b d) hS h
  | .if_ x ss, vis, j, j', hS, h => by
    simp only [ShowsYul] at hS ⊢
    obtain ⟨hA, ⟨v, h1, h2⟩, w, h3, h4⟩ := hS
    obtain ⟨k, S⟩ := C.into h hA (by decide)
    exact ⟨S.isA hA, S.keep h1 h2 (fun vis' v' hE => keep_yulExpr C x h2 hE),
      S.keep h3 h4 (fun vis' v' hE => keep_yulBlock C (fun a b d => keep_yuls C ss a b d) h4 hE)⟩
  | .switch e cs, vis, j, j', hS, h => by
    simp only [ShowsYul] at hS ⊢
    obtain ⟨hA, ⟨v, h1, h2⟩, js, h3, h4⟩ := hS
    obtain ⟨k, S⟩ := C.into h hA (by decide)
    rw [S.arr (by decide)] at h3
    obtain ⟨js', g1, g2⟩ := C.keeps S h3 h4 (fun vis' pre x x' post e hE => keep_yuls C cs h4 e hE)
    exact ⟨S.isA hA, S.keep h1 h2 (fun vis' v' hE => keep_yulExpr C e h2 hE), js', (S.arr' (by decide)).2 g1, g2⟩
  | .case_ value ss, vis, j, j', hS, h => by
    simp only [ShowsYul] at hS ⊢
    obtain ⟨hA, h1, w, h3, h4⟩ := hS
    obtain ⟨k, S⟩ := C.into h hA (by decide)
    refine ⟨S.isA hA, ?_, S.keep h3 h4 (fun vis' v' hE => keep_yulBlock C (fun a b d => keep_yuls C ss a b d) h4 hE)⟩
    cases value with
    | none => exact S.plain C.obj C.obj' h1 (fun _ _ => C.noStr)
    | some e =>
      obtain ⟨kvs, h5, h6⟩ := h1
      obtain ⟨v', g1, g2⟩ := S.keep h5 h6 (fun vis' v' hE => keep_yulExpr C e h6 hE)
      have : ∃ kvs, v' = .obj kvs := by
        cases e <;> simp only [ShowsYulExpr] at g2 <;> exact isObj_of_isA g2.1
      obtain ⟨kvs', rfl⟩ := this
      exact ⟨kvs', g1, g2⟩
  | .for_ pre x post body, vis, j, j', hS, h => by
    simp only [ShowsYul] at hS ⊢
    obtain ⟨hA, ⟨v1, h1, h2⟩, ⟨v, h3, h4⟩, ⟨v2, h5, h6⟩, v3, h7, h8⟩ := hS
    obtain ⟨k, S⟩ := C.into h hA (by decide)
    exact ⟨S.isA hA, S.keep h1 h2 (fun vis' v' hE => keep_yulBlock C (fun a b d => keep_yuls C pre a b d) h2 hE),
      S.keep h3 h4 (fun vis' v' hE => keep_yulExpr C x h4 hE),
      S.keep h5 h6 (fun vis' v' hE => keep_yulBlock C (fun a b d => keep_yuls C post a b d) h6 hE),
      S.keep h7 h8 (fun vis' v' hE => keep_yulBlock C (fun a b d => keep_yuls C body a b d) h8 hE)⟩
  | .function t ps rs ss, vis, j, j', hS, h => by
    simp only [ShowsYul] at hS ⊢
    obtain ⟨hA, h0, h1, h2, v3, h7, h8⟩ := hS
    obtain ⟨k, S⟩ := C.into h hA (by decide)
    have n1 : YulNames "parameters" j' ps := keep_yulNames C S (by decide) (by cases ps <;> exact h1)
    have n2 : YulNames "returnVariables" j' rs := keep_yulNames C S (by decide) (by cases rs <;> exact h2)
    exact ⟨S.isA hA, by rw [S.str _ (by decide)]; exact h0, by cases ps <;> exact n1, by cases rs <;> exact n2,
      S.keep h7 h8 (fun vis' v' hE => keep_yulBlock C (fun a b d => keep_yuls C ss a b d) h8 hE)⟩
  | .break_, vis, j, j', hS, h => by
    simp only [ShowsYul] at hS ⊢
    exact (C.inert h hS (by decide)).1
  | .continue_, vis, j, j', hS, h => by
    simp only [ShowsYul] at hS ⊢
    exact (C.inert h hS (by decide)).1
  | .leave, vis, j, j', hS, h => by
    simp only [ShowsYul] at hS ⊢
    exact (C.inert h hS (by decide)).1
theorem keep_yuls (C : Carries c n n') : (ss : List YulStmt) → {vis : Bool} → {js pre : List Json} → {x x' : Json} → {post : List Json} →
    ShowYuls ss js → js = pre ++ x :: post → Edit n n' vis x x' → ShowYuls ss (pre ++ x' :: post)
  | [], vis, js, pre, x, x', post, hS, e, h => by
    cases js with
    | nil => simp at e
    | cons y ys => simp only [ShowYuls] at hS
  | a :: as, vis, js, pre, x, x', post, hS, e, h => by
    cases js with
    | nil => simp at e
    | cons y ys =>
      simp only [ShowYuls] at hS
      cases pre with
      | nil =>
        simp only [List.nil_append, List.cons.injEq] at e
        obtain ⟨rfl, rfl⟩ := e
        simp only [List.nil_append, ShowYuls]
        exact ⟨keep_yul C a hS.1 h, hS.2⟩
      | cons z zs =>
        simp only [List.cons_append, List.cons.injEq] at e
        obtain ⟨rfl, e⟩ := e
        simp only [List.cons_append, ShowYuls]
        exact ⟨hS.1, keep_yuls C as hS.2 e h⟩
end

/-! ### Declarations -/

theorem edit_ty (C : Carries c n n') : (t : Ty) → {vis : Bool} → {j j' : Json} → ShowsTy t j → Edit n n' vis j j' →
    ∃ t', ShowsTy t' j' ∧ Chg (InTy c) vis t t'
  | .elem t, vis, j, j', hS, h => by
    simp only [ShowsTy] at hS
    obtain ⟨hA, h1⟩ := hS
    obtain ⟨k, S⟩ := C.into h hA (by decide)
    refine ⟨.elem t, ?_, S.nothing (InTy c) (by decide)⟩
    simp only [ShowsTy]
    refine ⟨S.isA hA, ?_⟩
    rw [S.str _ (by decide), S.str _ (by decide)]
    exact h1
  | .addressPayable, vis, j, j', hS, h => by
    simp only [ShowsTy] at hS
    obtain ⟨hA, h1⟩ := hS
    obtain ⟨k, S⟩ := C.into h hA (by decide)
    refine ⟨.addressPayable, ?_, S.nothing (InTy c) (by decide)⟩
    simp only [ShowsTy]
    refine ⟨S.isA hA, ?_⟩
    rw [S.str _ (by decide), S.str _ (by decide)]
    exact h1
  | .user p, vis, j, j', hS, h => by
    simp only [ShowsTy] at hS
    obtain ⟨hA, h1⟩ := hS
    obtain ⟨k, S⟩ := C.into h hA (by decide)
    refine ⟨.user p, ?_, S.nothing (InTy c) (by decide)⟩
    simp only [ShowsTy]
    refine ⟨S.isA hA, ?_⟩
    rcases h1 with ⟨v, h1, h2, h3⟩ | ⟨h1, h2⟩
    · left
      exact S.keep (P := fun v => IsA "IdentifierPath" v ∧ v.getStrForKey "name" = some (dotted p)) h1 ⟨h2, h3⟩
        (fun vis' v' hE => by
          obtain ⟨hA', hs⟩ := C.inert hE h2 (by decide)
          exact ⟨hA', by rw [hs _ (by decide)]; exact h3⟩)
    · exact .inr ⟨S.gone h1, by rw [S.str _ (by decide)]; exact h2⟩
  | .mapping a b, vis, j, j', hS, h => by
    simp only [ShowsTy] at hS
    obtain ⟨hA, ⟨v, h1, h2⟩, w, h3, h4⟩ := hS
    obtain ⟨k, S⟩ := C.into h hA (by decide)
    obtain ⟨v', a', g1, g2, g3⟩ := S.kid h1 h2 (fun vis' v' hE => edit_ty C a h2 hE) (by decide)
    obtain ⟨w', b', g4, g5, g6⟩ := S.kid h3 h4 (fun vis' v' hE => edit_ty C b h4 hE) (by decide)
    refine ⟨.mapping a' b', ?_, S.two (InTy c) .mapping g3 g6 (by decide) (by decide) .key .value⟩
    simp only [ShowsTy]
    exact ⟨S.isA hA, ⟨v', g1, g2⟩, w', g4, g5⟩
  | .array b, vis, j, j', hS, h => by
    simp only [ShowsTy] at hS
    obtain ⟨hA, ⟨v, h1, h2⟩, h3⟩ := hS
    obtain ⟨k, S⟩ := C.into h hA (by decide)
    obtain ⟨v', b', g1, g2, g3⟩ := S.kid h1 h2 (fun vis' v' hE => edit_ty C b h2 hE) (by decide)
    refine ⟨.array b', ?_, S.two (InTy c) (fun b _ => .array b) g3 (S.goneKid h3) (by decide) (by decide) .array False.elim⟩
    simp only [ShowsTy]
    exact ⟨S.isA hA, ⟨v', g1, g2⟩, S.gone h3⟩
  | .fixed a b, vis, j, j', hS, h => by
    simp only [ShowsTy] at hS
    obtain ⟨hA, ⟨v, h1, h2⟩, w, h3, h4⟩ := hS
    obtain ⟨k, S⟩ := C.into h hA (by decide)
    obtain ⟨v', a', g1, g2, g3⟩ := S.kid h1 h2 (fun vis' v' hE => edit_ty C a h2 hE) (by decide)
    obtain ⟨w', b', g4, g5, g6⟩ := S.kid h3 h4 (fun vis' v' hE => edit_expr C b h4 hE) (by decide)
    refine ⟨.fixed a' b', ?_, S.two (InTy c) .fixed g3 g6 (by decide) (by decide) .fixed .length⟩
    simp only [ShowsTy]
    exact ⟨S.isA hA, ⟨v', g1, g2⟩, w', g4, g5⟩

/-- A field that is not there. -/
theorem Step.absent (S : Step n n' vis ps k j j') {key : String} (h : Json.field? key j = none) {α : Type} {r : α → α → Prop} {a : α} :
    Kid vis k key r a a := by
  rcases S.goneKid h with ⟨e, hr | ⟨_, hr⟩⟩ | ⟨e, _⟩
  · exact hr.elim
  · exact .inl ⟨e, .inr ⟨rfl, hr⟩⟩
  · exact .inr ⟨e, rfl⟩

/-- A field that need not be there. -/
theorem edit_opt (C : Carries c n n') (S : Step n n' vis ps k j j') {key : String} {e : Option Expr} (h : ShowsOpt key j e)
    (hps : ps.contains key = true) : ∃ e', ShowsOpt key j' e' ∧ Kid vis k key (InSome (InExpr c)) e e' := by
  cases e with
  | none => exact ⟨none, S.gone h, S.absent h⟩
  | some e =>
    obtain ⟨v, h1, h2⟩ := h
    obtain ⟨v', x, g1, ⟨e', rfl, g2⟩, g3⟩ := S.kid (P := fun x v => ∃ e, x = some e ∧ Shows e v) (r := InSome (InExpr c)) h1 ⟨e, rfl, h2⟩
      (fun vis' v' hE => by
        obtain ⟨e', g1, g2⟩ := edit_expr C e h2 hE
        exact ⟨some e', ⟨e', rfl, g1⟩, g2.map some .mk⟩) hps
    exact ⟨some e', ⟨v', g1, g2⟩, g3⟩

theorem keep_doc (C : Carries c n n') (S : Step n n' vis ps k j j') {doc : Option String} (h : ShowsDoc j doc) : ShowsDoc j' doc := by
  cases doc with
  | none => exact S.gone h
  | some t =>
    obtain ⟨v, h1, h2, h3⟩ := h
    exact S.keep (P := fun v => IsA "StructuredDocumentation" v ∧ v.getStrForKey "text" = some t) h1 ⟨h2, h3⟩
      (fun vis' v' hE => by
        obtain ⟨hA', hs⟩ := C.inert hE h2 (by decide)
        exact ⟨hA', by rw [hs _ (by decide)]; exact h3⟩)

theorem edit_var (C : Carries c n n') {v : Var} {doc : Option String} (hS : ShowsVar v j doc) (h : Edit n n' vis j j') :
    ∃ v', ShowsVar v' j' doc ∧ Chg (InVar c) vis v v' := by
  obtain ⟨k, S⟩ := C.into h hS.isA (by decide)
  obtain ⟨x, h1, h2⟩ := hS.type
  obtain ⟨x', t', g1, g2, g3⟩ := S.kid h1 h2 (fun vis' v' hE => edit_ty C v.type h2 hE) (by decide)
  obtain ⟨e', g4, g5⟩ := edit_opt C S hS.value (by decide)
  refine ⟨{ v with type := t', value := e' }, ?_, S.two (InVar c) (fun t e => { v with type := t, value := e }) g3 g5 (by decide) (by decide)
    (fun hr => .type hr) (fun hr => .value hr)⟩
  constructor
  · exact S.isA hS.isA
  · exact keep_doc C S hS.documentation
  · exact ⟨x', g1, g2⟩
  · rw [S.str _ (by decide)]; exact hS.visibility
  · rw [S.bool _ (by decide)]; exact hS.constant
  · rw [S.bool _ (by decide)]; exact hS.indexed
  · exact S.gone hS.overrides
  · rw [S.str _ (by decide)]; exact hS.immutable
  · rw [S.str _ (by decide)]; exact hS.location
  · rw [S.str _ (by decide)]; exact hS.name
  · exact g4

theorem edit_pairs {α : Type} {P : α → Json → Prop} {r : α → α → Prop} : {as : List α} → {js pre : List Json} → {x x' : Json} → {post : List Json} →
    Pairwise₂ P as js → js = pre ++ x :: post → (∀ a, P a x → ∃ a', P a' x' ∧ Chg r vis a a') →
    ∃ as', Pairwise₂ P as' (pre ++ x' :: post) ∧ Chg (InList r) vis as as'
  | [], [], pre, x, x', post, _, e, _ => by simp at e
  | [], _ :: _, _, _, _, _, h, _, _ => by simp [Pairwise₂] at h
  | _ :: _, [], _, _, _, _, h, _, _ => by simp [Pairwise₂] at h
  | a :: as, y :: ys, [], x, x', post, h, e, hx => by
    simp only [List.nil_append, List.cons.injEq] at e
    obtain ⟨rfl, rfl⟩ := e
    obtain ⟨a', g1, g2⟩ := hx _ h.1
    exact ⟨a' :: as, ⟨g1, h.2⟩, g2.map (· :: as) inList_cons_head⟩
  | a :: as, y :: ys, z :: zs, x, x', post, h, e, hx => by
    simp only [List.cons_append, List.cons.injEq] at e
    obtain ⟨rfl, e⟩ := e
    obtain ⟨as', g1, g2⟩ := edit_pairs h.2 e hx
    exact ⟨a :: as', ⟨h.1, g1⟩, g2.map (a :: ·) inList_cons_tail⟩

theorem showVars_iff : {vs : List Var} → {js : List Json} → (ShowVars vs js ↔ Pairwise₂ (fun v j => ShowsVar v j) vs js)
  | [], [] => Iff.rfl
  | [], _ :: _ => Iff.rfl
  | _ :: _, [] => Iff.rfl
  | _ :: _, _ :: _ => by
    simp only [ShowVars, Pairwise₂]
    exact and_congr Iff.rfl showVars_iff

/-- The node stands for the declaration, or is `null`. -/
def ShowsDecl : Option Var → Json → Prop
  | some v, j => ShowsVar v j
  | none, j => j = .null

theorem showDecls_iff : {vs : List (Option Var)} → {js : List Json} → (ShowDecls vs js ↔ Pairwise₂ ShowsDecl vs js)
  | [], [] => Iff.rfl
  | [], _ :: _ => Iff.rfl
  | some _ :: _, [] => Iff.rfl
  | none :: _, [] => Iff.rfl
  | some _ :: _, _ :: _ => by
    simp only [ShowDecls, Pairwise₂, ShowsDecl]
    exact and_congr Iff.rfl showDecls_iff
  | none :: _, _ :: _ => by
    simp only [ShowDecls, Pairwise₂, ShowsDecl]
    exact and_congr Iff.rfl showDecls_iff

theorem edit_params (C : Carries c n n') {vs : List Var} (hS : ShowsParams vs j) (h : Edit n n' vis j j') :
    ∃ vs', ShowsParams vs' j' ∧ Chg (InList (InVar c)) vis vs vs' := by
  obtain ⟨hA, js, h1, h2⟩ := hS
  obtain ⟨k, S⟩ := C.into h hA (by decide)
  obtain ⟨js', vs', g1, g2, g3⟩ := S.kids C.obj h1 (showVars_iff.1 h2)
    (fun vis' pre x x' post e hE => edit_pairs (showVars_iff.1 h2) e fun v hv => edit_var C hv hE) (by decide)
  exact ⟨vs', ⟨S.isA hA, js', g1, showVars_iff.2 g2⟩, S.one (InList (InVar c)) id g3 (by decide) id⟩

/-! ### Statements -/

theorem edit_try (C : Carries c n n') {e : Expr} (hS : ShowsTry e j) (h : Edit n n' vis j j') :
    ∃ e', ShowsTry e' j' ∧ Chg (InExpr c) vis e e' := by
  have here : ∀ {e : Expr}, ShowsTry e n → ∃ e', ShowsTry e' n' ∧ Chg (InExpr c) true e e' := fun hS => by
    obtain ⟨e', h1, h2⟩ := C.try_ _ hS
    exact ⟨e', h1, .inl (.here h2)⟩
  cases e with
  | call f args =>
    have hS' := hS
    simp only [ShowsTry] at hS
    obtain ⟨hA, ⟨v, h1, h2⟩, ⟨vs, h3, h4⟩, h5, h6⟩ := hS
    rcases edit_step C.obj C.obj' h hA with ⟨rfl, rfl, rfl⟩ | ⟨k, S⟩
    · exact here hS'
    obtain ⟨v', f', g1, g2, g3⟩ := S.kid h1 h2 (fun vis' v' hE => edit_expr C f h2 hE) (by decide)
    obtain ⟨vs', args', g4, g5, g6⟩ := S.kids C.obj h3 h4 (fun vis' pre x x' post e hE => edit_all C args h4 e hE) (by decide)
    refine ⟨.call f' args', ?_, S.two (InExpr c) .call g3 g6 (by decide) (by decide) .called (fun ⟨hr⟩ => .argument hr)⟩
    simp only [ShowsTry]
    exact ⟨S.isA hA, ⟨v', g1, g2⟩, ⟨vs', g4, g5⟩, C.texts S (by decide) (ts := []) h5, by rw [S.bool _ (by decide)]; exact h6⟩
  | named f ns args =>
    have hS' := hS
    simp only [ShowsTry] at hS
    obtain ⟨hA, ⟨v, h1, h2⟩, ⟨vs, h3, h4⟩, h5, h6⟩ := hS
    rcases edit_step C.obj C.obj' h hA with ⟨rfl, rfl, rfl⟩ | ⟨k, S⟩
    · exact here hS'
    rw [S.arr (by decide)] at h3
    obtain ⟨v', f', g1, g2, g3⟩ := S.kid h1 h2 (fun vis' v' hE => edit_expr C f h2 hE) (by decide)
    obtain ⟨vs', args', g4, g5, g6⟩ := S.kids C.obj h3 h4 (fun vis' pre x x' post e hE => edit_all C args h4 e hE) (by decide)
    refine ⟨.named f' ns args', ?_, S.two (InExpr c) (.named · ns ·) g3 g6 (by decide) (by decide) .calledNamed (fun ⟨hr⟩ => .argumentNamed hr)⟩
    simp only [ShowsTry]
    exact ⟨S.isA hA, ⟨v', g1, g2⟩, ⟨vs', (S.arr' (by decide)).2 g4, g5⟩, C.texts S (by decide) h5,
      by rw [S.bool _ (by decide)]; exact h6⟩
  | _ => exact hS.elim

/-- The statement is the expression. -/
def ShowsExprStmt (e : Expr) (j : Json) : Prop := IsA "ExpressionStatement" j ∧ ∃ v, Json.field? "expression" j = some v ∧ Shows e v

theorem edit_exprStmt (C : Carries c n n') {e : Expr} (hS : ShowsExprStmt e j) (h : Edit n n' vis j j') :
    ∃ e', ShowsExprStmt e' j' ∧ Chg (InExpr c) vis e e' := by
  obtain ⟨hA, v, h1, h2⟩ := hS
  obtain ⟨k, S⟩ := C.into h hA (by decide)
  obtain ⟨v', e', g1, g2, g3⟩ := S.kid h1 h2 (fun vis' v' hE => edit_expr C e h2 hE) (by decide)
  exact ⟨e', ⟨S.isA hA, v', g1, g2⟩, S.one (InExpr c) id g3 (by decide) id⟩

/-- What is to be shown of statements. -/
abbrev EditsStmts (c : Change) (n n' : Json) (ss : List Stmt) : Prop :=
  ∀ {vis : Bool} {js pre : List Json} {x x' : Json} {post : List Json}, ShowStmts ss js → js = pre ++ x :: post → Edit n n' vis x x' →
    ∃ ss', ShowStmts ss' (pre ++ x' :: post) ∧ Chg (InList (InStmt c)) vis ss ss'

/-- The change happens at one place in the block. -/
def InBlock (c : Change) (b b' : List Stmt) : Prop := InStmt c (.block b) (.block b')

/-- The node is a block. -/
def ShowsBlock (ss : List Stmt) (j : Json) : Prop := IsA "Block" j ∧ ∃ js, Json.field? "statements" j = some (.arr js) ∧ ShowStmts ss js

theorem showsBlock_iff {ss : List Stmt} : ShowsStmt (.block ss) j ↔ ShowsBlock ss j := by
  simp only [ShowsStmt, ShowsBlock]

theorem edit_block_of (C : Carries c n n') {ss : List Stmt} (ih : EditsStmts c n n' ss) (hS : ShowsBlock ss j)
    (h : Edit n n' vis j j') : ∃ ss', ShowsBlock ss' j' ∧ Chg (InBlock c) vis ss ss' := by
  have hS' := hS
  obtain ⟨hA, js, h1, h2⟩ := hS
  rcases edit_step C.obj C.obj' h hA with ⟨rfl, rfl, rfl⟩ | ⟨k, S⟩
  · obtain ⟨ss', g1, g2⟩ := C.block ss (showsBlock_iff.2 hS')
    exact ⟨ss', showsBlock_iff.1 g1, .inl (.here g2)⟩
  obtain ⟨js', ss', g1, g2, g3⟩ := S.kids C.obj h1 h2 (fun vis' pre x x' post e hE => ih h2 e hE) (by decide)
  exact ⟨ss', ⟨S.isA hA, js', g1, g2⟩, S.one (InBlock c) id g3 (by decide) (fun ⟨hr⟩ => .block hr)⟩

/-- The parameters of a clause, which may be missing. -/
def ShowsClauseParams (j : Json) : Option (List Var) → Prop
  | none => Json.field? "parameters" j = none
  | some vs => ∃ v, Json.field? "parameters" j = some v ∧ ShowsParams vs v

theorem edit_clauseParams (C : Carries c n n') (S : Step n n' vis (partsOf "TryCatchClause") k j j') {p : Option (List Var)} (h : ShowsClauseParams j p) :
    ∃ p', ShowsClauseParams j' p' ∧ Kid vis k "parameters" (InSome (InList (InVar c))) p p' := by
  cases p with
  | none => exact ⟨none, S.gone h, S.absent h⟩
  | some vs =>
    obtain ⟨v, h1, h2⟩ := h
    obtain ⟨v', x, g1, ⟨vs', rfl, g2⟩, g3⟩ := S.kid (P := fun x v => ∃ vs, x = some vs ∧ ShowsParams vs v)
      (r := InSome (InList (InVar c))) h1 ⟨vs, rfl, h2⟩ (fun vis' v' hE => by
        obtain ⟨e', g1, g2⟩ := edit_params C h2 hE
        exact ⟨some e', ⟨e', rfl, g1⟩, g2.map some .mk⟩) (by decide)
    exact ⟨some vs', ⟨v', g1, g2⟩, g3⟩

/-- A clause of a `try`. -/
def ShowsClause (t : Option String) (x : Option (List Var) × List Stmt) (j : Json) : Prop :=
  IsA "TryCatchClause" j ∧ (j.getStrForKey "errorName").filter (· ≠ "") = t ∧ ShowsClauseParams j x.1 ∧
    ∃ v, Json.field? "block" j = some v ∧ ShowsBlock x.2 v

theorem showsClause_iff {t : Option String} {ps : Option (List Var)} {b : List Stmt} :
    ShowsStmt (.clause t ps b) j ↔ ShowsClause t (ps, b) j := by
  simp only [ShowsStmt, ShowsClause, ShowsBlock]
  cases ps <;> exact Iff.rfl

/-- The change happens at one place in the clause. -/
def InClause (c : Change) (x x' : Option (List Var) × List Stmt) : Prop :=
  InSome (InList (InVar c)) x.1 x'.1 ∧ x'.2 = x.2 ∨ x'.1 = x.1 ∧ InBlock c x.2 x'.2

theorem edit_clause_of (C : Carries c n n') {t : Option String} {x : Option (List Var) × List Stmt} (ih : EditsStmts c n n' x.2)
    (hS : ShowsClause t x j) (h : Edit n n' vis j j') : ∃ x', ShowsClause t x' j' ∧ Chg (InClause c) vis x x' := by
  have hS' := hS
  obtain ⟨hA, h0, h1, v, h2, h3⟩ := hS
  rcases edit_step C.obj C.obj' h hA with ⟨rfl, _⟩ | ⟨k, S⟩
  · exact absurd (showsClause_iff.2 hS') (C.clause _ _ _)
  obtain ⟨p', g1, g2⟩ := edit_clauseParams C S h1
  obtain ⟨v', b', g4, g5, g6⟩ := S.kid h2 h3 (fun vis' v' hE => edit_block_of C ih h3 hE) (by decide)
  refine ⟨(p', b'), ⟨S.isA hA, by rw [S.str _ (by decide)]; exact h0, g1, v', g4, g5⟩,
    S.two (InClause c) Prod.mk g2 g6 (by decide) (by decide) (fun hr => .inl ⟨hr, rfl⟩) (fun hr => .inr ⟨rfl, hr⟩)⟩

/-- The results of a `try` as the parameters of its first clause. -/
def asParams : List Var → Option (List Var)
  | [] => none
  | v :: vs => some (v :: vs)

/-- All clauses of a `try`. -/
def ShowsClauses (x : List Var × List Stmt × List Stmt) (js : List Json) : Prop :=
  ∃ d ds, js = d :: ds ∧ ShowStmts x.2.2 ds ∧ ShowsClause none (asParams x.1, x.2.1) d

theorem showsTryStmt_iff {e : Expr} {rs : List Var} {b cs : List Stmt} :
    ShowsStmt (.try_ e rs b cs) j ↔ IsA "TryStatement" j ∧ (∃ v, Json.field? "externalCall" j = some v ∧ ShowsTry e v) ∧
      ∃ js, Json.field? "clauses" j = some (.arr js) ∧ ShowsClauses (rs, b, cs) js := by
  simp only [ShowsStmt, ShowsClauses, ShowsClause, ShowsBlock]
  constructor
  · rintro ⟨hA, h1, d, ds, h2, h3, h4, h5, h6, h7⟩
    refine ⟨hA, h1, d :: ds, (field_of_getArray (by decide) hA).1 h2, d, ds, rfl, h3, h4, h5, ?_, h7⟩
    cases rs <;> exact h6
  · rintro ⟨hA, h1, _, h2, d, ds, rfl, h3, h4, h5, h6, h7⟩
    refine ⟨hA, h1, d, ds, (field_of_getArray (by decide) hA).2 h2, h3, h4, h5, ?_, h7⟩
    cases rs <;> exact h6

/-- The change happens at one place in the clauses of a `try`. -/
def InClauses (c : Change) (x x' : List Var × List Stmt × List Stmt) : Prop :=
  ∀ e, InStmt c (.try_ e x.1 x.2.1 x.2.2) (.try_ e x'.1 x'.2.1 x'.2.2)

theorem edit_clauses_of (C : Carries c n n') {x : List Var × List Stmt × List Stmt} (ih1 : EditsStmts c n n' x.2.1)
    (ih2 : EditsStmts c n n' x.2.2) {js pre : List Json} {y y' : Json} {post : List Json} (hS : ShowsClauses x js)
    (e : js = pre ++ y :: post) (h : Edit n n' vis y y') : ∃ x', ShowsClauses x' (pre ++ y' :: post) ∧ Chg (InClauses c) vis x x' := by
  obtain ⟨rs, b, cs⟩ := x
  obtain ⟨d, ds, rfl, h1, h2⟩ := hS
  cases pre with
  | nil =>
    simp only [List.nil_append, List.cons.injEq] at e
    obtain ⟨rfl, rfl⟩ := e
    obtain ⟨⟨p', b'⟩, g1, g2⟩ := edit_clause_of C (x := (asParams rs, b)) ih1 h2 h
    rcases g2 with (⟨g2, g3⟩ | ⟨g2, g3⟩) | ⟨g2, g3⟩
    · simp only at g2 g3
      subst g3
      cases rs with
      | nil => cases g2
      | cons r rs =>
        obtain ⟨g2⟩ := g2
        rename_i vs'
        have hne : asParams vs' = some vs' := by
          generalize r :: rs = l at g2
          obtain ⟨hr⟩ := g2
          rename_i a a' pre post
          cases pre <;> rfl
        refine ⟨(vs', b', cs), ⟨y', ds, rfl, h1, ?_⟩, .inl fun e => ?_⟩
        · simp only [hne]
          exact g1
        · exact .tryReturns g2
    · simp only at g2 g3
      subst g2
      exact ⟨(rs, b', cs), ⟨y', ds, rfl, h1, g1⟩, .inl fun e => .tryBody g3⟩
    · cases g2
      exact ⟨(rs, b, cs), ⟨y', ds, rfl, h1, g1⟩, .inr ⟨rfl, g3⟩⟩
  | cons z zs =>
    simp only [List.cons_append, List.cons.injEq] at e
    obtain ⟨rfl, e⟩ := e
    obtain ⟨cs', g1, g2⟩ := ih2 h1 e h
    refine ⟨(rs, b, cs'), ⟨d, _, rfl, g1, h2⟩, ?_⟩
    rcases g2 with g2 | ⟨g2, g3⟩
    · refine .inl fun e => ?_
      simp only at g2 ⊢
      obtain ⟨hr⟩ := g2
      exact .tryClause hr
    · subst g2
      exact .inr ⟨rfl, g3⟩

theorem Carries.hereStmt (C : Carries c n n') {s : Stmt} (h : ShowsStmt s n) (hb : ∀ ss, s ≠ .block ss) :
    ∃ s', ShowsStmt s' n' ∧ Chg (InStmt c) true s s' := by
  obtain ⟨e', h1, h2⟩ := C.stmt s h hb
  exact ⟨e', h1, .inl (.here h2)⟩

mutual
theorem edit_stmt (C : Carries c n n') : (s : Stmt) → {vis : Bool} → {j j' : Json} → ShowsStmt s j → Edit n n' vis j j' →
    ∃ s', ShowsStmt s' j' ∧ Chg (InStmt c) vis s s'
  | .expr e, vis, j, j', hS, h => by
    simp only [ShowsStmt] at hS
    obtain ⟨e', g1, g2⟩ := edit_exprStmt C hS h
    refine ⟨.expr e', ?_, g2.map (q := InStmt c) .expr .expr⟩
    simp only [ShowsStmt]
    exact g1
  | .decl vs value, vis, j, j', hS, h => by
    simp only [ShowsStmt] at hS
    obtain ⟨hA, ⟨js, h1, h2⟩, h3⟩ := hS
    obtain ⟨k, S⟩ := C.into h hA (by decide)
    obtain ⟨js', vs', g1, g2, g3⟩ := S.kids C.obj h1 (showDecls_iff.1 h2)
      (fun vis' pre x x' post e hE => edit_pairs (r := InSome (InVar c)) (showDecls_iff.1 h2) e fun v hv => by
        cases v with
        | none =>
          simp only [ShowsDecl] at hv
          subst hv
          exact absurd hE C.noNull
        | some v =>
          obtain ⟨v', g1, g2⟩ := edit_var C hv hE
          exact ⟨some v', g1, g2.map some .mk⟩) (by decide)
    obtain ⟨e', g4, g5⟩ := edit_opt C S h3 (by decide)
    refine ⟨.decl vs' e', ?_, S.two (InStmt c) .decl g3 g5 (by decide) (by decide) .declared .value⟩
    simp only [ShowsStmt]
    exact ⟨S.isA hA, ⟨js', g1, showDecls_iff.2 g2⟩, g4⟩
  | .block ss, vis, j, j', hS, h => by
    obtain ⟨ss', g1, g2⟩ := edit_block_of C (fun a b d => edit_stmts C ss a b d) (showsBlock_iff.1 hS) h
    exact ⟨.block ss', showsBlock_iff.2 g1, g2.map (q := InStmt c) .block id⟩
  | .unchecked ss, vis, j, j', hS, h => by
    have hS' := hS
    simp only [ShowsStmt] at hS
    obtain ⟨hA, js, h1, h2⟩ := hS
    rcases edit_step C.obj C.obj' h hA with ⟨rfl, rfl, rfl⟩ | ⟨k, S⟩
    · exact C.hereStmt hS' (fun _ e => by cases e)
    obtain ⟨js', ss', g1, g2, g3⟩ := S.kids C.obj h1 h2 (fun vis' pre x x' post e hE => edit_stmts C ss h2 e hE) (by decide)
    refine ⟨.unchecked ss', ?_, S.one (InStmt c) .unchecked g3 (by decide) (fun ⟨hr⟩ => .unchecked hr)⟩
    simp only [ShowsStmt]
    exact ⟨S.isA hA, js', g1, g2⟩
  | .if_ x t, vis, j, j', hS, h => by
    have hS' := hS
    simp only [ShowsStmt] at hS
    obtain ⟨hA, ⟨v, h1, h2⟩, ⟨w, h3, h4⟩, h5⟩ := hS
    rcases edit_step C.obj C.obj' h hA with ⟨rfl, rfl, rfl⟩ | ⟨k, S⟩
    · exact C.hereStmt hS' (fun _ e => by cases e)
    obtain ⟨v', x', g1, g2, g3⟩ := S.kid h1 h2 (fun vis' v' hE => edit_expr C x h2 hE) (by decide)
    obtain ⟨w', t', g4, g5, g6⟩ := S.kid h3 h4 (fun vis' v' hE => edit_stmt C t h4 hE) (by decide)
    refine ⟨.if_ x' t', ?_, S.three (InStmt c) (fun x t _ => .if_ x t) g3 g6 (S.goneKid h5) (by decide) (by decide) .ifCondition .ifBody False.elim⟩
    simp only [ShowsStmt]
    exact ⟨S.isA hA, ⟨v', g1, g2⟩, ⟨w', g4, g5⟩, S.gone h5⟩
  | .ifElse x t f, vis, j, j', hS, h => by
    have hS' := hS
    simp only [ShowsStmt] at hS
    obtain ⟨hA, ⟨v, h1, h2⟩, ⟨w, h3, h4⟩, u, h5, h6⟩ := hS
    rcases edit_step C.obj C.obj' h hA with ⟨rfl, rfl, rfl⟩ | ⟨k, S⟩
    · exact C.hereStmt hS' (fun _ e => by cases e)
    obtain ⟨v', x', g1, g2, g3⟩ := S.kid h1 h2 (fun vis' v' hE => edit_expr C x h2 hE) (by decide)
    obtain ⟨w', t', g4, g5, g6⟩ := S.kid h3 h4 (fun vis' v' hE => edit_stmt C t h4 hE) (by decide)
    obtain ⟨u', f', g7, g8, g9⟩ := S.kid h5 h6 (fun vis' v' hE => edit_stmt C f h6 hE) (by decide)
    refine ⟨.ifElse x' t' f', ?_, S.three (InStmt c) .ifElse g3 g6 g9 (by decide) (by decide) .elseCondition .elseBody .elseOther⟩
    simp only [ShowsStmt]
    exact ⟨S.isA hA, ⟨v', g1, g2⟩, ⟨w', g4, g5⟩, u', g7, g8⟩
  | .while_ x t, vis, j, j', hS, h => by
    have hS' := hS
    simp only [ShowsStmt] at hS
    obtain ⟨hA, ⟨v, h1, h2⟩, w, h3, h4⟩ := hS
    rcases edit_step C.obj C.obj' h hA with ⟨rfl, rfl, rfl⟩ | ⟨k, S⟩
    · exact C.hereStmt hS' (fun _ e => by cases e)
    obtain ⟨v', x', g1, g2, g3⟩ := S.kid h1 h2 (fun vis' v' hE => edit_expr C x h2 hE) (by decide)
    obtain ⟨w', t', g4, g5, g6⟩ := S.kid h3 h4 (fun vis' v' hE => edit_stmt C t h4 hE) (by decide)
    refine ⟨.while_ x' t', ?_, S.two (InStmt c) .while_ g3 g6 (by decide) (by decide) .whileCondition .whileBody⟩
    simp only [ShowsStmt]
    exact ⟨S.isA hA, ⟨v', g1, g2⟩, w', g4, g5⟩
  | .doWhile t x, vis, j, j', hS, h => by
    have hS' := hS
    simp only [ShowsStmt] at hS
    obtain ⟨hA, ⟨v, h1, h2⟩, w, h3, h4⟩ := hS
    rcases edit_step C.obj C.obj' h hA with ⟨rfl, rfl, rfl⟩ | ⟨k, S⟩
    · exact C.hereStmt hS' (fun _ e => by cases e)
    obtain ⟨v', x', g1, g2, g3⟩ := S.kid h1 h2 (fun vis' v' hE => edit_expr C x h2 hE) (by decide)
    obtain ⟨w', t', g4, g5, g6⟩ := S.kid h3 h4 (fun vis' v' hE => edit_stmt C t h4 hE) (by decide)
    refine ⟨.doWhile t' x', ?_, S.two (InStmt c) (fun x t => .doWhile t x) g3 g6 (by decide) (by decide) .doCondition .doBody⟩
    simp only [ShowsStmt]
    exact ⟨S.isA hA, ⟨v', g1, g2⟩, w', g4, g5⟩
  | .for_ i x st b, vis, j, j', hS, h => by
    have hS' := hS
    simp only [ShowsStmt] at hS
    obtain ⟨hA, ⟨v, h1, h2⟩, ⟨w, h3, h4⟩, h5, u, h6, h7⟩ := hS
    rcases edit_step C.obj C.obj' h hA with ⟨rfl, rfl, rfl⟩ | ⟨k, S⟩
    · exact C.hereStmt hS' (fun _ e => by cases e)
    obtain ⟨v', i', g1, g2, g3⟩ := S.kid h1 h2 (fun vis' v' hE => edit_stmt C i h2 hE) (by decide)
    obtain ⟨w', x', g4, g5, g6⟩ := S.kid h3 h4 (fun vis' v' hE => edit_expr C x h4 hE) (by decide)
    obtain ⟨u', b', g7, g8, g9⟩ := S.kid h6 h7 (fun vis' v' hE => edit_stmt C b h7 hE) (by decide)
    cases st with
    | none =>
      refine ⟨.for_ i' x' none b', ?_, S.four (InStmt c) (fun i x st b => .for_ i x st b) g3 g6 (S.absent h5 (r := InSome (InExpr c)) (a := none)) g9 (by decide) (by decide)
        .forInit .forCondition .forStep .forBody⟩
      simp only [ShowsStmt]
      exact ⟨S.isA hA, ⟨v', g1, g2⟩, ⟨w', g4, g5⟩, S.gone h5, u', g7, g8⟩
    | some e =>
      obtain ⟨y, p1, p2⟩ := h5
      obtain ⟨y', e', q1, q2, q3⟩ := S.kid (P := ShowsExprStmt) p1 p2 (fun vis' v' hE => edit_exprStmt C p2 hE) (by decide)
      refine ⟨.for_ i' x' (some e') b', ?_, S.four (InStmt c) (fun i x e b => .for_ i x (some e) b) g3 g6 q3 g9 (by decide) (by decide)
        .forInit .forCondition (fun hr => .forStep (.mk hr)) .forBody⟩
      simp only [ShowsStmt]
      exact ⟨S.isA hA, ⟨v', g1, g2⟩, ⟨w', g4, g5⟩, ⟨y', q1, q2⟩, u', g7, g8⟩
  | .return_ e, vis, j, j', hS, h => by
    simp only [ShowsStmt] at hS
    obtain ⟨hA, h1⟩ := hS
    obtain ⟨k, S⟩ := C.into h hA (by decide)
    obtain ⟨e', g1, g2⟩ := edit_opt C S h1 (by decide)
    refine ⟨.return_ e', ?_, S.one (InStmt c) .return_ g2 (by decide) .result⟩
    simp only [ShowsStmt]
    exact ⟨S.isA hA, g1⟩
  | .emit e, vis, j, j', hS, h => by
    simp only [ShowsStmt] at hS
    obtain ⟨hA, v, h1, h2⟩ := hS
    obtain ⟨k, S⟩ := C.into h hA (by decide)
    obtain ⟨v', e', g1, g2, g3⟩ := S.kid h1 h2 (fun vis' v' hE => edit_expr C e h2 hE) (by decide)
    refine ⟨.emit e', ?_, S.one (InStmt c) .emit g3 (by decide) .emit⟩
    simp only [ShowsStmt]
    exact ⟨S.isA hA, v', g1, g2⟩
  | .revert e, vis, j, j', hS, h => by
    simp only [ShowsStmt] at hS
    obtain ⟨hA, v, h1, h2⟩ := hS
    obtain ⟨k, S⟩ := C.into h hA (by decide)
    obtain ⟨v', e', g1, g2, g3⟩ := S.kid h1 h2 (fun vis' v' hE => edit_expr C e h2 hE) (by decide)
    refine ⟨.revert e', ?_, S.one (InStmt c) .revert g3 (by decide) .revert⟩
    simp only [ShowsStmt]
    exact ⟨S.isA hA, v', g1, g2⟩
  | .break_, vis, j, j', hS, h => by
    simp only [ShowsStmt] at hS
    obtain ⟨k, S⟩ := C.into h hS (by decide)
    refine ⟨.break_, ?_, S.nothing (InStmt c) (by decide)⟩
    simp only [ShowsStmt]
    exact S.isA hS
  | .continue_, vis, j, j', hS, h => by
    simp only [ShowsStmt] at hS
    obtain ⟨k, S⟩ := C.into h hS (by decide)
    refine ⟨.continue_, ?_, S.nothing (InStmt c) (by decide)⟩
    simp only [ShowsStmt]
    exact S.isA hS
  | .placeholder, vis, j, j', hS, h => by
    simp only [ShowsStmt] at hS
    obtain ⟨k, S⟩ := C.into h hS (by decide)
    refine ⟨.placeholder, ?_, S.nothing (InStmt c) (by decide)⟩
    simp only [ShowsStmt]
    exact S.isA hS
  | .try_ e rs b cs, vis, j, j', hS, h => by
    rw [showsTryStmt_iff] at hS
    obtain ⟨hA, ⟨v, h1, h2⟩, js, h3, h4⟩ := hS
    obtain ⟨k, S⟩ := C.into h hA (by decide)
    obtain ⟨v', e', g1, g2, g3⟩ := S.kid h1 h2 (fun vis' v' hE => edit_try C h2 hE) (by decide)
    obtain ⟨js', x', g4, g5, g6⟩ := S.kids C.obj h3 h4 (fun vis' pre x x' post eq hE =>
      edit_clauses_of C (fun a b' d => edit_stmts C b a b' d) (fun a b d => edit_stmts C cs a b d) h4 eq hE) (by decide)
    refine ⟨.try_ e' x'.1 x'.2.1 x'.2.2, ?_, S.two (InStmt c) (fun e x => .try_ e x.1 x.2.1 x.2.2) g3 g6 (by decide) (by decide) .tried (fun hr => hr _)⟩
    rw [showsTryStmt_iff]
    exact ⟨S.isA hA, ⟨v', g1, g2⟩, js', g4, g5⟩
  | .clause t ps b, vis, j, j', hS, h => by
    obtain ⟨x', g1, g2⟩ := edit_clause_of C (x := (ps, b)) (fun a b' d => edit_stmts C b a b' d) (showsClause_iff.1 hS) h
    refine ⟨.clause t x'.1 x'.2, showsClause_iff.2 g1, g2.map (q := InStmt c) (fun x => .clause t x.1 x.2) ?_⟩
    obtain ⟨p', b'⟩ := x'
    rintro (⟨hr, e⟩ | ⟨e, hr⟩)
    · simp only at e
      subst e
      exact .clauseParams hr
    · simp only at e
      subst e
      exact .clauseBody hr
  | .assembly fs ss, vis, j, j', hS, h => by
    simp only [ShowsStmt] at hS
    obtain ⟨hA, h0, h1, v, h2, h3⟩ := hS
    obtain ⟨k, S⟩ := C.into h hA (by decide)
    refine ⟨.assembly fs ss, ?_, S.nothing (InStmt c) (by decide)⟩
    simp only [ShowsStmt]
    have harr : ∀ {ts : List String}, Json.field? "flags" j = some (.arr (ts.map .str)) → Json.field? "flags" j' = some (.arr (ts.map .str)) := by
      intro ts hts
      rw [← S.arr' (by decide)]
      exact C.texts S (by decide) ((S.arr (by decide)).2 hts)
    refine ⟨S.isA hA, by rw [S.str _ (by decide)]; exact h0, ?_,
      S.keep h2 h3 (fun vis' v' hE => keep_yulBlock C (fun a b d => keep_yuls C ss a b d) h3 hE)⟩
    cases fs with
    | nil =>
      rcases h1 with h1 | h1
      · exact .inl (S.gone h1)
      · exact .inr (harr (ts := []) h1)
    | cons f fs => exact harr h1
  | .comment t, vis, j, j', hS, h => by
    simp only [ShowsStmt] at hS
    obtain ⟨hA, h1, h2⟩ := hS
    obtain ⟨k, S⟩ := C.into h hA (by decide)
    refine ⟨.comment t, ?_, S.nothing (InStmt c) (by decide)⟩
    simp only [ShowsStmt]
    exact ⟨S.isA hA, by rw [S.str _ (by decide)]; exact h1, S.gone h2⟩
theorem edit_stmts (C : Carries c n n') : (ss : List Stmt) → {vis : Bool} → {js pre : List Json} → {x x' : Json} → {post : List Json} →
    ShowStmts ss js → js = pre ++ x :: post → Edit n n' vis x x' →
    ∃ ss', ShowStmts ss' (pre ++ x' :: post) ∧ Chg (InList (InStmt c)) vis ss ss'
  | [], vis, js, pre, x, x', post, hS, e, h => by
    cases js with
    | nil => simp at e
    | cons y ys => simp only [ShowStmts] at hS
  | a :: as, vis, js, pre, x, x', post, hS, e, h => by
    cases js with
    | nil => simp at e
    | cons y ys =>
      simp only [ShowStmts] at hS
      cases pre with
      | nil =>
        simp only [List.nil_append, List.cons.injEq] at e
        obtain ⟨rfl, rfl⟩ := e
        obtain ⟨a', g1, g2⟩ := edit_stmt C a hS.1 h
        refine ⟨a' :: as, ?_, g2.map (· :: as) inList_cons_head⟩
        simp only [List.nil_append, ShowStmts]
        exact ⟨g1, hS.2⟩
      | cons z zs =>
        simp only [List.cons_append, List.cons.injEq] at e
        obtain ⟨rfl, e⟩ := e
        obtain ⟨as', g1, g2⟩ := edit_stmts C as hS.2 e h
        refine ⟨a :: as', ?_, g2.map (a :: ·) inList_cons_tail⟩
        simp only [List.cons_append, ShowStmts]
        exact ⟨hS.1, g1⟩
end

/-! ### Members, contracts, files -/

theorem keep_name (C : Carries c n n') {p : List String} (hS : ShowsName p j) (h : Edit n n' vis j j') : ShowsName p j' := by
  obtain ⟨hA, h1⟩ := hS
  rcases hA with hA | hA
  · obtain ⟨hA', hs⟩ := C.inert h hA (by decide)
    exact ⟨.inl hA', by rw [hs _ (by decide)]; exact h1⟩
  · obtain ⟨hA', hs⟩ := C.inert h hA (by decide)
    exact ⟨.inr hA', by rw [hs _ (by decide)]; exact h1⟩

theorem edit_args (C : Carries c n n') (S : Step n n' vis ps k j j') {es : Option (List Expr)} (h : ShowsArgs j es)
    (hps : ps.contains "arguments" = true) : ∃ es', ShowsArgs j' es' ∧ Kid vis k "arguments" (InSome (InList (InExpr c))) es es' := by
  cases es with
  | none =>
    refine ⟨none, ⟨S.gone h.1, ?_⟩, S.absent h.1⟩
    cases hb : j'.getArrayForKey "arguments" with
    | none => rfl
    | some xs =>
      rw [S.arr' (by decide), S.gone h.1] at hb
      cases hb
  | some es =>
    obtain ⟨js, h1, h2, h3⟩ := h
    obtain ⟨js', x, g1, ⟨es', rfl, g2⟩, g3⟩ := S.kids C.obj (Q := fun x js => ∃ es, x = some es ∧ ShowAll es js)
      (r' := InSome (InList (InExpr c))) h1 ⟨es, rfl, h3⟩ (fun vis' pre x x' post e hE => by
        obtain ⟨es', g1, g2⟩ := edit_all C es h3 e hE
        exact ⟨some es', ⟨es', rfl, g1⟩, g2.map some .mk⟩) hps
    exact ⟨some es', ⟨js', g1, (S.arr' (by decide)).2 g1, g2⟩, g3⟩

theorem edit_use (C : Carries c n n') {u : Use} (hS : ShowsUse u j) (h : Edit n n' vis j j') :
    ∃ u', ShowsUse u' j' ∧ Chg (InUse c) vis u u' := by
  obtain ⟨hA, ⟨v, h1, h2⟩, h3⟩ := hS
  obtain ⟨k, S⟩ := C.into h hA (by decide)
  obtain ⟨v', g1, g2⟩ := S.keep h1 h2 (fun vis' v' hE => keep_name C h2 hE)
  obtain ⟨es', g3, g4⟩ := edit_args C S h3 (by decide)
  exact ⟨{ u with args := es' }, ⟨S.isA hA, ⟨v', g1, g2⟩, g3⟩,
    S.one (InUse c) (fun es => { u with args := es }) g4 (by decide) (fun hr => .args hr)⟩

theorem edit_base (C : Carries c n n') {u : Use} (hS : ShowsBase u j) (h : Edit n n' vis j j') :
    ∃ u', ShowsBase u' j' ∧ Chg (InUse c) vis u u' := by
  obtain ⟨hA, ⟨v, h1, h2⟩, h3⟩ := hS
  obtain ⟨k, S⟩ := C.into h hA (by decide)
  obtain ⟨v', g1, g2⟩ := S.keep h1 h2 (fun vis' v' hE => keep_name C h2 hE)
  obtain ⟨es', g3, g4⟩ := edit_args C S h3 (by decide)
  exact ⟨{ u with args := es' }, ⟨S.isA hA, ⟨v', g1, g2⟩, g3⟩,
    S.one (InUse c) (fun es => { u with args := es }) g4 (by decide) (fun hr => .args hr)⟩

theorem keep_override (C : Carries c n n') (S : Step n n' vis ps k j j') {o : Option (List (List String))} (h : ShowsOverride j o) :
    ShowsOverride j' o := by
  cases o with
  | none => exact S.gone h
  | some ns =>
    obtain ⟨v, h1, hA, js, h2, h3⟩ := h
    exact S.keep (P := fun v => IsA "OverrideSpecifier" v ∧ ∃ js, v.getArrayForKey "overrides" = some js ∧ Pairwise₂ ShowsName ns js)
      h1 ⟨hA, js, h2, h3⟩ (fun vis' v' hE => by
        obtain ⟨k', S'⟩ := C.into hE hA (by decide)
        rw [S'.arr (by decide)] at h2
        obtain ⟨js', g1, g2⟩ := C.keeps S' h2 h3 (fun vis' pre x x' post e hE => keep_pairs h3 e fun a ha => keep_name C ha hE)
        exact ⟨S'.isA hA, js', (S'.arr' (by decide)).2 g1, g2⟩)

theorem edit_body (C : Carries c n n') (S : Step n n' vis ps k j j') {b : Option (List Stmt)} (h : ShowsBody j b)
    (hps : ps.contains "body" = true) : ∃ b', ShowsBody j' b' ∧ Kid vis k "body" (InBody c) b b' ∧ b'.isSome = b.isSome := by
  cases b with
  | none => exact ⟨none, S.gone h, S.absent h, rfl⟩
  | some ss =>
    obtain ⟨v, h1, h2⟩ := h
    obtain ⟨v', x, g1, ⟨ss', rfl, g2⟩, g3⟩ := S.kid (P := fun x v => ∃ ss, x = some ss ∧ ShowsStmt (.block ss) v)
      (r := InBody c) h1 ⟨ss, rfl, h2⟩ (fun vis' v' hE => by
        obtain ⟨ss', g1, g2⟩ := edit_block_of C (fun a b d => edit_stmts C ss a b d) (showsBlock_iff.1 h2) hE
        exact ⟨some ss', ⟨ss', rfl, showsBlock_iff.2 g1⟩, g2.map some .mk⟩) hps
    exact ⟨some ss', ⟨v', g1, g2⟩, g3, rfl⟩

theorem pairs_length {α : Type} {P : α → Json → Prop} : {as : List α} → {js : List Json} → Pairwise₂ P as js → js.length = as.length
  | [], [], _ => rfl
  | [], _ :: _, h => h.elim
  | _ :: _, [], h => h.elim
  | _ :: _, _ :: _, h => congrArg (· + 1) (pairs_length h.2)

theorem edit_fn (C : Carries c n n') {f : Fn} {doc : Option String} (hS : ShowsFn f j doc) (h : Edit n n' vis j j') :
    ∃ f', ShowsFn f' j' doc ∧ Chg (InFn c) vis f f' := by
  rcases edit_step C.obj C.obj' h hS.isA with ⟨rfl, _⟩ | ⟨k, S⟩
  · exact absurd (show ShowsMember (.fn f doc) _ from hS) (C.member _)
  obtain ⟨x, h1, h2⟩ := hS.params
  obtain ⟨x', ps', g1, g2, g3⟩ := S.kid h1 h2 (fun vis' v' hE => edit_params C h2 hE) (by decide)
  obtain ⟨ms, h3, h4⟩ := hS.modifiers
  obtain ⟨ms', us', g4, g5, g6⟩ := S.kids C.obj h3 h4 (fun vis' pre x x' post e hE => edit_pairs h4 e fun a ha => edit_use C ha hE) (by decide)
  obtain ⟨y, h5, h6, _⟩ := hS.returns
  obtain ⟨y', rs', g7, g8, g9⟩ := S.kid h5 h6 (fun vis' v' hE => edit_params C h6 hE) (by decide)
  obtain ⟨b', p1, p2, p3⟩ := edit_body C S hS.body (by decide)
  refine ⟨{ f with params := ps', modifiers := us', returns := rs', body := b' }, ?_,
    S.four (InFn c) (fun p u r b => { f with params := p, modifiers := u, returns := r, body := b }) g3 g6 g9 p2 (by decide) (by decide)
      (fun hr => .params hr) (fun hr => .modifiers hr) (fun hr => .returns hr) (fun hr => .body hr)⟩
  constructor
  · exact S.isA hS.isA
  · exact keep_doc C S hS.documentation
  · rw [S.str _ (by decide), S.str _ (by decide)]; exact hS.kind
  · exact ⟨x', g1, g2⟩
  · rw [S.str _ (by decide)]; exact hS.visibility
  · rw [S.bool _ (by decide)]; exact hS.virtual
  · rw [S.str _ (by decide)]; exact hS.mutability
  · exact keep_override C S hS.override
  · exact ⟨ms', g4, g5⟩
  · obtain ⟨hA, js, g10, g11⟩ := g8
    exact ⟨y', g7, ⟨hA, js, g10, g11⟩, js, (field_of_getArray (by decide) hA).2 g10, pairs_length (showVars_iff.1 g11)⟩
  · exact p1
  · rw [S.bool _ (by decide), hS.implemented]
    exact congrArg some p3.symm

theorem keep_function (C : Carries c n n') {key key' : String} (hk : PlainKey key') {p : List String} {o : Option String}
    (hS : j.getStrForKey "nodeType" = none ∧ (∃ v, Json.field? key j = some v ∧ ShowsName p v) ∧ j.getStrForKey key' = o)
    (h : Edit n n' vis j j') :
    j'.getStrForKey "nodeType" = none ∧ (∃ v, Json.field? key j' = some v ∧ ShowsName p v) ∧ j'.getStrForKey key' = o := by
  obtain ⟨h0, ⟨v, h1, h2⟩, h3⟩ := hS
  have ho : ∃ kvs, j = .obj kvs := by
    cases j with
    | obj kvs => exact ⟨kvs, rfl⟩
    | _ => simp [Json.field?] at h1
  obtain ⟨kvs, rfl⟩ := ho
  rcases edit_obj C.obj C.obj' h with ⟨rfl, _⟩ | ⟨k, S⟩
  · obtain ⟨t, _, ht⟩ := C.whole
    unfold IsA at ht
    rw [h0] at ht
    cases ht
  · refine ⟨by rw [S.str _ (by decide)]; exact h0, ?_, by rw [S.str _ hk]; exact h3⟩
    exact S.keep h1 h2 (fun vis' v' hE => keep_name C h2 hE)

theorem edit_member (C : Carries c n n') {m : Member} (hS : ShowsMember m j) (h : Edit n n' vis j j') :
    ∃ m', ShowsMember m' j' ∧ Chg (InMember c) vis m m' := by
  cases m with
  | state v doc =>
    obtain ⟨v', g1, g2⟩ := edit_var C (show ShowsVar v j doc from hS) h
    exact ⟨.state v' doc, g1, g2.map (q := InMember c) (.state · doc) .state⟩
  | fn f doc =>
    obtain ⟨f', g1, g2⟩ := edit_fn C (show ShowsFn f j doc from hS) h
    exact ⟨.fn f' doc, g1, g2.map (q := InMember c) (.fn · doc) .fn⟩
  | modifier t vs v b doc =>
    have hS' := hS
    simp only [ShowsMember] at hS
    obtain ⟨hA, h0, h1, ⟨x, h2, h3⟩, h4, h5, h6⟩ := hS
    rcases edit_step C.obj C.obj' h hA with ⟨rfl, _⟩ | ⟨k, S⟩
    · exact absurd hS' (C.member _)
    obtain ⟨x', vs', g1, g2, g3⟩ := S.kid h2 h3 (fun vis' v' hE => edit_params C h3 hE) (by decide)
    obtain ⟨b', p1, p2, _⟩ := edit_body C S h6 (by decide)
    refine ⟨.modifier t vs' v b' doc, ?_, S.two (InMember c) (fun vs b => .modifier t vs v b doc) g3 p2 (by decide) (by decide) .modifierParams .modifierBody⟩
    simp only [ShowsMember]
    exact ⟨S.isA hA, keep_doc C S h0, by rw [S.str _ (by decide)]; exact h1, ⟨x', g1, g2⟩, by rw [S.bool _ (by decide)]; exact h4, S.gone h5, p1⟩
  | event t vs a =>
    simp only [ShowsMember] at hS
    obtain ⟨hA, h1, ⟨x, h2, h3⟩, h4⟩ := hS
    obtain ⟨k, S⟩ := C.into h hA (by decide)
    obtain ⟨x', vs', g1, g2, g3⟩ := S.kid h2 h3 (fun vis' v' hE => edit_params C h3 hE) (by decide)
    refine ⟨.event t vs' a, ?_, S.one (InMember c) (.event t · a) g3 (by decide) .event⟩
    simp only [ShowsMember]
    exact ⟨S.isA hA, by rw [S.str _ (by decide)]; exact h1, ⟨x', g1, g2⟩, by rw [S.bool _ (by decide)]; exact h4⟩
  | error t vs =>
    simp only [ShowsMember] at hS
    obtain ⟨hA, h1, x, h2, h3⟩ := hS
    obtain ⟨k, S⟩ := C.into h hA (by decide)
    obtain ⟨x', vs', g1, g2, g3⟩ := S.kid h2 h3 (fun vis' v' hE => edit_params C h3 hE) (by decide)
    refine ⟨.error t vs', ?_, S.one (InMember c) (.error t ·) g3 (by decide) .error⟩
    simp only [ShowsMember]
    exact ⟨S.isA hA, by rw [S.str _ (by decide)]; exact h1, x', g1, g2⟩
  | struct t vs =>
    simp only [ShowsMember] at hS
    obtain ⟨hA, h1, js, h2, h3⟩ := hS
    obtain ⟨k, S⟩ := C.into h hA (by decide)
    obtain ⟨js', vs', g1, g2, g3⟩ := S.kids C.obj h2 (showVars_iff.1 h3)
      (fun vis' pre x x' post e hE => edit_pairs (showVars_iff.1 h3) e fun v hv => edit_var C hv hE) (by decide)
    refine ⟨.struct t vs', ?_, S.one (InMember c) (.struct t ·) g3 (by decide) .struct⟩
    simp only [ShowsMember]
    exact ⟨S.isA hA, by rw [S.str _ (by decide)]; exact h1, js', g1, showVars_iff.2 g2⟩
  | enum t vs =>
    simp only [ShowsMember] at hS
    obtain ⟨hA, h1, js, h2, h3⟩ := hS
    obtain ⟨k, S⟩ := C.into h hA (by decide)
    obtain ⟨js', g1, g2⟩ := C.keeps S h2 h3 (fun vis' pre x x' post e hE => keep_pairs h3 e fun a ha => by
      obtain ⟨hA', hs⟩ := C.inert hE ha.1 (by decide)
      exact ⟨hA', by rw [hs _ (by decide)]; exact ha.2⟩)
    refine ⟨.enum t vs, ?_, S.nothing (InMember c) (by decide)⟩
    simp only [ShowsMember]
    exact ⟨S.isA hA, by rw [S.str _ (by decide)]; exact h1, js', g1, g2⟩
  | using_ l t g =>
    simp only [ShowsMember] at hS
    obtain ⟨hA, ⟨v, h1, h2⟩, h3, ⟨w, h4, h5⟩, h6⟩ := hS
    obtain ⟨k, S⟩ := C.into h hA (by decide)
    obtain ⟨w', t', g1, g2, g3⟩ := S.kid h4 h5 (fun vis' v' hE => edit_ty C t h5 hE) (by decide)
    refine ⟨.using_ l t' g, ?_, S.one (InMember c) (.using_ l · g) g3 (by decide) .using_⟩
    simp only [ShowsMember]
    exact ⟨S.isA hA, S.keep h1 h2 (fun vis' v' hE => keep_name C h2 hE), S.gone h3, ⟨w', g1, g2⟩, by rw [S.bool _ (by decide)]; exact h6⟩
  | operators fs t g =>
    simp only [ShowsMember] at hS
    obtain ⟨hA, h1, ⟨js, h2, h3⟩, ⟨w, h4, h5⟩, h6⟩ := hS
    obtain ⟨k, S⟩ := C.into h hA (by decide)
    obtain ⟨w', t', g1, g2, g3⟩ := S.kid h4 h5 (fun vis' v' hE => edit_ty C t h5 hE) (by decide)
    obtain ⟨js', g4, g5⟩ := C.keeps S h2 h3 (fun vis' pre x x' post e hE => keep_pairs h3 e fun a ha =>
      keep_function C (by decide) ha hE)
    refine ⟨.operators fs t' g, ?_, S.one (InMember c) (.operators fs · g) g3 (by decide) .operators⟩
    simp only [ShowsMember]
    exact ⟨S.isA hA, S.gone h1, ⟨js', g4, g5⟩, ⟨w', g1, g2⟩, by rw [S.bool _ (by decide)]; exact h6⟩
  | type t ty =>
    simp only [ShowsMember] at hS
    obtain ⟨hA, h1, v, h2, h3⟩ := hS
    obtain ⟨k, S⟩ := C.into h hA (by decide)
    obtain ⟨w', t', g1, g2, g3⟩ := S.kid h2 h3 (fun vis' v' hE => edit_ty C ty h3 hE) (by decide)
    refine ⟨.type t t', ?_, S.one (InMember c) (.type t ·) g3 (by decide) .type⟩
    simp only [ShowsMember]
    exact ⟨S.isA hA, by rw [S.str _ (by decide)]; exact h1, w', g1, g2⟩
  | comment t =>
    simp only [ShowsMember] at hS
    obtain ⟨hA, h1, h2⟩ := hS
    obtain ⟨k, S⟩ := C.into h hA (by decide)
    refine ⟨.comment t, ?_, S.nothing (InMember c) (by decide)⟩
    simp only [ShowsMember]
    exact ⟨S.isA hA, by rw [S.str _ (by decide)]; exact h1, S.gone h2⟩

theorem edit_contract (C : Carries c n n') {d : Contract} (hS : ShowsContract d j) (h : Edit n n' vis j j') :
    ∃ d', ShowsContract d' j' ∧ Chg (InContract c) vis d d' := by
  rcases edit_step C.obj C.obj' h hS.isA with ⟨rfl, rfl, rfl⟩ | ⟨k, S⟩
  · obtain ⟨d', g1, g2⟩ := C.contract _ hS
    exact ⟨d', g1, .inl (.here g2)⟩
  obtain ⟨js, h1, h2⟩ := hS.bases
  obtain ⟨ms, h3, h4⟩ := hS.members
  rw [S.arr (by decide)] at h3
  obtain ⟨js', us', g1, g2, g3⟩ := S.kids C.obj h1 h2 (fun vis' pre x x' post e hE => edit_pairs h2 e fun a ha => edit_base C ha hE) (by decide)
  obtain ⟨ms', xs', g4, g5, g6⟩ := S.kids C.obj h3 h4 (fun vis' pre x x' post e hE => edit_pairs h4 e fun a ha => edit_member C ha hE) (by decide)
  refine ⟨{ d with bases := us', members := xs' }, ?_, S.two (InContract c) (fun u m => { d with bases := u, members := m }) g3 g6 (by decide) (by decide)
    (fun hr => .bases hr) (fun hr => .members hr)⟩
  constructor
  · exact S.isA hS.isA
  · exact keep_doc C S hS.documentation
  · rw [S.bool _ (by decide)]; exact hS.abstract_
  · rw [S.str _ (by decide)]; exact hS.kind
  · rw [S.str _ (by decide)]; exact hS.name
  · exact ⟨js', g1, g2⟩
  · exact ⟨ms', (S.arr' (by decide)).2 g4, g5⟩

theorem edit_item (C : Carries c n n') {x : Item} (hS : ShowsItem x j) (h : Edit n n' vis j j') :
    ∃ x', ShowsItem x' j' ∧ Chg (InItem c) vis x x' := by
  cases x with
  | pragma vs =>
    simp only [ShowsItem] at hS
    obtain ⟨hA, h1⟩ := hS
    obtain ⟨k, S⟩ := C.into h hA (by decide)
    refine ⟨.pragma vs, ⟨S.isA hA, ?_⟩, S.nothing (InItem c) (by decide)⟩
    rw [← S.arr' (by decide)]
    exact C.texts S (by decide) ((S.arr (by decide)).2 h1)
  | import_ i =>
    obtain ⟨hA, h1, h2, js, h3, h4⟩ := (show ShowsImport i j from hS)
    obtain ⟨k, S⟩ := C.into h hA (by decide)
    obtain ⟨js', g4, g5⟩ := C.keeps S h3 h4 (fun vis' pre x x' post e hE => keep_pairs h4 e fun a ha =>
      keep_function C (by decide) ha hE)
    exact ⟨.import_ i, ⟨S.isA hA, by rw [S.str _ (by decide)]; exact h1, by rw [S.str _ (by decide)]; exact h2, js', g4, g5⟩,
      S.nothing (InItem c) (by decide)⟩
  | contract d =>
    obtain ⟨d', g1, g2⟩ := edit_contract C (show ShowsContract d j from hS) h
    exact ⟨.contract d', g1, g2.map (q := InItem c) .contract .contract⟩
  | member m =>
    obtain ⟨m', g1, g2⟩ := edit_member C (show ShowsMember m j from hS) h
    exact ⟨.member m', g1, g2.map (q := InItem c) .member .member⟩

/-- Replacing a node changes the file at one place, or, if the node is not part of the program, not at all. -/
theorem edit_file (C : Carries c n n') {f : SourceFile} (hS : ShowsFile f j) (h : Edit n n' vis j j') :
    ∃ f', ShowsFile f' j' ∧ Chg (InFile c) vis f f' := by
  obtain ⟨hA, h1, js, h2, h3⟩ := hS
  obtain ⟨k, S⟩ := C.into h hA (by decide)
  obtain ⟨js', xs', g1, g2, g3⟩ := S.kids C.obj h2 h3 (fun vis' pre x x' post e hE => edit_pairs h3 e fun a ha => edit_item C ha hE) (by decide)
  exact ⟨{ f with items := xs' }, ⟨S.isA hA, by rw [S.str _ (by decide)]; exact h1, js', g1, g2⟩,
    S.one (InFile c) (fun xs => { f with items := xs }) g3 (by decide) (fun hr => .items hr)⟩

end SolPrint
end Mutagenyx
