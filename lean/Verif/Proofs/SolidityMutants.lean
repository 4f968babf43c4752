import Verif.Proofs.SolidityChange
import Verif.Proofs.VyperMutants
import Verif.Props.Operators
import Verif.Props.SolidityMutators
import Verif.Spec.SolidityMutation

/-!
# The mutators of Solidity and the programs that the trees stand for
-/

namespace Mutagenyx
namespace SolPrint
open SolGrammar Json

variable {R : Type}

theorem solKind_isA {t : String} {j : Json} : IsKind t j ↔ IsA t j :=
  ⟨getStr_of_text (by decide), getStr_text (by decide) (by decide)⟩

theorem solIsA_unique {t u : String} {j : Json} (h : IsA t j) (h' : IsA u j) : t = u := by
  unfold IsA at h h'
  rw [h] at h'
  exact Option.some.inj h'

/-! ### The types of nodes -/

/-- The types of the nodes that show an expression. -/
def typesE : Expr → List String
  | .leaf _ => ["Identifier", "Literal", "ElementaryTypeNameExpression"]
  | .unit _ _ => ["Literal"]
  | .str _ => ["Literal"]
  | .new_ _ _ => ["NewExpression"]
  | .hole => []
  | .tuple _ => ["TupleExpression"]
  | .paren _ => ["TupleExpression"]
  | .member _ _ => ["MemberAccess"]
  | .index _ _ => ["IndexAccess"]
  | .emptyIndex _ => ["IndexAccess"]
  | .named _ _ _ => ["FunctionCall"]
  | .options _ _ _ => ["FunctionCallOptions"]
  | .call _ _ => ["FunctionCall"]
  | .post _ _ => ["UnaryOperation"]
  | .pre _ _ => ["UnaryOperation", "Literal"]
  | .bin _ o _ => if o.level = 1 then ["Assignment"] else ["BinaryOperation"]
  | .cond _ _ _ => ["Conditional"]

theorem mem_typesE {e : Expr} {j : Json} {t : String} (h : Shows e j) (ht : IsA t j) : t ∈ typesE e := by
  cases e with
  | leaf x =>
    simp only [Shows] at h
    rcases h with ⟨h, _⟩ | ⟨h, _⟩ | ⟨h, _⟩ <;> rw [solIsA_unique ht h] <;> simp [typesE]
  | pre u x =>
    simp only [Shows] at h
    rcases h with ⟨h, _⟩ | ⟨_, h, _⟩ <;> rw [solIsA_unique ht h] <;> simp [typesE]
  | hole =>
    simp only [Shows] at h
    subst h
    obtain ⟨kvs, h⟩ := isObj_of_isA ht
    cases h
  | bin l o r =>
    simp only [Shows] at h
    unfold typesE
    by_cases hl : o.level = 1
    · simp only [hl, if_true] at h ⊢
      rw [solIsA_unique ht h.2.1]; simp
    · simp only [hl, if_false] at h ⊢
      rw [solIsA_unique ht h.2.1]; simp
  | _ =>
    simp only [Shows] at h
    rw [solIsA_unique ht h.1]
    simp [typesE]

/-- The types of the nodes that show a statement. -/
def typesS : Stmt → List String
  | .expr _ => ["ExpressionStatement"]
  | .decl _ _ => ["VariableDeclarationStatement"]
  | .block _ => ["Block"]
  | .unchecked _ => ["UncheckedBlock"]
  | .if_ _ _ => ["IfStatement"]
  | .ifElse _ _ _ => ["IfStatement"]
  | .while_ _ _ => ["WhileStatement"]
  | .doWhile _ _ => ["DoWhileStatement"]
  | .for_ _ _ _ _ => ["ForStatement"]
  | .return_ _ => ["Return"]
  | .emit _ => ["EmitStatement"]
  | .revert _ => ["RevertStatement"]
  | .break_ => ["Break"]
  | .continue_ => ["Continue"]
  | .placeholder => ["PlaceholderStatement"]
  | .try_ _ _ _ _ => ["TryStatement"]
  | .clause _ _ _ => ["TryCatchClause"]
  | .assembly _ _ => ["InlineAssembly"]
  | .comment _ => ["Comment"]

theorem mem_typesS {s : Stmt} {j : Json} {t : String} (h : ShowsStmt s j) (ht : IsA t j) : t ∈ typesS s := by
  cases s with
  | break_ => simp only [ShowsStmt] at h; rw [solIsA_unique ht h]; simp [typesS]
  | continue_ => simp only [ShowsStmt] at h; rw [solIsA_unique ht h]; simp [typesS]
  | placeholder => simp only [ShowsStmt] at h; rw [solIsA_unique ht h]; simp [typesS]
  | _ =>
    simp only [ShowsStmt] at h
    rw [solIsA_unique ht h.1]
    simp [typesS]

/-- The types of the nodes that show a member. -/
def typesM : List String :=
  ["VariableDeclaration", "FunctionDefinition", "ModifierDefinition", "EventDefinition", "ErrorDefinition", "StructDefinition",
   "EnumDefinition", "UsingForDirective", "UserDefinedValueTypeDefinition", "Comment"]

theorem mem_typesM {m : Member} {j : Json} {t : String} (h : ShowsMember m j) (ht : IsA t j) : t ∈ typesM := by
  cases m with
  | state => rw [solIsA_unique ht (ShowsVar.isA h)]; decide
  | fn => rw [solIsA_unique ht (ShowsFn.isA h)]; decide
  | _ => rw [solIsA_unique ht h.1]; decide

theorem try_type {e : Expr} {j : Json} {t : String} (h : ShowsTry e j) (ht : IsA t j) : t = "FunctionCall" := by
  cases e with
  | call => exact solIsA_unique ht h.1
  | named => exact solIsA_unique ht h.1
  | _ => exact h.elim

/-! ### Replacing nodes -/

/-- The types of the mutated expressions. -/
def exprTypes : List String := ["BinaryOperation", "UnaryOperation", "Assignment", "FunctionCall", "Literal", "MemberAccess"]

/-- The mutated node is an expression. -/
theorem carries_ofExpr {c : Change} {n n' : Json} {t : String} (ht : IsA t n) (hw : t ∈ exprTypes) (ho : IsObj n')
    (he : ∀ e, Shows e n → ∃ e', Shows e' n' ∧ c.expr e e') (hy : ∀ e, ShowsTry e n → ∃ e', ShowsTry e' n' ∧ c.expr e e') :
    Carries c n n' := by
  have hS : ∀ s, ¬ ShowsStmt s n := by
    intro s h
    have h := mem_typesS h ht
    cases s <;> simp only [typesS, List.mem_cons, List.not_mem_nil, or_false] at h <;> (subst h; revert hw; decide)
  have hM : ∀ m, ¬ ShowsMember m n := by
    intro m h
    have h := mem_typesM h ht
    revert h
    simp only [exprTypes, List.mem_cons, List.not_mem_nil, or_false] at hw
    rcases hw with rfl | rfl | rfl | rfl | rfl | rfl <;> decide
  refine ⟨ho, ⟨t, ?_, ht⟩, he, hy, fun ss h => (hS _ h).elim, fun s h _ => (hS _ h).elim, fun t ps b => hS _, hM, fun k h => ?_⟩
  · simp only [exprTypes, List.mem_cons, List.not_mem_nil, or_false] at hw
    rcases hw with rfl | rfl | rfl | rfl | rfl | rfl <;> decide
  · exfalso
    rw [solIsA_unique ht h.isA] at hw
    revert hw; decide

/-- The mutated node is a block or a statement with statements below it. -/
theorem carries_ofStmt {c : Change} {n n' : Json} {t : String} (ht : IsA t n)
    (hw : t ∈ ["Block", "UncheckedBlock", "IfStatement", "WhileStatement", "DoWhileStatement", "ForStatement"]) (ho : IsObj n')
    (hb : ∀ ss, ShowsStmt (.block ss) n → ∃ ss', ShowsStmt (.block ss') n' ∧ c.stmt (.block ss) (.block ss'))
    (hs : ∀ s, ShowsStmt s n → (∀ ss, s ≠ .block ss) → ∃ s', ShowsStmt s' n' ∧ c.stmt s s') : Carries c n n' := by
  refine ⟨ho, ⟨t, ?_, ht⟩, fun e h => ?_, fun e h => ?_, hb, hs, fun x ps b h => ?_, fun m h => ?_, fun k h => ?_⟩
  · simp only [List.mem_cons, List.not_mem_nil, or_false] at hw
    rcases hw with rfl | rfl | rfl | rfl | rfl | rfl <;> decide
  · exfalso
    have h := mem_typesE h ht
    revert h
    simp only [List.mem_cons, List.not_mem_nil, or_false] at hw
    rcases hw with rfl | rfl | rfl | rfl | rfl | rfl <;> cases e <;> simp [typesE]
    all_goals split <;> simp
  · exfalso
    rw [try_type h ht] at hw
    revert hw; decide
  · have h := mem_typesS h ht
    simp only [typesS, List.mem_cons, List.not_mem_nil, or_false] at h
    subst h
    revert hw; decide
  · have h := mem_typesM h ht
    revert h
    simp only [List.mem_cons, List.not_mem_nil, or_false] at hw
    rcases hw with rfl | rfl | rfl | rfl | rfl | rfl <;> decide
  · exfalso
    rw [solIsA_unique ht h.isA] at hw
    revert hw; decide

/-! ### Nodes with one changed field -/

variable {k l : String} {j j' : Json}

theorem OnlyField.sym (h : OnlyField k j j') {k' : String} (hk : k' ≠ k) : Json.field? k' j' = Json.field? k' j := by
  rw [field?_eq_field, field?_eq_field]; exact h.2.2 k' hk

theorem OnlyField.str (h : OnlyField k j j') {k' : String} (hp : PlainKey k') (hk : k' ≠ k) :
    getStrForKey k' j' = getStrForKey k' j := by
  unfold getStrForKey
  rw [get?_field hp h.1, get?_field hp h.2.1, h.2.2 k' hk]

theorem OnlyField.boolean (h : OnlyField k j j') {k' : String} (hp : PlainKey k') (hk : k' ≠ k) :
    getBoolForKey k' j' = getBoolForKey k' j := by
  unfold getBoolForKey
  rw [get?_field hp h.1, get?_field hp h.2.1, h.2.2 k' hk]

theorem OnlyField.array (h : OnlyField k j j') {k' : String} (hp : PlainKey k') (hk : k' ≠ k) :
    getArrayForKey k' j' = getArrayForKey k' j := by
  rw [getArray_field hp h.1, getArray_field hp h.2.1, h.2.2 k' hk]

theorem OnlyField.type (h : OnlyField k j j') (hk : "nodeType" ≠ k) {t : String} (ht : IsA t j) : IsA t j' := by
  unfold IsA
  rw [OnlyField.str h (by decide) hk]
  exact ht

/-! ### Lists -/

theorem solAll_split : (xs : List Json) → {ys : List Json} → {es : List Expr} → ShowAll es (xs ++ ys) →
    ∃ a b, es = a ++ b ∧ ShowAll a xs ∧ ShowAll b ys
  | [], ys, es, h => ⟨[], es, rfl, by simp [ShowAll], h⟩
  | _ :: _, _, [], h => by simp [ShowAll] at h
  | x :: xs, ys, e :: es, h => by
    simp only [List.cons_append, ShowAll] at h
    obtain ⟨a, b, rfl, h1, h2⟩ := solAll_split xs h.2
    exact ⟨e :: a, b, rfl, by simp only [ShowAll]; exact ⟨h.1, h1⟩, h2⟩

theorem solAll_join : (xs : List Json) → {ys : List Json} → {a b : List Expr} → ShowAll a xs → ShowAll b ys → ShowAll (a ++ b) (xs ++ ys)
  | [], _, [], _, _, h => h
  | [], _, _ :: _, _, h, _ => by simp [ShowAll] at h
  | _ :: _, _, [], _, h, _ => by simp [ShowAll] at h
  | x :: xs, ys, e :: a, b, h, h2 => by
    simp only [List.cons_append, ShowAll] at h ⊢
    exact ⟨h.1, solAll_join xs h.2 h2⟩

theorem solAll_cons_inv {x : Json} {xs : List Json} {es : List Expr} (h : ShowAll es (x :: xs)) :
    ∃ e es', es = e :: es' ∧ Shows e x ∧ ShowAll es' xs := by
  cases es with
  | nil => simp [ShowAll] at h
  | cons e es' => simp only [ShowAll] at h; exact ⟨e, es', rfl, h.1, h.2⟩

theorem solAll_swap {pre mid post : List Json} {a b : Json} {es : List Expr} (h : ShowAll es (pre ++ a :: (mid ++ b :: post))) :
    ∃ es', ShowAll es' (pre ++ b :: (mid ++ a :: post)) ∧ Swapped (fun _ => True) es es' := by
  obtain ⟨p, r, rfl, h1, h2⟩ := solAll_split pre h
  obtain ⟨e, r, rfl, h3, h4⟩ := solAll_cons_inv h2
  obtain ⟨m, q, rfl, h5, h6⟩ := solAll_split mid h4
  obtain ⟨e2, q, rfl, h7, h8⟩ := solAll_cons_inv h6
  refine ⟨p ++ e2 :: (m ++ e :: q), ?_, p, e, m, e2, q, trivial, trivial, rfl, rfl⟩
  refine solAll_join _ h1 ?_
  simp only [ShowAll]
  refine ⟨h7, solAll_join _ h5 ?_⟩
  simp only [ShowAll]
  exact ⟨h3, h8⟩

theorem solStmts_split : (xs : List Json) → {ys : List Json} → {es : List Stmt} → ShowStmts es (xs ++ ys) →
    ∃ a b, es = a ++ b ∧ ShowStmts a xs ∧ ShowStmts b ys
  | [], ys, es, h => ⟨[], es, rfl, by simp [ShowStmts], h⟩
  | _ :: _, _, [], h => by simp [ShowStmts] at h
  | x :: xs, ys, e :: es, h => by
    simp only [List.cons_append, ShowStmts] at h
    obtain ⟨a, b, rfl, h1, h2⟩ := solStmts_split xs h.2
    exact ⟨e :: a, b, rfl, by simp only [ShowStmts]; exact ⟨h.1, h1⟩, h2⟩

theorem solStmts_join : (xs : List Json) → {ys : List Json} → {a b : List Stmt} → ShowStmts a xs → ShowStmts b ys →
    ShowStmts (a ++ b) (xs ++ ys)
  | [], _, [], _, _, h => h
  | [], _, _ :: _, _, h, _ => by simp [ShowStmts] at h
  | _ :: _, _, [], _, h, _ => by simp [ShowStmts] at h
  | x :: xs, ys, e :: a, b, h, h2 => by
    simp only [List.cons_append, ShowStmts] at h ⊢
    exact ⟨h.1, solStmts_join xs h.2 h2⟩

theorem solStmts_cons_inv {x : Json} {xs : List Json} {es : List Stmt} (h : ShowStmts es (x :: xs)) :
    ∃ e es', es = e :: es' ∧ ShowsStmt e x ∧ ShowStmts es' xs := by
  cases es with
  | nil => simp [ShowStmts] at h
  | cons e es' => simp only [ShowStmts] at h; exact ⟨e, es', rfl, h.1, h.2⟩

theorem solNoReturn {s : Stmt} {x : Json} (h : ShowsStmt s x) (hx : ¬ IsA "Return" x) : NoReturn s := by
  rintro vs rfl
  simp only [ShowsStmt] at h
  exact hx h.1

theorem solStmts_swap {pre mid post : List Json} {a b : Json} (ha : ¬ IsA "Return" a) (hb : ¬ IsA "Return" b) {es : List Stmt}
    (h : ShowStmts es (pre ++ a :: (mid ++ b :: post))) :
    ∃ es', ShowStmts es' (pre ++ b :: (mid ++ a :: post)) ∧ Swapped NoReturn es es' := by
  obtain ⟨p, r, rfl, h1, h2⟩ := solStmts_split pre h
  obtain ⟨e, r, rfl, h3, h4⟩ := solStmts_cons_inv h2
  obtain ⟨m, q, rfl, h5, h6⟩ := solStmts_split mid h4
  obtain ⟨e2, q, rfl, h7, h8⟩ := solStmts_cons_inv h6
  refine ⟨p ++ e2 :: (m ++ e :: q), ?_, p, e, m, e2, q, solNoReturn h3 ha, solNoReturn h7 hb, rfl, rfl⟩
  refine solStmts_join _ h1 ?_
  simp only [ShowStmts]
  refine ⟨h7, solStmts_join _ h5 ?_⟩
  simp only [ShowStmts]
  exact ⟨h3, h8⟩

/-! ### One lemma for each algorithm -/

/-- The operators of a class. -/
theorem sol_class_operator {t : MutationType} (ht : BinaryAlgorithm t) {name : String} (h : name ∈ operatorClass t) :
    ∃ o : Operator, o.text = name ∧ o.level ≠ 1 := by
  have key : ∀ x ∈ operatorClass t, ∃ o ∈ operators, o.text = x ∧ o.level ≠ 1 := by
    rcases ht with rfl | rfl | rfl | rfl | rfl <;> decide
  obtain ⟨o, _, h1, h2⟩ := key name h
  exact ⟨o, h1, h2⟩

theorem operator_injective {o o' : Operator} (h : o.text = o'.text) : o = o' := by
  cases o <;> cases o' <;> first | rfl | (exact absurd h (by decide))

theorem prefix_injective {o o' : Prefix} (h : o.text = o'.text) : o = o' := by
  cases o <;> cases o' <;> first | rfl | (exact absurd h (by decide))

theorem postfix_injective {o o' : Postfix} (h : o.text = o'.text) : o = o' := by
  cases o <;> cases o' <;> first | rfl | (exact absurd h (by decide))

theorem noTry {t : String} {n : Json} (ht : IsA t n) (hne : t ≠ "FunctionCall") {c : Change} {n' : Json} :
    ∀ e, ShowsTry e n → ∃ e', ShowsTry e' n' ∧ c.expr e e' :=
  fun _ h => absurd (try_type h ht) hne

theorem binary_form {e : Expr} {n : Json} (ht : IsA "BinaryOperation" n) (h : Shows e n) :
    ∃ l o r, e = .bin l o r ∧ o.level ≠ 1 := by
  have hm := mem_typesE h ht
  cases e with
  | bin l o r =>
    refine ⟨l, o, r, rfl, fun hl => ?_⟩
    simp [typesE, hl] at hm
  | _ => simp [typesE] at hm

theorem assignment_form {e : Expr} {n : Json} (ht : IsA "Assignment" n) (h : Shows e n) :
    ∃ l o r, e = .bin l o r ∧ o.level = 1 := by
  have hm := mem_typesE h ht
  cases e with
  | bin l o r =>
    refine ⟨l, o, r, rfl, ?_⟩
    by_cases hl : o.level = 1
    · exact hl
    · simp [typesE, hl] at hm
  | _ => simp [typesE] at hm

theorem notBin {e : Expr} {t : String} (h : t ∈ typesE e) (h1 : t ≠ "Assignment") (h2 : t ≠ "BinaryOperation") :
    ∀ l o r, e ≠ .bin l o r := by
  rintro l o r rfl
  simp only [typesE] at h
  split at h <;> simp at h
  · exact h1 h
  · exact h2 h

variable {env : MutEnv} {m : Mutator R} {n n' : Json} {r r' : R} {res : MutatorResult} {c : Option Json} [Rand R]

theorem sol_binary {t : MutationType} (ht : BinaryAlgorithm t) (hm : Solidity.mutatorFor env t = some m) (hmut : m.isMutable n = true)
    (h : m.mutate n r = .ok (n', res, c, r')) : Carries (operatorChange t) n n' := by
  obtain ⟨⟨old, new, h1, h2, h3, h4, h5⟩, hk, ho, _⟩ := C28_solidity ht hm hmut h
  have hu := solKind_isA.1 hk
  refine carries_ofExpr hu (by decide) ho.2.1 (fun e he => ?_) (noTry hu (by decide))
  obtain ⟨l, o, rr, rfl, hl⟩ := binary_form hu he
  simp only [Shows, hl, if_false] at he
  obtain ⟨he1, _, ⟨a, ha, hla⟩, b, hb, hrb⟩ := he
  have hot : o.text = old := by
    rw [getStr_of_text (by decide) h1] at he1
    exact (Option.some.inj he1).symm
  obtain ⟨o2, ho2, hl2⟩ := sol_class_operator ht h4
  refine ⟨.bin l o2 rr, ?_, l, o, o2, rr, rfl, rfl, ?_, by rw [hot]; exact h3, by rw [ho2]; exact h4⟩
  · simp only [Shows, hl2, if_false]
    exact ⟨by rw [ho2]; exact getStr_of_text (by decide) h2, OnlyField.type ho (by decide) hu,
      ⟨a, by rw [OnlyField.sym ho (by decide)]; exact ha, hla⟩, b, by rw [OnlyField.sym ho (by decide)]; exact hb, hrb⟩
  · rintro rfl
    exact h5 (by rw [← hot, ← ho2])

theorem sol_swapOperands (hm : Solidity.mutatorFor env .swapOperatorArguments = some m) (hmut : m.isMutable n = true)
    (h : m.mutate n r = .ok (n', res, c, r')) : Carries (changeOf .swapOperatorArguments) n n' := by
  obtain ⟨hk, ⟨op, hop, h1⟩, ⟨x, y, hx, hy, hx', hy'⟩, ho, _⟩ := C31_solidity hm hmut h
  have hu := solKind_isA.1 hk
  refine carries_ofExpr hu (by decide) ho.2.1 (fun e he => ?_) (noTry hu (by decide))
  obtain ⟨l, o, rr, rfl, hl⟩ := binary_form hu he
  simp only [Shows, hl, if_false] at he
  obtain ⟨he1, _, ⟨a, ha, hla⟩, b, hb, hrb⟩ := he
  rw [field?_eq_field, hx] at ha
  rw [field?_eq_field, hy] at hb
  cases ha
  cases hb
  have hot : o.text = op := by
    rw [getStr_of_text (by decide) h1] at he1
    exact (Option.some.inj he1).symm
  refine ⟨.bin rr o l, ?_, l, o, rr, rfl, rfl, by rw [hot]; exact hop⟩
  simp only [Shows, hl, if_false]
  refine ⟨?_, ?_, ⟨y, by rw [field?_eq_field]; exact hx', hrb⟩, x, by rw [field?_eq_field]; exact hy', hla⟩
  · unfold getStrForKey at he1 ⊢
    rw [get?_field (by decide) ho.1] at he1
    rw [get?_field (by decide) ho.2.1, ho.2.2 "operator" (by decide) (by decide)]
    exact he1
  · exact solKind_isA.1 (show field "nodeType" n' = _ by rw [ho.2.2 "nodeType" (by decide) (by decide)]; exact hk)

theorem sol_unary (hm : Solidity.mutatorFor env .unaryOp = some m) (hmut : m.isMutable n = true)
    (h : m.mutate n r = .ok (n', res, c, r')) : Carries (changeOf .unaryOp) n n' := by
  obtain ⟨⟨pre, old, new, hp, h1, h2, h3, h4, h5⟩, hk, ho, _⟩ := C29_solidity hm hmut h
  have hu := solKind_isA.1 hk
  have hp := (getBool_iff (by decide) ho.1).2 hp
  have hn := getStr_of_text (by decide) h2
  refine carries_ofExpr hu (by decide) ho.2.1 (fun e he => ?_) (noTry hu (by decide))
  have hmem := mem_typesE he hu
  have hnb := notBin hmem (by decide) (by decide)
  cases e with
  | pre u x =>
    simp only [Shows] at he
    rcases he with he | ⟨_, he, _⟩
    rotate_left
    · exact absurd (solIsA_unique hu he) (by decide)
    obtain ⟨_, he1, he2, v, hv, hx⟩ := he
    rw [hp] at he1
    cases he1
    rw [getStr_of_text (by decide) h1] at he2
    have hot : u.text = old := (Option.some.inj he2).symm
    have : ∃ u' : Prefix, u'.text = new := by
      simp only [unaryClass, if_true, List.mem_cons, List.not_mem_nil, or_false] at h4
      rcases h4 with rfl | rfl | rfl
      · exact ⟨.inc, rfl⟩
      · exact ⟨.dec, rfl⟩
      · exact ⟨.bitNot, rfl⟩
    obtain ⟨u', hu'⟩ := this
    refine ⟨.pre u' x, ?_, .inl ⟨u, u', x, rfl, rfl, ?_, by rw [hot]; exact h3, by rw [hu']; exact h4⟩⟩
    · simp only [Shows]
      exact .inl ⟨OnlyField.type ho (by decide) hu, by rw [OnlyField.boolean ho (by decide) (by decide)]; exact hp, by rw [hu']; exact hn, v,
        by rw [OnlyField.sym ho (by decide)]; exact hv, hx⟩
    · rintro rfl
      exact h5 (by rw [← hot, ← hu'])
  | post x u =>
    simp only [Shows] at he
    obtain ⟨_, he1, he2, v, hv, hx⟩ := he
    rw [hp] at he1
    cases he1
    rw [getStr_of_text (by decide) h1] at he2
    have hot : u.text = old := (Option.some.inj he2).symm
    have : ∃ u' : Postfix, u'.text = new := by
      simp only [unaryClass, List.mem_cons, List.not_mem_nil, or_false] at h4
      simp at h4
      rcases h4 with rfl | rfl
      · exact ⟨.inc, rfl⟩
      · exact ⟨.dec, rfl⟩
    obtain ⟨u', hu'⟩ := this
    refine ⟨.post x u', ?_, .inr ⟨u, u', x, rfl, rfl, ?_⟩⟩
    · simp only [Shows]
      exact ⟨OnlyField.type ho (by decide) hu, by rw [OnlyField.boolean ho (by decide) (by decide)]; exact hp, by rw [hu']; exact hn, v,
        by rw [OnlyField.sym ho (by decide)]; exact hv, hx⟩
    · rintro rfl
      exact h5 (by rw [← hot, ← hu'])
  | bin l o rr => exact absurd rfl (hnb l o rr)
  | _ => simp [typesE] at hmem

/-- The mutated node is a call whose arguments change. -/
theorem carries_arguments {rel : List Expr → List Expr → Prop} (hk : IsKind "FunctionCall" n) {args args' : List Json}
    (ha : field "arguments" n = some (.arr args)) (ha' : field "arguments" n' = some (.arr args')) (ho : OnlyField "arguments" n n')
    (hr : ∀ es, ShowAll es args → ∃ es', ShowAll es' args' ∧ rel es es') : Carries (argumentChange rel) n n' := by
  have hu := solKind_isA.1 hk
  have hf : Json.field? "arguments" n = some (.arr args) := by rw [field?_eq_field]; exact ha
  have hf' : Json.field? "arguments" n' = some (.arr args') := by rw [field?_eq_field]; exact ha'
  have hg : n.getArrayForKey "arguments" = some args := by rw [getArray_field (by decide) ho.1, ha]; rfl
  have hg' : n'.getArrayForKey "arguments" = some args' := by rw [getArray_field (by decide) ho.2.1, ha']; rfl
  have hty := OnlyField.type ho (by decide) hu
  have hex : ∀ {v}, Json.field? "expression" n = some v → Json.field? "expression" n' = some v := by
    intro v h; rw [OnlyField.sym ho (by decide)]; exact h
  have hns : ∀ {v}, n.getArrayForKey "names" = some v → n'.getArrayForKey "names" = some v := by
    intro v h; rw [OnlyField.array ho (by decide) (by decide)]; exact h
  have htr : ∀ {v}, n.getBoolForKey "tryCall" = some v → n'.getBoolForKey "tryCall" = some v := by
    intro v h; rw [OnlyField.boolean ho (by decide) (by decide)]; exact h
  refine carries_ofExpr hu (by decide) ho.2.1 (fun e he => ?_) (fun e he => ?_)
  · have hmem := mem_typesE he hu
    have hnb := notBin hmem (by decide) (by decide)
    cases e with
    | call f es =>
      simp only [Shows] at he
      obtain ⟨_, ⟨v, hv, hfv⟩, ⟨vs, hvs, hes⟩, h1, h2⟩ := he
      rw [hf] at hvs
      cases hvs
      obtain ⟨es', h3, h4⟩ := hr es hes
      refine ⟨.call f es', ?_, es, es', h4, .inl ⟨f, rfl, rfl⟩⟩
      simp only [Shows]
      exact ⟨hty, ⟨v, hex hv, hfv⟩, ⟨_, hf', h3⟩, hns h1, htr h2⟩
    | named f ns es =>
      simp only [Shows] at he
      obtain ⟨_, ⟨v, hv, hfv⟩, ⟨vs, hvs, hes⟩, h1, h2⟩ := he
      rw [hg] at hvs
      cases hvs
      obtain ⟨es', h3, h4⟩ := hr es hes
      refine ⟨.named f ns es', ?_, es, es', h4, .inr ⟨f, ns, rfl, rfl⟩⟩
      simp only [Shows]
      exact ⟨hty, ⟨v, hex hv, hfv⟩, ⟨_, hg', h3⟩, hns h1, htr h2⟩
    | bin l o rr => exact absurd rfl (hnb l o rr)
    | _ => simp [typesE] at hmem
  · cases e with
    | call f es =>
      obtain ⟨_, ⟨v, hv, hfv⟩, ⟨vs, hvs, hes⟩, h1, h2⟩ := he
      rw [hf] at hvs
      cases hvs
      obtain ⟨es', h3, h4⟩ := hr es hes
      exact ⟨.call f es', ⟨hty, ⟨v, hex hv, hfv⟩, ⟨_, hf', h3⟩, hns h1, htr h2⟩, es, es', h4, .inl ⟨f, rfl, rfl⟩⟩
    | named f ns es =>
      obtain ⟨_, ⟨v, hv, hfv⟩, ⟨vs, hvs, hes⟩, h1, h2⟩ := he
      rw [hg] at hvs
      cases hvs
      obtain ⟨es', h3, h4⟩ := hr es hes
      exact ⟨.named f ns es', ⟨hty, ⟨v, hex hv, hfv⟩, ⟨_, hg', h3⟩, hns h1, htr h2⟩, es, es', h4, .inr ⟨f, ns, rfl, rfl⟩⟩
    | _ => exact he.elim

theorem sol_swapArguments (hm : Solidity.mutatorFor env .swapFunctionArguments = some m) (hmut : m.isMutable n = true)
    (h : m.mutate n r = .ok (n', res, c, r')) : Carries (changeOf .swapFunctionArguments) n n' := by
  obtain ⟨hk, ⟨args, args', i, k, a, b, s, h1, h2, h3, _⟩, ho, _⟩ := C32_solidity hm hmut h
  obtain ⟨pre, x, mid, y, post, _, _, rfl, rfl⟩ := VyPrint.exchanged_parts h3 (fun _ => True) (fun _ _ => trivial) (fun _ _ => trivial)
  exact carries_arguments hk h1 h2 ho (fun es hes => solAll_swap hes)

theorem shows_negation {x v : Json} (h : IsNegation x v) {e : Expr} (he : Shows e x) : Shows (negation e) v := by
  obtain ⟨h1, h2, h3, t, h4, h5, h6⟩ := h
  simp only [negation, Shows]
  exact .inl ⟨solKind_isA.1 h1, (getBool_iff (by decide) (isKind_isObj h1)).2 h3, getStr_of_text (by decide) h2, t,
    by rw [field?_eq_field]; exact h4, solKind_isA.1 h5, x, by rw [field?_eq_field]; exact h6, he⟩

theorem sol_require (hm : Solidity.mutatorFor env .require = some m) (hmut : m.isMutable n = true)
    (h : m.mutate n r = .ok (n', res, c, r')) : Carries (changeOf .require) n n' := by
  obtain ⟨hk, _, ⟨x, y, rest, h1, h2, h3⟩, ho, _⟩ := C39_solidity hm hmut h
  refine carries_arguments hk h1 h2 ho (fun es hes => ?_)
  obtain ⟨e, es', rfl, h4, h5⟩ := solAll_cons_inv hes
  refine ⟨negation e :: es', ?_, e, es', rfl, rfl⟩
  simp only [ShowAll]
  exact ⟨shows_negation h3 h4, h5⟩

theorem sol_functionCall (hm : Solidity.mutatorFor env .functionCall = some m) (hmut : m.isMutable n = true)
    (h : m.mutate n r = .ok (n', res, c, r')) (hw : n.getBoolForKey "tryCall" ≠ some true ∧ ∃ u, IsA u n') :
    Carries (changeOf .functionCall) n n' := by
  obtain ⟨hk, _, args, h1, h2⟩ := C38_solidity hm hmut h
  have hu := solKind_isA.1 hk
  have hf : Json.field? "arguments" n = some (.arr args) := by rw [field?_eq_field]; exact h1
  have hg : n.getArrayForKey "arguments" = some args := by rw [getArray_field (by decide) (isKind_isObj hk), h1]; rfl
  obtain ⟨u, hu'⟩ := hw.2
  have hex : ∀ es, ShowAll es args → ∃ e ∈ es, Shows e n' := by
    intro es hes
    obtain ⟨pre, post, rfl⟩ := List.append_of_mem h2
    obtain ⟨p, q, rfl, _, h5⟩ := solAll_split pre hes
    obtain ⟨x, q, rfl, h6, _⟩ := solAll_cons_inv h5
    exact ⟨x, by simp, h6⟩
  refine carries_ofExpr hu (by decide) (isKind_isObj (solKind_isA.2 hu')) (fun e he => ?_) (fun e he => ?_)
  · have hmem := mem_typesE he hu
    have hnb := notBin hmem (by decide) (by decide)
    cases e with
    | call f es =>
      simp only [Shows] at he
      obtain ⟨_, _, ⟨vs, hvs, hes⟩, _⟩ := he
      rw [hf] at hvs
      cases hvs
      obtain ⟨x, hx, hs⟩ := hex es hes
      exact ⟨x, hs, es, hx, .inl ⟨f, rfl⟩⟩
    | named f ns es =>
      simp only [Shows] at he
      obtain ⟨_, _, ⟨vs, hvs, hes⟩, _⟩ := he
      rw [hg] at hvs
      cases hvs
      obtain ⟨x, hx, hs⟩ := hex es hes
      exact ⟨x, hs, es, hx, .inr ⟨f, ns, rfl⟩⟩
    | bin l o rr => exact absurd rfl (hnb l o rr)
    | _ => simp [typesE] at hmem
  · exfalso
    cases e with
    | call => exact hw.1 he.2.2.2.2
    | named => exact hw.1 he.2.2.2.2
    | _ => exact he.elim

theorem sol_delegateCall (hm : Solidity.mutatorFor env .elimDelegateCall = some m) (hmut : m.isMutable n = true)
    (h : m.mutate n r = .ok (n', res, c, r')) : Carries (changeOf .elimDelegateCall) n n' := by
  obtain ⟨h1, h2⟩ := C41_solidity hm n r
  obtain ⟨hk, h3⟩ := h1.1 hmut
  obtain ⟨j', res', c', h4, h5, ho, _⟩ := h2 hmut
  rw [h] at h4
  cases h4
  have hu := solKind_isA.1 hk
  refine carries_ofExpr hu (by decide) ho.2.1 (fun e he => ?_) (noTry hu (by decide))
  have hmem := mem_typesE he hu
  have hnb := notBin hmem (by decide) (by decide)
  cases e with
  | member x id =>
    simp only [Shows] at he
    obtain ⟨_, hid, v, hv, hx⟩ := he
    rw [getStr_of_text (by decide) h3] at hid
    cases hid
    refine ⟨.member x "call", ?_, x, rfl, rfl⟩
    simp only [Shows]
    exact ⟨OnlyField.type ho (by decide) hu, getStr_of_text (by decide) h5, v, by rw [OnlyField.sym ho (by decide)]; exact hv, hx⟩
  | bin l o rr => exact absurd rfl (hnb l o rr)
  | _ => simp [typesE] at hmem

theorem toString_neg {k : Int} (h : k < 0) : toString k = "-" ++ toString k.natAbs := by
  cases k with
  | ofNat n => exact absurd h (by simp)
  | negSucc n => rfl

theorem toString_nonneg {k : Int} (h : ¬ k < 0) : toString k = toString k.natAbs := by
  cases k with
  | ofNat n => rfl
  | negSucc n => exact absurd (Int.negSucc_lt_zero n) h

/-- A literal with a value that may have a sign. -/
theorem shows_numeral {k : Int} {v : Json} (h1 : IsA "Literal" v) (h2 : getStrForKey "value" v = some (toString k))
    (h3 : getStrForKey "subdenomination" v = none) (h4 : getStrForKey "kind" v = some "number") : Shows (numeral k) v := by
  unfold numeral
  split
  · rename_i h
    simp only [Shows]
    exact .inr ⟨trivial, h1, h4, _, by rw [h2, toString_neg h], .inl ⟨rfl, h3⟩⟩
  · rename_i h
    simp only [Shows]
    exact .inr (.inl ⟨h1, by rw [h2, toString_nonneg h], h3, .inl h4⟩)

theorem shows_numeralWith {k : Int} {u : String} {v : Json} (h1 : IsA "Literal" v) (h2 : getStrForKey "value" v = some (toString k))
    (h3 : getStrForKey "subdenomination" v = some u) (h4 : getStrForKey "kind" v = some "number") : Shows (numeralWith k u) v := by
  unfold numeralWith
  split
  · rename_i h
    simp only [Shows]
    exact .inr ⟨trivial, h1, h4, _, by rw [h2, toString_neg h], .inr ⟨u, rfl, h3⟩⟩
  · rename_i h
    simp only [Shows]
    exact ⟨h1, by rw [h2, toString_nonneg h], h3, h4⟩

theorem sol_integer (hm : Solidity.mutatorFor env .integer = some m) (hmut : m.isMutable n = true)
    (h : m.mutate n r = .ok (n', res, c, r')) : Carries (changeOf .integer) n n' := by
  obtain ⟨hk, h1, ⟨old, new, h2, h3, h4, h5⟩, ho, _⟩ := C36_solidity_partial hm hmut h
  have hu := solKind_isA.1 hk
  have hnum : ∃ k : Int, new = toString k := by
    by_cases hr : (nextU64 r).1 % 3 = 2
    · exact ⟨((nextU64 (nextU64 r).2).1 : Nat), by rw [h5 hr]; rfl⟩
    · obtain ⟨_, k, _, _, hk, _⟩ := h4 hr
      exact ⟨k, hk⟩
  obtain ⟨k, hnum⟩ := hnum
  have hval := getStr_of_text (by decide) h3
  rw [hnum] at hval
  have hkind := getStr_of_text (by decide) h1
  have hty := OnlyField.type ho (by decide) hu
  have hs : ∀ {k'}, PlainKey k' → k' ≠ "value" → getStrForKey k' n' = getStrForKey k' n := fun a b => OnlyField.str ho a b
  refine carries_ofExpr hu (by decide) ho.2.1 (fun e he => ?_) (noTry hu (by decide))
  have hmem := mem_typesE he hu
  have hnb := notBin hmem (by decide) (by decide)
  cases e with
  | leaf t =>
    simp only [Shows] at he
    rcases he with ⟨he, _⟩ | ⟨_, h6, h7, h8⟩ | ⟨he, _⟩
    · exact absurd (solIsA_unique hu he) (by decide)
    · exact ⟨numeral k, shows_numeral hty hval (by rw [hs (by decide) (by decide)]; exact h7)
        (by rw [hs (by decide) (by decide)]; exact hkind), t, k, .inl ⟨.inl rfl, rfl⟩⟩
    · exact absurd (solIsA_unique hu he) (by decide)
  | unit t u =>
    simp only [Shows] at he
    obtain ⟨_, h6, h7, h8⟩ := he
    exact ⟨numeralWith k u, shows_numeralWith hty hval (by rw [hs (by decide) (by decide)]; exact h7)
      (by rw [hs (by decide) (by decide)]; exact hkind), t, k, .inr ⟨u, .inl rfl, rfl⟩⟩
  | pre u x =>
    simp only [Shows] at he
    rcases he with ⟨he, _⟩ | ⟨rfl, _, _, t, h6, ⟨rfl, h7⟩ | ⟨u, rfl, h7⟩⟩
    · exact absurd (solIsA_unique hu he) (by decide)
    · exact ⟨numeral k, shows_numeral hty hval (by rw [hs (by decide) (by decide)]; exact h7)
        (by rw [hs (by decide) (by decide)]; exact hkind), t, k, .inl ⟨.inr rfl, rfl⟩⟩
    · exact ⟨numeralWith k u, shows_numeralWith hty hval (by rw [hs (by decide) (by decide)]; exact h7)
        (by rw [hs (by decide) (by decide)]; exact hkind), t, k, .inr ⟨u, .inr rfl, rfl⟩⟩
  | str t =>
    simp only [Shows] at he
    rw [hkind] at he
    exact absurd he.2.2.2 (by decide)
  | bin l o rr => exact absurd rfl (hnb l o rr)
  | _ => simp [typesE] at hmem

theorem noUnit {v : Json} (ho : IsObj v) (h : field "subdenomination" v = none) : getStrForKey "subdenomination" v = none := by
  unfold getStrForKey
  rw [get?_field (by decide) ho, h]
  rfl

theorem shows_number {i : Int} {v : Json} (h : IsNumberLiteral i v) : Shows (numeral i) v :=
  shows_numeral (solKind_isA.1 h.1) (getStr_of_text (by decide) h.2.2.1) (noUnit (isKind_isObj h.1) h.2.2.2)
    (getStr_of_text (by decide) h.2.1)

theorem shows_bool {b : Bool} {v : Json} (h : IsBoolLiteral b v) : Shows (.leaf (toString b)) v := by
  simp only [Shows]
  exact .inr (.inl ⟨solKind_isA.1 h.1, getStr_of_text (by decide) h.2.2.1, noUnit (isKind_isObj h.1) h.2.2.2,
    .inr (getStr_of_text (by decide) h.2.1)⟩)

/-- What is assigned. -/
theorem sol_assigned (hm : Solidity.mutatorFor env .assignment = some m) (hmut : m.isMutable n = true)
    (h : m.mutate n r = .ok (n', res, c, r')) : ∃ v new, field "rightHandSide" n' = some new ∧ Shows v new ∧
      ((∃ k, v = numeral k) ∨ v = .leaf "true" ∨ v = .leaf "false") := by
  cases hm
  have hmut' := hmut
  simp only [Solidity.assignmentMutable, Bool.and_eq_true] at hmut
  have hk := solidity_hasType.1 hmut.1
  have hj := isKind_isObj hk
  have hval : ∀ s (new : Option Json) parts (r1 : R), (∃ p, takeBytes 3 s = some p ∧ (p == "uin" || p == "int" || p == "boo") = true) →
      Solidity.assignmentValue s r = .ok (new, parts, r1) →
      ∃ v x, new = some x ∧ Shows v x ∧ ((∃ k, v = numeral k) ∨ v = .leaf "true" ∨ v = .leaf "false") := by
    intro s new parts r1 ⟨p, hp, hp2⟩ hv
    have fin : ∀ i : Int, ∃ v x, some (Solidity.integerConstantNode i) = some x ∧ Shows v x ∧
        ((∃ k, v = numeral k) ∨ v = .leaf "true" ∨ v = .leaf "false") := fun i =>
      ⟨_, _, rfl, shows_number (isNumberLiteral_mk i), .inl ⟨i, rfl⟩⟩
    have finb : ∀ b : Bool, ∃ v x, some (Solidity.booleanLiteralNode b) = some x ∧ Shows v x ∧
        ((∃ k, v = numeral k) ∨ v = .leaf "true" ∨ v = .leaf "false") := fun b =>
      ⟨_, _, rfl, shows_bool (isBoolLiteral_mk b), by cases b with | true => exact .inr (.inl rfl) | false => exact .inr (.inr rfl)⟩
    simp only [Solidity.assignmentValue, hp] at hv
    by_cases h1 : p = "int"
    · rw [if_pos h1] at hv
      repeat' split at hv
      all_goals first | (cases hv; done) | (cases hv; exact fin _)
    · rw [if_neg h1] at hv
      by_cases h2 : p = "uin"
      · rw [if_pos h2] at hv
        cases hd : (dropBytes 4 s).bind parseU32 with
        | none => rw [hd] at hv; cases hv
        | some n0 =>
          rw [hd] at hv
          simp only at hv
          generalize genRange 0 _ r = o at hv
          cases o <;> first | (cases hv; done) | (cases hv; exact fin _)
      · rw [if_neg h2] at hv
        by_cases h3 : p = "boo"
        · rw [if_pos h3] at hv
          repeat' split at hv
          all_goals first | (cases hv; done) | (cases hv; exact finb _)
        · simp [h1, h2, h3] at hp2
  have hty : ∀ td s, Json.field? "typeDescriptions" n = some td → td.getStrForKey "typeString" = some s →
      ∃ p, takeBytes 3 s = some p ∧ (p == "uin" || p == "int" || p == "boo") = true := by
    intro td s h1 h2
    have h3 := hmut.2
    simp only [Solidity.typeString, h1, Option.bind_some, h2] at h3
    cases hp : takeBytes 3 s with
    | none => simp [hp] at h3
    | some p => rw [hp] at h3; exact ⟨p, rfl, h3⟩
  simp only [Solidity.assignmentMutate] at h
  split at h
  · cases h
  · rename_i td htd
    split at h
    · cases h
    · rename_i s hs
      split at h
      · cases h
      · split at h
        · rename_i new parts r1 hv
          obtain ⟨v, x, rfl, h1, h2⟩ := hval s new parts r1 (hty td s htd hs) hv
          simp only at h
          split at h
          · cases h
          · simp only [Outcome.ok.injEq, Prod.mk.injEq] at h
            obtain ⟨rfl, _⟩ := h
            refine ⟨v, x, ?_, h1, h2⟩
            rw [field_setNodeForKey (by decide) _ _ hj, if_pos rfl]
        all_goals cases h

theorem sol_assignment (hm : Solidity.mutatorFor env .assignment = some m) (hmut : m.isMutable n = true)
    (h : m.mutate n r = .ok (n', res, c, r')) : Carries (changeOf .assignment) n n' := by
  obtain ⟨hk, ho, _⟩ := C37_solidity hm hmut h
  obtain ⟨v, new, h1, h2, h3⟩ := sol_assigned hm hmut h
  have hu := solKind_isA.1 hk
  refine carries_ofExpr hu (by decide) ho.2.1 (fun e he => ?_) (noTry hu (by decide))
  obtain ⟨l, o, rr, rfl, hl⟩ := assignment_form hu he
  simp only [Shows, hl, if_true] at he
  obtain ⟨he1, _, ⟨a, ha, hla⟩, _⟩ := he
  refine ⟨.bin l o v, ?_, l, o, rr, v, rfl, hl, rfl, h3⟩
  rw [Shows]
  simp only [hl, if_true]
  exact ⟨by rw [OnlyField.str ho (by decide) (by decide)]; exact he1, OnlyField.type ho (by decide) hu,
    ⟨a, by rw [OnlyField.sym ho (by decide)]; exact ha, hla⟩, new, by rw [field?_eq_field]; exact h1, h2⟩

theorem sol_if (hm : Solidity.mutatorFor env .ifStatement = some m) (hmut : m.isMutable n = true)
    (h : m.mutate n r = .ok (n', res, c, r')) : Carries (changeOf .ifStatement) n n' := by
  obtain ⟨hk, ⟨old, new, h1, h2, h3⟩, ho, _⟩ := C35_solidity hm hmut h
  have hu := solKind_isA.1 hk
  have hty := OnlyField.type ho (by decide) hu
  have hc : ∀ e, Shows e old → ∃ e', Shows e' new ∧ (e' = .leaf "true" ∨ e' = .leaf "false" ∨ e' = negation e) := by
    intro e he
    rcases h3 with h3 | h3 | h3
    · exact ⟨_, shows_bool h3, .inl rfl⟩
    · exact ⟨_, shows_bool h3, .inr (.inl rfl)⟩
    · exact ⟨_, shows_negation h3 he, .inr (.inr rfl)⟩
  refine carries_ofStmt hu (by decide) ho.2.1 (fun ss hs => ?_) (fun s hs _ => ?_)
  · exact absurd (mem_typesS hs hu) (by simp [typesS])
  · have hmem := mem_typesS hs hu
    cases s with
    | if_ e t =>
      simp only [ShowsStmt] at hs
      obtain ⟨_, ⟨v, hv, he⟩, ⟨w, hw, ht⟩, hno⟩ := hs
      rw [field?_eq_field, h1] at hv
      cases hv
      obtain ⟨e', h4, h5⟩ := hc e he
      refine ⟨.if_ e' t, ?_, e, e', h5, .inl ⟨t, rfl, rfl⟩⟩
      simp only [ShowsStmt]
      exact ⟨hty, ⟨new, by rw [field?_eq_field]; exact h2, h4⟩, ⟨w, by rw [OnlyField.sym ho (by decide)]; exact hw, ht⟩,
        by rw [OnlyField.sym ho (by decide)]; exact hno⟩
    | ifElse e t f =>
      simp only [ShowsStmt] at hs
      obtain ⟨_, ⟨v, hv, he⟩, ⟨w, hw, ht⟩, x, hx, hf⟩ := hs
      rw [field?_eq_field, h1] at hv
      cases hv
      obtain ⟨e', h4, h5⟩ := hc e he
      refine ⟨.ifElse e' t f, ?_, e, e', h5, .inr ⟨t, f, rfl, rfl⟩⟩
      simp only [ShowsStmt]
      exact ⟨hty, ⟨new, by rw [field?_eq_field]; exact h2, h4⟩, ⟨w, by rw [OnlyField.sym ho (by decide)]; exact hw, ht⟩,
        x, by rw [OnlyField.sym ho (by decide)]; exact hx, hf⟩
    | _ => simp [typesS] at hmem

/-- The mutated node is a block whose statements change. -/
theorem carries_block {ch : Change} (hk : IsKind "Block" n) {ss ss' : List Json} (h1 : field "statements" n = some (.arr ss))
    (h2 : field "statements" n' = some (.arr ss')) (ho : OnlyField "statements" n n')
    (hr : ∀ b, ShowStmts b ss → ∃ b', ShowStmts b' ss' ∧ ch.stmt (.block b) (.block b')) : Carries ch n n' := by
  have hu := solKind_isA.1 hk
  refine carries_ofStmt hu (by decide) ho.2.1 (fun b hs => ?_) (fun s hs hb => ?_)
  · simp only [ShowsStmt] at hs
    obtain ⟨_, js, hjs, hb⟩ := hs
    rw [field?_eq_field, h1] at hjs
    cases hjs
    obtain ⟨b', h3, h4⟩ := hr b hb
    refine ⟨b', ?_, h4⟩
    simp only [ShowsStmt]
    exact ⟨OnlyField.type ho (by decide) hu, ss', by rw [field?_eq_field]; exact h2, h3⟩
  · exfalso
    have hmem := mem_typesS hs hu
    cases s with
    | block ss => exact hb ss rfl
    | _ => simp [typesS] at hmem

theorem sol_swapLines (hm : Solidity.mutatorFor env .swapLines = some m) (hmut : m.isMutable n = true)
    (h : m.mutate n r = .ok (n', res, c, r')) : Carries (changeOf .swapLines) n n' := by
  obtain ⟨hk, ⟨ss, ss', i, k, a, b, h1, h2, h3, ha, hb, hna, hnb⟩, ho, _⟩ := C33_solidity hm hmut h
  obtain ⟨pre, x, mid, y, post, hx, hy, rfl, rfl⟩ := VyPrint.exchanged_parts h3 (fun x => ¬ IsA "Return" x)
    (fun x hx h => by rw [ha] at hx; cases hx; exact hna (solKind_isA.2 h))
    (fun x hx h => by rw [hb] at hx; cases hx; exact hnb (solKind_isA.2 h))
  refine carries_block hk h1 h2 ho (fun b hb => ?_)
  obtain ⟨b', h4, h5⟩ := solStmts_swap hx hy hb
  exact ⟨b', h4, b, b', rfl, rfl, h5⟩

theorem replacedAt_parts {i : Nat} {w v : Json} {xs ys : List Json} (h : ReplacedAt i w xs ys) (hv : xs[i]? = some v) :
    ∃ pre post, xs = pre ++ v :: post ∧ ys = pre ++ w :: post := by
  obtain ⟨h1, h2, h3, h4⟩ := h
  obtain ⟨pre, post, hx, hl, hset⟩ := VyPrint.getElem?_split hv
  refine ⟨pre, post, hx, ?_⟩
  rw [← hset w]
  apply List.ext_getElem?
  intro q
  by_cases hq : q = i
  · subst hq
    rw [h3, List.getElem?_set_self h1]
  · rw [List.getElem?_set_ne (Ne.symm hq), h4 q hq]

theorem sol_unchecked (hm : Solidity.mutatorFor env .uncheckedBlock = some m) (hmut : m.isMutable n = true)
    (h : m.mutate n r = .ok (n', res, c, r')) : Carries (changeOf .uncheckedBlock) n n' := by
  obtain ⟨hk, ⟨ss, ss', i, v, w, h1, h2, h3, hv, hr, hnu, hw, hws⟩, ho⟩ := C40_solidity hm hmut h
  obtain ⟨pre, post, rfl, rfl⟩ := replacedAt_parts h3 hv
  refine carries_block hk h1 h2 ho (fun b hb => ?_)
  obtain ⟨p, q, rfl, h4, h5⟩ := solStmts_split pre hb
  obtain ⟨s, q, rfl, h6, h7⟩ := solStmts_cons_inv h5
  refine ⟨p ++ .unchecked [s] :: q, solStmts_join _ h4 ?_, p, s, q, rfl, rfl, solNoReturn h6 (fun h => hr (solKind_isA.2 h)), ?_⟩
  · simp only [ShowStmts, ShowsStmt]
    refine ⟨⟨solKind_isA.1 hw, [v], by rw [field?_eq_field]; exact hws, ?_⟩, h7⟩
    simp only [ShowStmts]
    exact ⟨h6, trivial⟩
  · rintro xs rfl
    simp only [ShowsStmt] at h6
    exact hnu (solKind_isA.2 h6.1)

/-- Every mutation that can be written in the grammar. -/
theorem sol_mutates {t : MutationType} (hm : Solidity.mutatorFor env t = some m) (hmut : m.isMutable n = true)
    (h : m.mutate n r = .ok (n', res, c, r')) (hw : Writable t n n') : Carries (changeOf t) n n' := by
  cases t with
  | arithmeticBinaryOp => exact sol_binary (by simp [BinaryAlgorithm]) hm hmut h
  | logicalBinaryOp => exact sol_binary (by simp [BinaryAlgorithm]) hm hmut h
  | bitwiseBinaryOp => exact sol_binary (by simp [BinaryAlgorithm]) hm hmut h
  | bitshiftBinaryOp => exact sol_binary (by simp [BinaryAlgorithm]) hm hmut h
  | comparisonBinaryOp => exact sol_binary (by simp [BinaryAlgorithm]) hm hmut h
  | deleteStatement => exact absurd rfl hw.1
  | assignment => exact sol_assignment hm hmut h
  | functionCall => exact sol_functionCall hm hmut h (hw.2 rfl)
  | swapFunctionArguments => exact sol_swapArguments hm hmut h
  | ifStatement => exact sol_if hm hmut h
  | integer => exact sol_integer hm hmut h
  | swapOperatorArguments => exact sol_swapOperands hm hmut h
  | swapLines => exact sol_swapLines hm hmut h
  | unaryOp => exact sol_unary hm hmut h
  | require => exact sol_require hm hmut h
  | uncheckedBlock => exact sol_unchecked hm hmut h
  | elimDelegateCall => exact sol_delegateCall hm hmut h

/-- The comments about mutations are texts. -/
theorem sol_comment_text {t : MutationType} {c : Json} (hm : Solidity.mutatorFor env t = some m)
    (h : m.mutate n r = .ok (n', res, some c, r')) : ∃ text, c = Solidity.commentNode text := by
  cases t with
  | arithmeticBinaryOp | logicalBinaryOp | bitwiseBinaryOp | bitshiftBinaryOp | comparisonBinaryOp =>
    cases hm
    simp only [Solidity.binaryOpMutate] at h
    repeat' split at h
    all_goals first | (cases h; done) | (cases h; exact ⟨_, rfl⟩)
  | elimDelegateCall => cases hm; cases h; exact ⟨_, rfl⟩
  | _ =>
    cases hm
    simp only [Solidity.assignmentMutate, Solidity.deleteStatementMutate, Solidity.functionCallMutate, Solidity.swapArgumentsMutate,
      Solidity.ifMutate, Solidity.integerMutate, Solidity.swapOperandsMutate, Solidity.swapLinesMutate, Solidity.unaryOpMutate,
      Solidity.requireMutate, Solidity.uncheckedBlockMutate] at h
    repeat' split at h
    all_goals first | (cases h; done) | (cases h; exact ⟨_, rfl⟩)

/-! ### Comments -/

theorem sol_commentNode (text : String) : IsA "Comment" (Solidity.commentNode text) ∧
    (Solidity.commentNode text).getStrForKey "text" = some text ∧ Json.field? "value" (Solidity.commentNode text) = none := by
  unfold Solidity.commentNode
  have hobj : IsObj (.ofFields [("id", Solidity.jint 9999997), ("isConstant", .bool false), ("isLValue", .bool false),
     ("isPure", .bool false), ("lValueRequested", .bool false), ("nodeType", .str "Comment"), ("text", .null)]) := trivial
  refine ⟨solKind_isA.1 ?_, getStr_of_text (by decide) ?_, ?_⟩
  · unfold IsKind TextField
    rw [field_setNodeForKey (by decide) _ _ hobj, if_neg (by decide)]
    rfl
  · unfold TextField
    rw [field_setNodeForKey (by decide) _ _ hobj, if_pos rfl]
  · rw [field?_eq_field, field_setNodeForKey (by decide) _ _ hobj, if_neg (by decide)]
    rfl

theorem shows_comment (text : String) : ShowsStmt (.comment text) (Solidity.commentNode text) := by
  simp only [ShowsStmt]
  exact sol_commentNode text

theorem shows_commentMember (text : String) : ShowsMember (.comment text) (Solidity.commentNode text) := sol_commentNode text

/-- Another value for a field. -/
theorem sol_setChild {kvs : List (String × Json)} {i : Nat} {k : String} {v : Json} (hk : (kvs.map Prod.fst)[i]? = some k)
    (hfirst : ∀ i' < i, (kvs.map Prod.fst)[i']? ≠ some k) (hv : nodeAt [i] (.obj kvs) = some v) (w : Json) :
    field k (.obj kvs) = some v ∧ field k (replaceAt [i] w (.obj kvs)) = some w ∧
      OnlyField k (.obj kvs) (replaceAt [i] w (.obj kvs)) := by
  have hx : kvs[i]? = some (k, v) := by
    simp only [nodeAt, children] at hv
    rw [List.getElem?_map] at hk hv
    cases hx : kvs[i]? with
    | none => rw [hx] at hk; cases hk
    | some x =>
      rw [hx] at hk hv
      simp only [Option.map_some, Option.some.injEq] at hk hv
      rw [← hk, ← hv]
  have hc : (kvs.map Prod.snd)[i]? = some v := by simp [hx]
  have hrep : replaceAt [i] w (.obj kvs) = .obj (setField i w kvs) := by
    simp only [replaceAt, children, hc, setChildren, setField]
  obtain ⟨h1, h2⟩ := objGet_setField hx w
  rw [hrep, ← field?_eq_field, ← field?_eq_field]
  rcases h2 with ⟨h3, h4, _⟩ | ⟨_, h4⟩
  · refine ⟨h3, h4, trivial, trivial, fun k' hk' => ?_⟩
    rw [← field?_eq_field, ← field?_eq_field]
    exact h1 k' hk'
  · refine absurd ?_ h4
    obtain ⟨hlt, hget⟩ := List.getElem?_eq_some_iff.1 hk
    refine List.findIdx?_eq_some_iff_getElem.2 ⟨hlt, by simp [hget], fun i' hi' => ?_⟩
    have := hfirst i' hi'
    rw [List.getElem?_eq_getElem (by omega)] at this
    simpa using this

/-- The mutated node is a contract. -/
theorem carries_ofContract {c : Change} {n n' : Json} (ht : IsA "ContractDefinition" n) (ho : IsObj n')
    (hk : ∀ k, ShowsContract k n → ∃ k', ShowsContract k' n' ∧ c.contract k k') : Carries c n n' := by
  have hS : ∀ s, ¬ ShowsStmt s n := by
    intro s h
    have h := mem_typesS h ht
    cases s <;> simp [typesS] at h
  refine ⟨ho, ⟨_, by decide, ht⟩, fun e h => ?_, fun e h => ?_, fun ss h => (hS _ h).elim, fun s h _ => (hS _ h).elim,
    fun t ps b => hS _, fun m h => ?_, hk⟩
  · exfalso
    have h := mem_typesE h ht
    have hnb := notBin h (by decide) (by decide)
    cases e with
    | bin l o rr => exact absurd rfl (hnb l o rr)
    | _ => simp [typesE] at h
  · exact absurd (try_type h ht) (by decide)
  · have h := mem_typesM h ht
    revert h; decide

theorem pair_insert {α : Type} {P : α → Json → Prop} {x : α} {y : Json} (hxy : P x y) : {as : List α} → {pre post : List Json} →
    Pairwise₂ P as (pre ++ post) → ∃ a b, as = a ++ b ∧ Pairwise₂ P (a ++ x :: b) (pre ++ y :: post)
  | as, [], post, h => ⟨[], as, rfl, hxy, h⟩
  | [], _ :: _, _, h => h.elim
  | a :: as, p :: pre, post, h => by
    obtain ⟨h1, h2⟩ := h
    obtain ⟨u, v, rfl, h3⟩ := pair_insert hxy h2
    exact ⟨a :: u, v, rfl, h1, h3⟩

theorem solStmts_insert {x : Stmt} {y : Json} (hxy : ShowsStmt x y) {as : List Stmt} {pre post : List Json}
    (h : ShowStmts as (pre ++ post)) : ∃ a b, as = a ++ b ∧ ShowStmts (a ++ x :: b) (pre ++ y :: post) := by
  obtain ⟨a, b, rfl, h1, h2⟩ := solStmts_split pre h
  refine ⟨a, b, rfl, solStmts_join _ h1 ?_⟩
  simp only [ShowStmts]
  exact ⟨hxy, h2⟩

/-- A comment in a list of statements or members. -/
theorem carries_inserted {text : String} {n n' : Json} {t k : String} (ht : IsA t n) (htk : (t, k) ∈ statementLists .solidity)
    {pre post : List Json} (h1 : field k n = some (.arr (pre ++ post)))
    (h2 : field k n' = some (.arr (pre ++ Solidity.commentNode text :: post))) (ho : OnlyField k n n') :
    Carries (commentIn text) n n' := by
  simp only [statementLists, List.mem_cons, Prod.mk.injEq, List.not_mem_nil, or_false] at htk
  rcases htk with ⟨rfl, rfl⟩ | ⟨rfl, rfl⟩ | ⟨rfl, rfl⟩
  · refine carries_block (solKind_isA.2 ht) h1 h2 ho (fun b hb => ?_)
    obtain ⟨a, b, rfl, h3⟩ := solStmts_insert (shows_comment text) hb
    exact ⟨_, h3, .inl ⟨a, b, rfl, rfl⟩⟩
  · refine carries_ofStmt ht (by decide) ho.2.1 (fun ss hs => ?_) (fun s hs _ => ?_)
    · exact absurd (mem_typesS hs ht) (by simp [typesS])
    · have hmem := mem_typesS hs ht
      cases s with
      | unchecked ss =>
        simp only [ShowsStmt] at hs
        obtain ⟨_, js, hjs, hb⟩ := hs
        rw [field?_eq_field, h1] at hjs
        cases hjs
        obtain ⟨a, b, rfl, h3⟩ := solStmts_insert (shows_comment text) hb
        refine ⟨.unchecked (a ++ .comment text :: b), ?_, .inr (.inl ⟨a, b, rfl, rfl⟩)⟩
        simp only [ShowsStmt]
        exact ⟨OnlyField.type ho (by decide) ht, _, by rw [field?_eq_field]; exact h2, h3⟩
      | _ => simp [typesS] at hmem
  · refine carries_ofContract ht ho.2.1 (fun c hc => ?_)
    obtain ⟨js, hjs, hb⟩ := hc.members
    rw [getArray_field (by decide) ho.1, h1] at hjs
    cases hjs
    obtain ⟨a, b, hab, h3⟩ := pair_insert (shows_commentMember text) hb
    refine ⟨{ c with members := a ++ .comment text :: b }, ⟨OnlyField.type ho (by decide) ht, ?_, ?_, ?_, ?_, ?_, ?_⟩, a, b, hab, rfl⟩
    · have hd := hc.documentation
      unfold ShowsDoc at hd ⊢
      have e : Json.field? "documentation" n' = Json.field? "documentation" n := OnlyField.sym ho (by decide)
      cases hcd : c.doc <;> simp only [hcd, e] at hd ⊢ <;> exact hd
    · rw [OnlyField.boolean ho (by decide) (by decide)]; exact hc.abstract_
    · rw [OnlyField.str ho (by decide) (by decide)]; exact hc.kind
    · rw [OnlyField.str ho (by decide) (by decide)]; exact hc.name
    · rw [OnlyField.sym ho (by decide)]; exact hc.bases
    · exact ⟨_, by rw [getArray_field (by decide) ho.2.1, h2]; rfl, h3⟩

/-- A comment and a statement in a block. -/
def withComment (c s : Json) : Json :=
  .obj [("id", .num (.int 9999994)), ("nodeType", .str "Block"), ("statements", .arr [c, s])]

theorem shows_withComment {text : String} {s : Stmt} {j : Json} (h : ShowsStmt s j) :
    ShowsStmt (.block [.comment text, s]) (withComment (Solidity.commentNode text) j) := by
  simp only [ShowsStmt, withComment]
  refine ⟨rfl, _, rfl, ?_⟩
  simp only [ShowStmts]
  exact ⟨shows_comment text, h, trivial⟩

/-- The node stands for nothing that could be changed. -/
theorem carries_nothing {c : Change} {n n' : Json} {t : String} (ht : IsA t n)
    (hw : t ∈ ["FunctionDefinition", "ModifierDefinition", "TryCatchClause"]) (ho : IsObj n') (hM : ∀ m, ¬ ShowsMember m n)
    (hC : ∀ t ps b, ¬ ShowsStmt (.clause t ps b) n) : Carries c n n' := by
  have hS : ∀ s, ¬ ShowsStmt s n := by
    intro s h
    have hm := mem_typesS h ht
    simp only [List.mem_cons, List.not_mem_nil, or_false] at hw
    cases s with
    | clause t ps b => exact hC _ _ _ h
    | _ =>
      simp only [typesS, List.mem_cons, List.not_mem_nil, or_false] at hm
      subst hm
      simp at hw
  refine ⟨ho, ⟨t, ?_, ht⟩, fun e h => ?_, fun e h => ?_, fun ss h => (hS _ h).elim, fun s h _ => (hS _ h).elim,
    hC, hM, fun k h => ?_⟩
  · simp only [List.mem_cons, List.not_mem_nil, or_false] at hw
    rcases hw with rfl | rfl | rfl <;> decide
  · exfalso
    have h := mem_typesE h ht
    simp only [List.mem_cons, List.not_mem_nil, or_false] at hw
    have hnb := notBin h (by rcases hw with rfl | rfl | rfl <;> decide) (by rcases hw with rfl | rfl | rfl <;> decide)
    cases e with
    | bin l o rr => exact absurd rfl (hnb l o rr)
    | _ => rcases hw with rfl | rfl | rfl <;> simp [typesE] at h
  · exfalso
    rw [try_type h ht] at hw
    revert hw; decide
  · exfalso
    rw [solIsA_unique ht h.isA] at hw
    revert hw; decide

/-- A comment before the one statement below another. -/
theorem carries_wrapped {text : String} {n n' s : Json} {t k u : String} (ht : IsA t n) (htk : (t, k) ∈ statementFields)
    (h1 : field k n = some s) (h2 : field k n' = some (withComment (Solidity.commentNode text) s)) (ho : OnlyField k n n')
    (hs : IsA u s) (hu : u ≠ "Block") : Carries (commentIn text) n n' := by
  have h1' : Json.field? k n = some s := by rw [field?_eq_field]; exact h1
  have h2' : Json.field? k n' = some (withComment (Solidity.commentNode text) s) := by rw [field?_eq_field]; exact h2
  have hnb : ¬ IsA "Block" s := fun h => hu (solIsA_unique hs h)
  have sym : ∀ {k'}, k' ≠ k → Json.field? k' n' = Json.field? k' n := fun h => OnlyField.sym ho h
  simp only [statementFields, List.mem_cons, Prod.mk.injEq, List.not_mem_nil, or_false] at htk
  rcases htk with ⟨rfl, rfl⟩ | ⟨rfl, rfl⟩ | ⟨rfl, rfl⟩ | ⟨rfl, rfl⟩ | ⟨rfl, rfl⟩ | ⟨rfl, rfl⟩ | ⟨rfl, rfl⟩ | ⟨rfl, rfl⟩
  · refine carries_ofStmt ht (by decide) ho.2.1 (fun ss hs => absurd (mem_typesS hs ht) (by simp [typesS])) (fun st hst _ => ?_)
    have hmem := mem_typesS hst ht
    cases st with
    | doWhile b c =>
      simp only [ShowsStmt] at hst
      obtain ⟨_, hc, v, hv, hb⟩ := hst
      rw [h1'] at hv
      cases hv
      refine ⟨.doWhile (.block [.comment text, b]) c, ?_, by simp [commentIn]⟩
      rw [ShowsStmt]
      exact ⟨OnlyField.type ho (by decide) ht, by rw [sym (by decide)]; exact hc, _, h2', shows_withComment hb⟩
    | _ => simp [typesS] at hmem
  · refine carries_ofStmt ht (by decide) ho.2.1 (fun ss hs => absurd (mem_typesS hs ht) (by simp [typesS])) (fun st hst _ => ?_)
    have hmem := mem_typesS hst ht
    cases st with
    | for_ i c x b =>
      simp only [ShowsStmt] at hst
      obtain ⟨_, hi, hc, hx, v, hv, hb⟩ := hst
      rw [h1'] at hv
      cases hv
      refine ⟨.for_ i c x (.block [.comment text, b]), ?_, by simp [commentIn]⟩
      rw [ShowsStmt.eq_def]
      simp only
      refine ⟨OnlyField.type ho (by decide) ht, by rw [sym (by decide)]; exact hi, by rw [sym (by decide)]; exact hc, ?_, _, h2',
        shows_withComment hb⟩
      cases x with
      | none => simp only at hx ⊢; rw [sym (by decide)]; exact hx
      | some e => simp only at hx ⊢; rw [sym (by decide)]; exact hx
    | _ => simp [typesS] at hmem
  · refine carries_nothing ht (by decide) ho.2.1 (fun m hm => ?_) (fun t ps b hs => absurd (mem_typesS hs ht) (by simp [typesS]))
    have hmem := mem_typesM hm ht
    cases m with
    | fn f d =>
      have hb := hm.body
      cases hfb : f.body with
      | none => rw [hfb] at hb; exact absurd (hb ▸ h1') (by simp)
      | some ss =>
        rw [hfb] at hb
        obtain ⟨v, hv, hB, _⟩ := hb
        rw [h1'] at hv
        cases hv
        exact hnb hB
    | modifier => exact absurd (solIsA_unique ht hm.1) (by decide)
    | state => exact absurd (solIsA_unique ht hm.isA) (by decide)
    | _ => exact absurd (solIsA_unique ht hm.1) (by decide)
  · refine carries_ofStmt ht (by decide) ho.2.1 (fun ss hs => absurd (mem_typesS hs ht) (by simp [typesS])) (fun st hst _ => ?_)
    have hmem := mem_typesS hst ht
    cases st with
    | if_ c b =>
      simp only [ShowsStmt] at hst
      obtain ⟨_, hc, ⟨v, hv, hb⟩, hf⟩ := hst
      rw [h1'] at hv
      cases hv
      refine ⟨.if_ c (.block [.comment text, b]), ?_, by simp [commentIn]⟩
      rw [ShowsStmt]
      exact ⟨OnlyField.type ho (by decide) ht, by rw [sym (by decide)]; exact hc, ⟨_, h2', shows_withComment hb⟩,
        by rw [sym (by decide)]; exact hf⟩
    | ifElse c b f =>
      simp only [ShowsStmt] at hst
      obtain ⟨_, hc, ⟨v, hv, hb⟩, hf⟩ := hst
      rw [h1'] at hv
      cases hv
      refine ⟨.ifElse c (.block [.comment text, b]) f, ?_, by simp [commentIn]⟩
      rw [ShowsStmt]
      exact ⟨OnlyField.type ho (by decide) ht, by rw [sym (by decide)]; exact hc, ⟨_, h2', shows_withComment hb⟩,
        by rw [sym (by decide)]; exact hf⟩
    | _ => simp [typesS] at hmem
  · refine carries_ofStmt ht (by decide) ho.2.1 (fun ss hs => absurd (mem_typesS hs ht) (by simp [typesS])) (fun st hst _ => ?_)
    have hmem := mem_typesS hst ht
    cases st with
    | if_ c b =>
      simp only [ShowsStmt] at hst
      exact absurd (hst.2.2.2 ▸ h1') (by simp)
    | ifElse c b f =>
      simp only [ShowsStmt] at hst
      obtain ⟨_, hc, hb, v, hv, hf⟩ := hst
      rw [h1'] at hv
      cases hv
      refine ⟨.ifElse c b (.block [.comment text, f]), ?_, by simp [commentIn]⟩
      rw [ShowsStmt]
      exact ⟨OnlyField.type ho (by decide) ht, by rw [sym (by decide)]; exact hc, by rw [sym (by decide)]; exact hb,
        _, h2', shows_withComment hf⟩
    | _ => simp [typesS] at hmem
  · refine carries_nothing ht (by decide) ho.2.1 (fun m hm => ?_) (fun t ps b hs => absurd (mem_typesS hs ht) (by simp [typesS]))
    cases m with
    | modifier n ps v b doc =>
      obtain ⟨_, _, _, _, _, _, hb⟩ := hm
      cases b with
      | none => exact absurd (hb ▸ h1') (by simp)
      | some ss =>
        obtain ⟨v, hv, hB, _⟩ := hb
        rw [h1'] at hv
        cases hv
        exact hnb hB
    | fn => exact absurd (solIsA_unique ht hm.isA) (by decide)
    | state => exact absurd (solIsA_unique ht hm.isA) (by decide)
    | _ => exact absurd (solIsA_unique ht hm.1) (by decide)
  · refine carries_nothing ht (by decide) ho.2.1 (fun m hm => ?_) (fun t ps b hs => ?_)
    · have hmem := mem_typesM hm ht
      revert hmem; decide
    · simp only [ShowsStmt] at hs
      obtain ⟨_, _, _, v, hv, hB, _⟩ := hs
      rw [h1'] at hv
      cases hv
      exact hnb hB
  · refine carries_ofStmt ht (by decide) ho.2.1 (fun ss hs => absurd (mem_typesS hs ht) (by simp [typesS])) (fun st hst _ => ?_)
    have hmem := mem_typesS hst ht
    cases st with
    | while_ c b =>
      simp only [ShowsStmt] at hst
      obtain ⟨_, hc, v, hv, hb⟩ := hst
      rw [h1'] at hv
      cases hv
      refine ⟨.while_ c (.block [.comment text, b]), ?_, by simp [commentIn]⟩
      rw [ShowsStmt]
      exact ⟨OnlyField.type ho (by decide) ht, by rw [sym (by decide)]; exact hc, _, h2', shows_withComment hb⟩
    | _ => simp [typesS] at hmem

/-- A comment in a tree is one in the program, or nothing. -/
theorem comment_edit {text : String} {id : Nat} {j j' : Json}
    (h : CommentAdded .solidity id (Solidity.commentNode text) j j') :
    ∃ n n' vis, Edit n n' vis j j' ∧ Carries (commentIn text) n n' := by
  have list : ∀ (p : Pos) (i : Nat) (b : Json) (pre post : List Json), nodeAt p j = some b → HoldsStatements .solidity b i →
      nodeAt (p ++ [i]) j = some (.arr (pre ++ post)) →
      ∃ n n' vis, Edit n n' vis j (replaceAt (p ++ [i]) (.arr (pre ++ Solidity.commentNode text :: post)) j) ∧
        Carries (commentIn text) n n' := by
    intro p i b pre post h1 h2 h3
    obtain ⟨kvs, t, k, rfl, ht, htk, hk, hfirst⟩ := h2
    rw [nodeAt_append, h1] at h3
    obtain ⟨g1, g2, g3⟩ := sol_setChild hk hfirst h3 (.arr (pre ++ Solidity.commentNode text :: post))
    exact ⟨_, _, _, ⟨p, h1, (replaceAt_append h1).symm, rfl⟩, carries_inserted ht htk g1 g2 g3⟩
  cases h with
  | inList p i b pre post s h1 h2 h3 _ _ => exact list p i b pre (s :: post) h1 h2 h3
  | atTop p i b xs _ h1 _ h2 h3 => exact list p i b [] xs h1 h2 h3
  | inBlock p i n s t _ h1 h2 h3 h4 h5 _ =>
    obtain ⟨kvs, u, k, rfl, ht, htk, hk, hfirst⟩ := h2
    rw [nodeAt_append, h1] at h3
    obtain ⟨g1, g2, g3⟩ := sol_setChild hk hfirst h3 (withComment (Solidity.commentNode text) s)
    exact ⟨_, _, _, ⟨p, h1, (replaceAt_append h1).symm, rfl⟩, carries_wrapped ht htk g1 g2 g3 h4 h5⟩

end SolPrint
end Mutagenyx
