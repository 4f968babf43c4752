import Verif.Model.CountCrash
import Verif.Props.Considered

/-!
# Asking whether a node can be mutated does not crash (C70)
-/

namespace Mutagenyx
open Json

variable {R : Type}

namespace CountCrash

variable (crash : MutationType → Json → Bool) (cx : LangCtx) (ps : Permissions) (ms : List (Mutator R))

/-- Some of the tests crashes at the node. -/
def bad (j : Json) : Bool := ms.any fun m => crash m.implements j

theorem countNodeCrash_eq (j : Json) (t : CountTable) :
    countNodeCrash crash ms j t = if bad crash ms j then none else some (countNode ms j t) := by
  have none_fold : ∀ ms : List (Mutator R), ms.foldl (fun acc m => acc.bind fun t =>
      if crash m.implements j then none else some (if m.isMutable j then CountTable.bump m.implements t else t))
        (none : Option CountTable) = none := by
    intro ms
    induction ms with
    | nil => rfl
    | cons m ms ih => exact ih
  unfold countNodeCrash bad countNode
  induction ms generalizing t with
  | nil => rfl
  | cons m ms ih =>
    simp only [List.foldl_cons, Option.bind_some, List.any_cons]
    by_cases hc : crash m.implements j = true
    · simp only [hc, if_true, Bool.true_or]
      exact none_fold ms
    · simp only [hc]
      exact ih _

/-- The traversal with crashes, `t`, against the one without, `p`, and the nodes asked about that are bad. -/
def Agrees (c : List Pos × Bool) (t : Bool × CounterState × Bool) (p : Bool × CounterState) : Prop :=
  (c.1 = [] → t = (false, (p.2, false)) ∧ p.1 = false ∧ p.2.skip = c.2) ∧
    (c.1 ≠ [] → t.1 = true ∧ t.2.2 = true)

/-- What the counter does below a list of siblings, from what it does below each. -/
theorem list_aux (i : Nat) (xs : List Json) (s : CounterState)
    (ih : ∀ c ∈ xs, ∀ s : CounterState, Agrees (cand cx ps (bad crash ms) c s.skip)
      (traverse (counterVisitorCrash crash cx ps ms) c (s, false)) (traverse (counterVisitor cx ps ms) c s)) :
    Agrees (candList cx ps (bad crash ms) i xs s.skip)
      (traverseList (counterVisitorCrash crash cx ps ms) xs (s, false))
      (traverseList (counterVisitor cx ps ms) xs s) := by
  induction xs generalizing i s with
  | nil => exact ⟨fun _ => ⟨rfl, rfl, rfl⟩, fun h => absurd rfl h⟩
  | cons x xs ihx =>
    have hx := ih x (by simp) s
    simp only [candList, traverseList]
    by_cases h1 : (cand cx ps (bad crash ms) x s.skip).1 = []
    · obtain ⟨e1, e2, e3⟩ := hx.1 h1
      have hr := ihx (i + 1) (traverse (counterVisitor cx ps ms) x s).2 (fun c hc => ih c (by simp [hc]))
      rw [e1, e2]
      simp only [Bool.false_eq_true, if_false]
      rw [e3] at hr
      unfold Agrees at hr ⊢
      simpa only [h1, List.map_nil, List.nil_append] using hr
    · refine ⟨fun h => absurd h (by simp [h1]), fun _ => ?_⟩
      rw [(hx.2 h1).1]
      exact ⟨rfl, (hx.2 h1).2⟩

theorem crash_visit (j : Json) (s : CounterState × Bool) :
    (counterVisitorCrash crash cx ps ms).visit j s =
      if s.1.skip || permittedToMutate cx ps j then
        if bad crash ms j then (true, (s.1, true)) else (false, ({ s.1 with table := countNode ms j s.1.table }, s.2))
      else (false, s) := by
  simp only [counterVisitorCrash, countNodeCrash_eq]
  split
  · cases bad crash ms j <;> rfl
  · rfl

/-- From the children to the node, when the flag is taken back. -/
theorem Agrees.reset {c : List Pos × Bool} {t : Bool × CounterState × Bool} {p : Bool × CounterState}
    (h : Agrees c t p) :
    Agrees ([] ++ c.1, false) (t.1, ({ table := t.2.1.table, skip := false }, t.2.2))
      (p.1, { table := p.2.table, skip := false }) := by
  refine ⟨fun h0 => ?_, fun h0 => h.2 h0⟩
  obtain ⟨e1, e2, e3⟩ := h.1 h0
  rw [e1]
  exact ⟨rfl, e2, rfl⟩

/-- What the counter does below a node: it crashes when one of the nodes it asks about is bad, and else does
what the counter without crashes does. -/
theorem node_aux (j : Json) : ∀ s : CounterState, Agrees (cand cx ps (bad crash ms) j s.skip)
    (traverse (counterVisitorCrash crash cx ps ms) j (s, false)) (traverse (counterVisitor cx ps ms) j s) := by
  induction j using induct with
  | h j ih =>
    intro s
    rw [cand_eq, traverse_eq, traverse_eq]
    by_cases hv : permittedToVisit cx ps j = true
    · have e1 : ∀ s, (counterVisitorCrash crash cx ps ms).havePermission j s = true := fun _ => hv
      have e2 : ∀ s, (counterVisitor cx ps ms).havePermission j s = true := fun _ => hv
      have d1 : ∀ s, (counterVisitorCrash crash cx ps ms).onEnter j s = s := fun _ => rfl
      have d2 : ∀ s, (counterVisitor cx ps ms).onEnter j s = s := fun _ => rfl
      have d3 : ∀ s, (counterVisitorCrash crash cx ps ms).onExit j s = s := fun _ => rfl
      have d4 : ∀ s, (counterVisitor cx ps ms).onExit j s = s := fun _ => rfl
      have d5 : ∀ s, (counterVisitorCrash crash cx ps ms).visitChildren j s = true := fun _ => rfl
      have d6 : ∀ s, (counterVisitor cx ps ms).visitChildren j s = true := fun _ => rfl
      have d7 : ∀ s, (counterVisitor cx ps ms).visit j s =
          (false, if s.skip || permittedToMutate cx ps j then { s with table := countNode ms j s.table } else s) := by
        intro s
        simp only [counterVisitor]
        split <;> rfl
      have d8 : ∀ s, (counterVisitorCrash crash cx ps ms).onStart j s =
        if permittedToMutateChildren cx ps j then ({ s.1 with skip := true }, s.2) else s := fun _ => rfl
      have d9 : ∀ s, (counterVisitor cx ps ms).onStart j s =
        if permittedToMutateChildren cx ps j then { s with skip := true } else s := fun _ => rfl
      have d10 : ∀ s, (counterVisitorCrash crash cx ps ms).onEnd j s =
        if permittedToMutateChildren cx ps j then ({ s.1 with skip := false }, s.2) else s := fun _ => rfl
      have d11 : ∀ s, (counterVisitor cx ps ms).onEnd j s =
        if permittedToMutateChildren cx ps j then { s with skip := false } else s := fun _ => rfl
      have hl := fun s => list_aux crash cx ps ms 0 j.children s ih
      simp only [hv, if_true, e1, e2, d1, d2, d3, d4, d5, d6, d7, d8, d9, d10, d11, crash_visit,
        Bool.false_eq_true, if_false]
      cases hb : bad crash ms j <;> cases hm : (s.skip || permittedToMutate cx ps j) <;>
        cases hc : permittedToMutateChildren cx ps j <;>
        simp only [Bool.false_eq_true, if_true, if_false, Bool.and_true, Bool.and_false]
      case true.true.true | true.true.false =>
        exact ⟨fun h => by simp at h, fun _ => ⟨rfl, rfl⟩⟩
      all_goals
        first
        | exact (hl { table := s.table, skip := true }).reset
        | exact (hl { table := countNode ms j s.table, skip := true }).reset
        | exact hl s
        | exact hl { table := countNode ms j s.table, skip := s.skip }
    · have e1 : ∀ s, (counterVisitorCrash crash cx ps ms).havePermission j s = false := fun _ =>
        Bool.eq_false_iff.2 hv
      have e2 : ∀ s, (counterVisitor cx ps ms).havePermission j s = false := fun _ =>
        Bool.eq_false_iff.2 hv
      simp only [hv, e1, e2, Bool.false_eq_true, if_false]
      exact ⟨fun _ => ⟨rfl, rfl, rfl⟩, fun h => absurd rfl h⟩

end CountCrash

open CountCrash

/-- Counting crashes exactly when one of the nodes it asks about is bad for one of the algorithms; otherwise
it reports what the counter of the model without crashes reports. -/
theorem countMutableNodesCrash_eq (crash : MutationType → Json → Bool) (cx : LangCtx) (ps : Permissions)
    (ms : List (Mutator R)) (ast : Json) :
    countMutableNodesCrash crash cx ps ms ast =
      if (cand cx ps (bad crash ms) ast false).1 = [] then .ok (countMutableNodes cx ps ms ast) else .panic := by
  have h := node_aux crash cx ps ms ast {}
  unfold countMutableNodesCrash countMutableNodes
  by_cases hc : (cand cx ps (bad crash ms) ast false).1 = []
  · rw [if_pos hc, (h.1 hc).1]
    rfl
  · rw [if_neg hc]
    simp only [(h.2 hc).2, if_true]

/-- The operators of Vyper ASTs that the tool knows. -/
def vyperKnown : List String :=
  ["Add", "Sub", "Mult", "Div", "Mod", "Pow", "And", "Or", "BitAnd", "BitOr", "BitXor", "Eq", "NotEq", "Gt",
    "GtE", "Lt", "LtE", "Not", "Invert", "In", "NotIn"]

/-- A Vyper expression with an operator that the tool does not know, for instance a shift. -/
def UnknownOperation (j : Json) : Prop :=
  (IsVyperKind "BinOp" j ∨ IsVyperKind "BoolOp" j ∨ IsVyperKind "Compare" j) ∧
    ∃ o op, j.field "op" = some o ∧ IsVyperKind op o ∧ op ∉ vyperKnown

/-- A node of a Solidity AST with a type text of three bytes or more in which a character goes over the end
of the third byte. -/
def BrokenTypeText (j : Json) : Prop :=
  IsKind "Assignment" j ∧ ∃ s, HasTypeText s j ∧ 3 ≤ (s.toList.map Char.utf8Size).sum ∧
    ∀ a b : List Char, s.toList = a ++ b → (a.map Char.utf8Size).sum ≠ 3

namespace CountCrash

theorem symbolOf_none {o : String} : Vyper.symbolOf o = none ↔ o ∉ vyperKnown := by
  have h : vyperKnown = Vyper.operatorMap.map Prod.fst := by decide
  rw [h]
  unfold Vyper.symbolOf
  generalize Vyper.operatorMap = l
  induction l with
  | nil => simp
  | cons p l ih =>
    obtain ⟨k, v⟩ := p
    rw [List.lookup_cons]
    by_cases hk : o = k
    · subst hk; simp
    · rw [show (o == k) = false from by simpa using hk]
      simp only [ih, List.map_cons, List.mem_cons, not_or]
      exact ⟨fun h => ⟨hk, h⟩, fun h => h.2⟩

theorem vyper_crash_iff {t : MutationType} {j : Json} :
    Vyper.testCrashes t j = true ↔ t = .swapOperatorArguments ∧ UnknownOperation j := by
  unfold Vyper.testCrashes
  rw [Bool.and_eq_true, decide_eq_true_eq, decide_eq_true_eq]
  refine and_congr_right fun _ => ?_
  unfold Vyper.swapOperandsTest UnknownOperation
  have hb : Vyper.isBinary j = true ↔
      (IsVyperKind "BinOp" j ∨ IsVyperKind "BoolOp" j ∨ IsVyperKind "Compare" j) := by
    unfold Vyper.isBinary
    rw [Bool.or_eq_true, Bool.or_eq_true, vyper_hasType, vyper_hasType, vyper_hasType, or_assoc]
  rw [field?_eq_field]
  by_cases h : Vyper.isBinary j = true
  · rw [if_pos h]
    constructor
    · intro h0
      refine ⟨hb.1 h, ?_⟩
      cases hf : field "op" j with
      | none => simp [hf] at h0
      | some o =>
        cases ho : getStrForKey "ast_type" o with
        | none => simp [hf, ho] at h0
        | some op =>
          refine ⟨o, op, rfl, getStr_text (by decide) (by decide) ho, symbolOf_none.1 ?_⟩
          cases hs : Vyper.symbolOf op with
          | none => rfl
          | some s => simp [hf, ho, hs] at h0
    · rintro ⟨_, o, op, hf, ho, hn⟩
      have ho' : getStrForKey "ast_type" o = some op := getStr_of_text (by decide) ho
      simp [hf, ho', symbolOf_none.2 hn]
  · rw [if_neg h]
    refine ⟨fun h0 => by simp at h0, fun h0 => absurd (hb.2 h0.1) h⟩

/-- Cutting at a byte fails exactly when no beginning of the text has that many bytes. -/
theorem splitAtByte_none (cs : List Char) (n : Nat) : splitAtByte cs n = none ↔
    ∀ a b : List Char, cs = a ++ b → (a.map Char.utf8Size).sum ≠ n := by
  have hpos : ∀ x : Char, 0 < x.utf8Size := Char.utf8Size_pos
  induction cs generalizing n with
  | nil =>
    cases n with
    | zero =>
      simp only [splitAtByte]
      refine ⟨fun h => by simp at h, fun h => absurd rfl (h [] [] rfl)⟩
    | succ n =>
      simp only [splitAtByte, true_iff]
      intro a b h
      have : a = [] := by cases a <;> simp_all
      simp [this]
  | cons x xs ih =>
    cases n with
    | zero =>
      simp only [splitAtByte]
      refine ⟨fun h => by simp at h, fun h => absurd rfl (h [] _ rfl)⟩
    | succ n =>
      simp only [splitAtByte]
      have hx := hpos x
      split
      · rename_i hle
        have hi := ih (n + 1 - x.utf8Size)
        constructor
        · intro h a b hab
          have hn : splitAtByte xs (n + 1 - x.utf8Size) = none := by
            cases hs : splitAtByte xs (n + 1 - x.utf8Size) with
            | none => rfl
            | some p => simp [hs] at h
          cases a with
          | nil => simp
          | cons y a =>
            simp only [List.cons_append, List.cons.injEq] at hab
            obtain ⟨rfl, hab⟩ := hab
            have := hi.1 hn a b hab
            simp only [List.map_cons, List.sum_cons]
            omega
        · intro h
          have hn := hi.2 fun a b hab => by
            have := h (x :: a) b (by rw [hab]; rfl)
            simp only [List.map_cons, List.sum_cons] at this
            omega
          rw [hn]
      · rename_i hle
        simp only [true_iff]
        intro a b hab
        cases a with
        | nil => simp
        | cons y a =>
          simp only [List.cons_append, List.cons.injEq] at hab
          obtain ⟨rfl, _⟩ := hab
          simp only [List.map_cons, List.sum_cons]
          omega

theorem solidity_crash_iff {t : MutationType} {j : Json} :
    Solidity.testCrashes t j = true ↔ t = .assignment ∧ BrokenTypeText j := by
  unfold Solidity.testCrashes BrokenTypeText
  rw [Bool.and_eq_true, Bool.and_eq_true, decide_eq_true_eq, solidity_hasType, and_assoc]
  refine and_congr_right fun _ => and_congr_right fun _ => ?_
  have hex : (∃ s, HasTypeText s j ∧ 3 ≤ (s.toList.map Char.utf8Size).sum ∧
      ∀ a b : List Char, s.toList = a ++ b → (a.map Char.utf8Size).sum ≠ 3) ↔
      ∃ s, Solidity.typeString j = some s ∧ 3 ≤ (s.toList.map Char.utf8Size).sum ∧
      ∀ a b : List Char, s.toList = a ++ b → (a.map Char.utf8Size).sum ≠ 3 :=
    exists_congr fun s => and_congr_left fun _ => argumentType_iff.symm
  rw [hex]
  cases Solidity.typeString j with
  | none => simp
  | some s =>
    simp only [Option.some.injEq, exists_eq_left']
    rw [Bool.and_eq_true, decide_eq_true_eq, ← splitAtByte_none]
    unfold byteLen takeBytes
    rw [Option.isNone_map, Option.isNone_iff_eq_none]

/-- All nodes are asked when there is no function list. -/
theorem cand_nil_iff (cx : LangCtx) (mut? : Json → Bool) (ast : Json) :
    (cand cx (functionPermissions []) mut? ast false).1 = [] ↔ ∀ n ∈ preorder ast, mut? n = false := by
  rw [cand_all_aux cx mut? ast false]
  have hp := positions_map_nodeAt ast
  unfold positionsWhere
  rw [List.filter_eq_nil_iff]
  constructor
  · intro h n hn
    have : some n ∈ (positions ast).map (fun p => nodeAt p ast) := by
      rw [hp]; exact List.mem_map_of_mem hn
    obtain ⟨p, hp1, hp2⟩ := List.mem_map.1 this
    have := h p hp1
    simpa [hp2] using this
  · intro h p hpp
    have : nodeAt p ast ∈ (preorder ast).map some := by
      rw [← hp]; exact List.mem_map_of_mem hpp
    obtain ⟨n, hn, hn'⟩ := List.mem_map.1 this
    rw [← hn']
    simp [h n hn]

end CountCrash

/-- C70 for Vyper, without a function list: asking the nodes crashes exactly when the exchange of operands
is among the algorithms and somewhere in the file there is an expression with an operator that the tool does
not know.  In every other case it reports the table that the theorems about counting are about.
Missing: operators the tool does not know. -/
theorem C70_vyper_partial (ms : List (Mutator R)) (ast : Json) :
    countMutableNodesCrash Vyper.testCrashes vyperCtx (functionPermissions []) ms ast =
        .ok (countMutableNodes vyperCtx (functionPermissions []) ms ast) ∧
      ¬ ((∃ m ∈ ms, m.implements = .swapOperatorArguments) ∧ ∃ n ∈ preorder ast, UnknownOperation n) ∨
    countMutableNodesCrash Vyper.testCrashes vyperCtx (functionPermissions []) ms ast = .panic ∧
      (∃ m ∈ ms, m.implements = .swapOperatorArguments) ∧ ∃ n ∈ preorder ast, UnknownOperation n := by
  rw [countMutableNodesCrash_eq]
  have hbad : ∀ n, bad Vyper.testCrashes ms n = true ↔
      (∃ m ∈ ms, m.implements = .swapOperatorArguments) ∧ UnknownOperation n := by
    intro n
    unfold bad
    rw [List.any_eq_true]
    constructor
    · rintro ⟨m, hm, h⟩
      obtain ⟨h1, h2⟩ := vyper_crash_iff.1 h
      exact ⟨⟨m, hm, h1⟩, h2⟩
    · rintro ⟨⟨m, hm, h1⟩, h2⟩
      exact ⟨m, hm, vyper_crash_iff.2 ⟨h1, h2⟩⟩
  by_cases hc : (cand vyperCtx (functionPermissions []) (bad Vyper.testCrashes ms) ast false).1 = []
  · rw [if_pos hc]
    refine Or.inl ⟨rfl, ?_⟩
    rintro ⟨h1, n, hn, h2⟩
    have := (cand_nil_iff _ _ _).1 hc n hn
    rw [(hbad n).2 ⟨h1, h2⟩] at this
    cases this
  · rw [if_neg hc]
    refine Or.inr ⟨rfl, ?_⟩
    rw [cand_nil_iff] at hc
    simp only [Classical.not_forall, Bool.not_eq_false] at hc
    obtain ⟨n, hn, h⟩ := hc
    exact ⟨((hbad n).1 h).1, n, hn, ((hbad n).1 h).2⟩

/-- C70 for Solidity, for every set of permissions: when no type text in the file is cut inside a character
(the names of Solidity are ASCII), asking the nodes does not crash and reports the table that the theorems
about counting are about. -/
theorem C70_solidity (ps : Permissions) (ms : List (Mutator R)) (ast : Json)
    (hast : ∀ n ∈ preorder ast, ∀ s, HasTypeText s n → ∀ c ∈ s.toList, c.utf8Size = 1) :
    countMutableNodesCrash Solidity.testCrashes solidityCtx ps ms ast =
      .ok (countMutableNodes solidityCtx ps ms ast) := by
  rw [countMutableNodesCrash_eq, if_pos]
  refine List.eq_nil_iff_forall_not_mem.2 fun p hp => ?_
  obtain ⟨n, hn, hb⟩ := cand_mutable _ _ _ hp
  have hmem : n ∈ preorder ast := by
    have h1 : p ∈ positions ast := (cand_sublist _ _ _ _ _).subset hp
    have : nodeAt p ast ∈ (preorder ast).map some := by
      rw [← positions_map_nodeAt ast]; exact List.mem_map_of_mem h1
    obtain ⟨n', hn', he⟩ := List.mem_map.1 this
    rw [hn] at he
    cases he
    exact hn'
  unfold bad at hb
  obtain ⟨m, _, h⟩ := List.any_eq_true.1 hb
  obtain ⟨_, _, s, hs, hlen, hcut⟩ := solidity_crash_iff.1 h
  have hone := hast n hmem s hs
  have hsum : ∀ cs : List Char, (∀ c ∈ cs, c.utf8Size = 1) → (cs.map Char.utf8Size).sum = cs.length := by
    intro cs h
    induction cs with
    | nil => rfl
    | cons c cs ih =>
      simp only [List.map_cons, List.sum_cons, List.length_cons, h c (by simp), ih fun c hc => h c (by simp [hc])]
      omega
  rw [hsum _ hone] at hlen
  refine hcut (s.toList.take 3) (s.toList.drop 3) (List.take_append_drop 3 _).symm ?_
  rw [hsum _ fun c hc => hone c (List.mem_of_mem_take hc), List.length_take]
  omega

namespace DemoNodes

/-- A Vyper function with `return 1 << x`. -/
def shift : Json :=
  Vy.func [.obj [("ast_type", .str "Return"), ("node_id", Vy.id' 12),
    ("value", Vy.binary "BinOp" "LShift" (Vy.int 1 1) (Vy.name 2 "x"))]] .null

/-- C70 fails: counting the mutable nodes of a Vyper function that returns `1 << x` crashes when the exchange
of operands is among the algorithms. -/
theorem C70_vyper_counterexample :
    ((Vyper.mutatorFor (R := ListRand) env .swapOperatorArguments).map fun m =>
      panics (countMutableNodesCrash Vyper.testCrashes vyperCtx (functionPermissions []) [m] shift)) = some true := by
  decide +kernel

/-- Without the shift, or without that algorithm, it does not. -/
example :
    ((Vyper.mutatorFor (R := ListRand) env .swapOperatorArguments).map fun m =>
      countMutableNodesCrash Vyper.testCrashes vyperCtx (functionPermissions []) [m]
        (Vy.func [Vy.assign (Vy.name 1 "x") (Vy.binary "BinOp" "Sub" (Vy.int 2 1) (Vy.name 3 "x"))] .null)) =
      some (.ok [(.swapOperatorArguments, 1)]) ∧
    ((Vyper.mutatorFor (R := ListRand) env .integer).map fun m =>
      countMutableNodesCrash Vyper.testCrashes vyperCtx (functionPermissions []) [m] shift) =
      some (.ok [(.integer, 1)]) := by
  decide +kernel

/-- A Solidity assignment for the theorem. -/
example : ∃ m : Mutator ListRand, Solidity.mutatorFor env .assignment = some m ∧
    countMutableNodesCrash Solidity.testCrashes solidityCtx (functionPermissions []) [m]
      (Sol.assign "uint8" (Sol.number 1 "1")) =
      .ok [(.assignment, 1)] := by
  refine ⟨_, rfl, ?_⟩
  decide +kernel

end DemoNodes

end Mutagenyx
