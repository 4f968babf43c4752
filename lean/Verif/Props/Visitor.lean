import Verif.Proofs.Candidates
import Verif.Proofs.ListedExact
import Verif.Proofs.Frame

/-!
# C08, C09, C10, C11, C12: counting, choosing and changing one node

`ms` is the mutator table of a run (one object per algorithm, `hn`), `m` one of its entries, `ps` any
permissions, `index` and `rng` anything.
-/

namespace Mutagenyx
open Json

variable {R : Type}

/-- The candidates of `m`: shared by the counter and by the maker. -/
theorem maker_served (cx : LangCtx) (ps : Permissions) (m : Mutator R) (ast : Json) (index : Nat)
    (rng : R) :
    (∀ p, (cand cx ps m.isMutable ast false).1[index]? = some p →
      ServedAt m ast rng p (runMaker cx ps m index ast rng)) ∧
    ((cand cx ps m.isMutable ast false).1.length ≤ index →
      NotServed ast rng (runMaker cx ps m index ast rng)) := by
  obtain ⟨h1, h2⟩ := maker_aux cx ps m index ast { rng := rng } (Nat.zero_le _)
  refine ⟨?_, ?_⟩
  · intro p hp
    obtain ⟨n, k, hn, ht⟩ := h1 p hp
    have hmut := cand_mutable cx ps m.isMutable (List.mem_of_getElem? hp)
    obtain ⟨n', hn', hmut⟩ := hmut
    rw [hn] at hn'; cases hn'
    refine ⟨n, hn, hmut, ?_⟩
    unfold runMaker
    rw [ht]
    unfold makerHit
    cases m.mutate n rng with
    | ok r => obtain ⟨n', res, cm, rng'⟩ := r; exact ⟨rfl, rfl, rfl, rfl, rfl⟩
    | _ => rfl
  · intro h
    have := h2 h
    unfold runMaker
    rw [this]
    exact ⟨rfl, rfl, rfl, rfl, rfl⟩

/-- **C08.** Counting and mutating agree: there is one list of positions of mutable nodes, in document
order, such that the table's count for the algorithm is its length and a request with number `index`
is served at the `index`-th position, and changes nothing when there is no such position. -/
theorem C08_count_and_mutate_agree (cx : LangCtx) (ps : Permissions) (ms : List (Mutator R))
    (hn : (ms.map (·.implements)).Nodup) (m : Mutator R) (hm : m ∈ ms) (ast : Json) :
    ∃ cands : List Pos, cands.Sublist (positions ast) ∧
      (countMutableNodes cx ps ms ast).get? m.implements = entry cands.length ∧
      ∀ (index : Nat) (rng : R),
        (∀ p, cands[index]? = some p → ServedAt m ast rng p (runMaker cx ps m index ast rng)) ∧
        (cands.length ≤ index → NotServed ast rng (runMaker cx ps m index ast rng)) :=
  ⟨(cand cx ps m.isMutable ast false).1, cand_sublist cx ps m.isMutable ast false,
    get?_countMutableNodes cx ps ms hn m hm ast, maker_served cx ps m ast⟩

/-- **C08**, as a caller sees it: a request whose number is below the reported count is served. -/
theorem C08_index_below_count_is_served (cx : LangCtx) (ps : Permissions) (ms : List (Mutator R))
    (hn : (ms.map (·.implements)).Nodup) (m : Mutator R) (hm : m ∈ ms) (ast : Json) (k index : Nat)
    (rng : R) (hk : (countMutableNodes cx ps ms ast).get? m.implements = some k) (hi : index < k) :
    ∃ p, ServedAt m ast rng p (runMaker cx ps m index ast rng) := by
  obtain ⟨cands, -, h, hs⟩ := C08_count_and_mutate_agree cx ps ms hn m hm ast
  rw [h] at hk
  unfold entry at hk
  split at hk
  · cases hk
  · cases hk
    exact ⟨cands[index], (hs index rng).1 _ (by simp [hi])⟩

/-- **C08**: requests with different numbers below the count are served at different positions. -/
theorem C08_different_index_different_node (cx : LangCtx) (ps : Permissions) (ms : List (Mutator R))
    (hn : (ms.map (·.implements)).Nodup) (m : Mutator R) (hm : m ∈ ms) (ast : Json) (k i₁ i₂ : Nat)
    (rng₁ rng₂ : R) (hk : (countMutableNodes cx ps ms ast).get? m.implements = some k)
    (h₁ : i₁ < k) (h₂ : i₂ < k) (hne : i₁ ≠ i₂) :
    ∃ p₁ p₂, p₁ ≠ p₂ ∧ ServedAt m ast rng₁ p₁ (runMaker cx ps m i₁ ast rng₁) ∧
      ServedAt m ast rng₂ p₂ (runMaker cx ps m i₂ ast rng₂) := by
  obtain ⟨cands, hsub, h, hs⟩ := C08_count_and_mutate_agree cx ps ms hn m hm ast
  rw [h] at hk
  unfold entry at hk
  split at hk
  · cases hk
  · cases hk
    refine ⟨cands[i₁], cands[i₂], ?_, (hs i₁ rng₁).1 _ (by simp [h₁]), (hs i₂ rng₂).1 _ (by simp [h₂])⟩
    intro heq
    exact hne ((List.getElem_inj (hsub.nodup (positions_nodup ast))).1 heq)

/-- **C09.** A request changes at most one node: there is a position such that every other node that
is neither below it nor on the path to it is untouched, and nodes on the path keep their kind, keys
and number of children. -/
theorem C09_one_subtree (cx : LangCtx) (ps : Permissions) (m : Mutator R) (ast : Json) (index : Nat)
    (rng : R) (hok : (runMaker cx ps m index ast rng).2.failure = none) :
    (runMaker cx ps m index ast rng).1 = ast ∨
    ∃ p n, nodeAt p ast = some n ∧ m.isMutable n = true ∧
      (∀ q, ¬ p <+: q → ¬ q <+: p →
        nodeAt q (runMaker cx ps m index ast rng).1 = nodeAt q ast) ∧
      (∀ q a, q <+: p → q ≠ p → nodeAt q ast = some a →
        ∃ a', nodeAt q (runMaker cx ps m index ast rng).1 = some a' ∧ shape a' = shape a ∧
          a'.children.length = a.children.length) ∧
      (∃ n' res c rng', m.mutate n rng = .ok (n', res, c, rng') ∧
        nodeAt p (runMaker cx ps m index ast rng).1 = some n') := by
  obtain ⟨h1, h2⟩ := maker_served cx ps m ast index rng
  by_cases hlen : (cand cx ps m.isMutable ast false).1.length ≤ index
  · exact Or.inl (h2 hlen).1
  · right
    have hi : index < (cand cx ps m.isMutable ast false).1.length := by omega
    obtain ⟨n, hn, hmut, hs⟩ := h1 _ (List.getElem?_eq_getElem hi)
    refine ⟨_, n, hn, hmut, ?_⟩
    cases hmm : m.mutate n rng with
    | ok r =>
      obtain ⟨n', res, cm, rng'⟩ := r
      rw [hmm] at hs
      obtain ⟨ht, -⟩ := hs
      rw [ht]
      exact ⟨fun q a b => nodeAt_replaceAt_off _ q n' ast a b,
        fun q a ha hne hq => nodeAt_replaceAt_on _ q n' ast a ha hne hq,
        n', res, cm, rng', rfl, nodeAt_replaceAt_self (by rw [hn]; rfl)⟩
    | err e => rw [hmm] at hs; rw [hs] at hok; cases hok
    | panic => rw [hmm] at hs; rw [hs] at hok; cases hok
    | outOfFuel => rw [hmm] at hs; rw [hs] at hok; cases hok

/-- **C10.** Without a function list every mutable node of the tree is a candidate: the count is the
number of mutable nodes, and request `index` is served at the `index`-th mutable node in document
order. -/
theorem C10_no_function_list (cx : LangCtx) (ms : List (Mutator R))
    (hn : (ms.map (·.implements)).Nodup) (m : Mutator R) (hm : m ∈ ms) (ast : Json) :
    (countMutableNodes cx (functionPermissions []) ms ast).get? m.implements =
      entry ((preorder ast).countP m.isMutable) ∧
    ∀ (index : Nat) (rng : R) (p : Pos),
      (positionsWhere m.isMutable (fun _ => true) ast)[index]? = some p →
      ServedAt m ast rng p (runMaker cx (functionPermissions []) m index ast rng) := by
  have hc := cand_all_aux cx m.isMutable ast false
  refine ⟨?_, ?_⟩
  · rw [get?_countMutableNodes cx _ ms hn m hm ast, hc]
    have : (positionsWhere m.isMutable (fun _ => true) ast).length = (preorder ast).countP m.isMutable := by
      have hp := positions_map_nodeAt ast
      unfold positionsWhere
      rw [← List.countP_eq_length_filter]
      have : (preorder ast).countP m.isMutable = ((preorder ast).map some).countP (Option.any m.isMutable) := by
        rw [List.countP_map]; rfl
      rw [this, ← hp, List.countP_map]
      rfl
    rw [this]; rfl
  · intro index rng p hp
    exact (maker_served cx _ m ast index rng).1 p (by rw [hc]; exact hp)

/-- `insideListed` says what it should: some node on the way from the root to the position (both ends
included) bears a listed name. -/
theorem insideListed_iff (cx : LangCtx) (names : List String) (p : Pos) : ∀ j : Json,
    insideListed cx names p j = true ↔
      ∃ q n, q <+: p ∧ nodeAt q j = some n ∧ listedName cx names n = true := by
  induction p with
  | nil =>
    intro j
    constructor
    · intro h; exact ⟨[], j, List.nil_prefix, rfl, h⟩
    · rintro ⟨q, n, hq, hn, h⟩
      rw [List.prefix_nil.1 hq] at hn
      cases hn; exact h
  | cons i p ih =>
    intro j
    simp only [insideListed, Bool.or_eq_true]
    constructor
    · rintro (h | h)
      · exact ⟨[], j, List.nil_prefix, rfl, h⟩
      · split at h
        · rename_i c hc
          obtain ⟨q, n, hq, hn, h⟩ := (ih c).1 h
          exact ⟨i :: q, n, List.cons_prefix_cons.2 ⟨rfl, hq⟩, by simp only [nodeAt, hc, hn], h⟩
        · cases h
    · rintro ⟨q, n, hq, hn, h⟩
      cases q with
      | nil => cases hn; exact Or.inl h
      | cons k q =>
        obtain ⟨rfl, hq'⟩ := List.cons_prefix_cons.1 hq
        simp only [nodeAt] at hn
        split at hn
        · rename_i c hc
          right; rw [hc]; exact (ih c).2 ⟨q, n, hq', hn, h⟩
        · cases hn

/-- **C11.** With a function list, only nodes inside nodes that bear a listed name are changed, and
counts never exceed the number of mutable nodes there. -/
theorem C11_function_list_sound (cx : LangCtx) (names : List String) (hne : names ≠ [])
    (ms : List (Mutator R)) (hn : (ms.map (·.implements)).Nodup) (m : Mutator R) (hm : m ∈ ms)
    (ast : Json) :
    (∀ k, (countMutableNodes cx (functionPermissions names) ms ast).get? m.implements = some k →
      k ≤ (positionsWhere m.isMutable (fun p => insideListed cx names p ast) ast).length) ∧
    ∀ (index : Nat) (rng : R),
      NotServed ast rng (runMaker cx (functionPermissions names) m index ast rng) ∨
      ∃ p, insideListed cx names p ast = true ∧
        ServedAt m ast rng p (runMaker cx (functionPermissions names) m index ast rng) := by
  have hin := (cand_sound_aux cx hne m.isMutable ast false).2 rfl
  refine ⟨?_, ?_⟩
  · intro k hk
    rw [get?_countMutableNodes cx _ ms hn m hm ast] at hk
    split at hk
    · cases hk
    · cases hk
      have hsub := cand_sublist cx (functionPermissions names) m.isMutable ast false
      have : (cand cx (functionPermissions names) m.isMutable ast false).1.Sublist
          (positionsWhere m.isMutable (fun p => insideListed cx names p ast) ast) := by
        have hf := hsub.filter (fun p => insideListed cx names p ast && (nodeAt p ast).any m.isMutable)
        rw [List.filter_eq_self.2] at hf
        · exact hf
        · intro p hp
          obtain ⟨n, h1, h2⟩ := cand_mutable cx _ m.isMutable hp
          simp [hin p hp, h1, h2]
      exact this.length_le
  · intro index rng
    obtain ⟨h1, h2⟩ := maker_served cx (functionPermissions names) m ast index rng
    by_cases hlen : (cand cx (functionPermissions names) m.isMutable ast false).1.length ≤ index
    · exact Or.inl (h2 hlen)
    · have hi : index < (cand cx (functionPermissions names) m.isMutable ast false).1.length := by omega
      exact Or.inr ⟨_, hin _ (List.getElem_mem hi), h1 _ (List.getElem?_eq_getElem hi)⟩

/-- **C12**, the part that holds: if no node with a listed name contains another one, then with a
function list every mutable node inside a listed node is a candidate.  Missing for the full C12: the
case of nested listed names, where it is false (`C12_counterexample`). -/
theorem C12_function_list_complete_partial (cx : LangCtx) (names : List String) (hne : names ≠ [])
    (ms : List (Mutator R)) (hn : (ms.map (·.implements)).Nodup) (m : Mutator R) (hm : m ∈ ms)
    (ast : Json) (hno : NoNestedListed cx names ast) :
    (countMutableNodes cx (functionPermissions names) ms ast).get? m.implements =
      entry (positionsWhere m.isMutable (fun p => insideListed cx names p ast) ast).length ∧
    ∀ (index : Nat) (rng : R) (p : Pos),
      (positionsWhere m.isMutable (fun p => insideListed cx names p ast) ast)[index]? = some p →
      ServedAt m ast rng p (runMaker cx (functionPermissions names) m index ast rng) := by
  have hc := cand_complete_aux cx hne m.isMutable ast hno
  refine ⟨?_, ?_⟩
  · rw [get?_countMutableNodes cx _ ms hn m hm ast, hc]; rfl
  · intro index rng p hp
    exact (maker_served cx _ m ast index rng).1 p (by rw [hc]; exact hp)

/-- **C12**, what happens in every case: the candidates are, in document order, exactly the mutable nodes
that lie in a listed node inside of which no listed node has come to its end before.  That many are
counted, the request with number `index` is served at the candidate with that number, and a request with
a larger number finds nothing to do. -/
theorem C12_exact (cx : LangCtx) (names : List String) (hne : names ≠ [])
    (ms : List (Mutator R)) (hn : (ms.map (·.implements)).Nodup) (m : Mutator R) (hm : m ∈ ms)
    (ast : Json) :
    ∃ ps : List Pos, ps.Sublist (positions ast) ∧
      (∀ p, p ∈ ps ↔ ∃ n, nodeAt p ast = some n ∧ m.isMutable n = true ∧ ListedSoFar cx names p ast) ∧
      (countMutableNodes cx (functionPermissions names) ms ast).get? m.implements = entry ps.length ∧
      ∀ (index : Nat) (rng : R),
        (∀ p, ps[index]? = some p →
          ServedAt m ast rng p (runMaker cx (functionPermissions names) m index ast rng)) ∧
        (ps.length ≤ index → NotServed ast rng (runMaker cx (functionPermissions names) m index ast rng)) := by
  refine ⟨(cand cx (functionPermissions names) m.isMutable ast false).1, cand_sublist _ _ _ _ _,
    fun p => cand_exact cx hne m.isMutable ast p, ?_, fun index rng => maker_served cx _ m ast index rng⟩
  rw [get?_countMutableNodes cx _ ms hn m hm ast]; rfl

/-! ### A concrete case -/

namespace VisitorExample

/-- An algorithm that replaces a literal's value by a random digit. -/
def toy : Mutator ListRand where
  implements := .integer
  isMutable j := j.getStrForKey "nodeType" == some "Literal"
  mutate j r :=
    let d := Rand.below 10 r
    .ok (j.setStrForKey "value" (toString d.1), { mutationType := some .integer }, none, d.2)

def lit (v : String) : Json := .obj [("nodeType", .str "Literal"), ("value", .str v)]

/-- `function f { 1; { name: "x", init: 2 }; 3 }  function g { 4 }`: an inner node has a name. -/
def ast : Json := .obj [("nodes", .arr [
  .obj [("body", .arr [lit "1", .obj [("init", lit "2"), ("name", .str "x")], lit "3"]),
        ("name", .str "f")],
  .obj [("body", .arr [lit "4"]), ("name", .str "g")]])]

example : (countMutableNodes solidityCtx (functionPermissions []) [toy] ast).get? .integer = some 4 := by
  decide
example : (countMutableNodes solidityCtx (functionPermissions ["g"]) [toy] ast).get? .integer = some 1 := by
  decide
example : positionsWhere toy.isMutable (fun p => insideListed solidityCtx ["f"] p ast) ast =
    [[0, 0, 0, 0], [0, 0, 0, 1, 0], [0, 0, 0, 2]] := by decide
example : ([toy].map (·.implements)).Nodup := by decide
example : (runMaker solidityCtx (functionPermissions []) toy 3 ast ⟨[7]⟩).1 =
    replaceAt [0, 1, 0, 0] (lit "7") ast := by decide

/-- With a list in which no listed node contains another, `C12_function_list_complete_partial` applies. -/
theorem noNested (p : Pos) (n : Json) (hp : nodeAt p ast = some n)
    (hl : listedName solidityCtx ["g"] n = true) (q : Pos) (m : Json) (hq : q ≠ [])
    (hm : nodeAt q n = some m) : listedName solidityCtx ["g"] m = false := by
  have hmem : p ∈ positions ast := mem_positions.2 (by rw [hp]; rfl)
  have key : ∀ p ∈ positions ast, ∀ n ∈ nodeAt p ast, listedName solidityCtx ["g"] n = true →
      ∀ q ∈ positions n, q ≠ [] → ∀ m ∈ nodeAt q n, listedName solidityCtx ["g"] m = false := by
    decide
  exact key p hmem n hp hl q (mem_positions.2 (by rw [hm]; rfl)) hq m hm

example : NoNestedListed solidityCtx ["g"] ast := noNested

/-- **C12 is false in general** (`mutation_visitor.rs:236-246` clears the flag at the end of an inner
listed node): with `f` and the name `x` of a variable inside `f` listed, the literal `3` of `f` is not
counted, although it is inside `f`. -/
theorem C12_counterexample :
    (countMutableNodes solidityCtx (functionPermissions ["f", "x"]) [toy] ast).get? .integer = some 2 ∧
    (positionsWhere toy.isMutable (fun p => insideListed solidityCtx ["f", "x"] p ast) ast).length = 3 := by
  decide

/-- `function f(n) { 1; f(2); 3 }`, with a recursive call: the identifier in the call bears the name of the
function. -/
def recursive : Json := .obj [("nodes", .arr [
  .obj [("body", .arr [lit "1",
          .obj [("arguments", .arr [lit "2"]),
                ("expression", .obj [("name", .str "f"), ("nodeType", .str "Identifier")]),
                ("nodeType", .str "FunctionCall")],
          lit "3"]),
        ("name", .str "f"), ("nodeType", .str "FunctionDefinition")]])]

/-- **C12 is false for a function that calls itself**, also with that function alone on the list: the
identifier of the call ends before the statements after it begin, and they are not counted. -/
theorem C12_recursion_counterexample :
    (countMutableNodes solidityCtx (functionPermissions ["f"]) [toy] recursive).get? .integer = some 2 ∧
    (positionsWhere toy.isMutable (fun p => insideListed solidityCtx ["f"] p recursive) recursive).length = 3 := by
  decide

/-- The argument of the call comes before the identifier in the tree and is a candidate; the literal
after the call is not. -/
example : ListedSoFar solidityCtx ["f"] [0, 0, 0, 1, 0, 0] recursive := by
  obtain ⟨_, _, _, h⟩ := (cand_exact solidityCtx (names := ["f"]) (by decide) toy.isMutable recursive
    [0, 0, 0, 1, 0, 0]).1 (by decide)
  exact h

example : ¬ ListedSoFar solidityCtx ["f"] [0, 0, 0, 2] recursive := by
  intro h
  have h' := (cand_exact solidityCtx (names := ["f"]) (by decide) toy.isMutable recursive
    [0, 0, 0, 2]).2 ⟨lit "3", by decide, by decide, h⟩
  revert h'
  decide

end VisitorExample

end Mutagenyx
