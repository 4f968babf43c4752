import Verif.Model.Languages
import Verif.Proofs.Comments
import Verif.Props.Visitor
import Verif.Spec.DemoMachine

/-!
# Mutants are syntax trees

`mutate_ast` ends with a check that the mutant still is a syntax tree of the language.  The check never fails.
-/

namespace Mutagenyx
open Json

variable {R : Type} [Rand R]

namespace SyntaxTree

/-! ### Replacing a node below the root -/

theorem objGet_zip_isSome (k : String) : ∀ (kvs : List (String × Json)) (cs : List Json), cs.length = kvs.length →
    (objGet k (List.zipWith (fun kv c => (kv.1, c)) kvs cs)).isSome = (objGet k kvs).isSome
  | [], _, _ => by simp [objGet]
  | (k', v) :: kvs, [], h => by simp at h
  | (k', v) :: kvs, c :: cs, h => by
    simp only [List.zipWith_cons_cons, objGet]
    split
    · rfl
    · exact objGet_zip_isSome k kvs cs (by simpa using h)

/-- The object has the same keys if something below it is replaced. -/
theorem replaceAt_keys {i : Nat} {p : Pos} {x : Json} {kvs : List (String × Json)} :
    ∃ kvs', replaceAt (i :: p) x (.obj kvs) = .obj kvs' ∧ ∀ k, (objGet k kvs').isSome = (objGet k kvs).isSome := by
  simp only [replaceAt]
  split
  · exact ⟨_, rfl, fun k => objGet_zip_isSome k kvs _ (by simp [children])⟩
  · exact ⟨_, rfl, fun _ => rfl⟩

theorem objGet_zip_set (k : String) (w y : Json) : ∀ (kvs : List (String × Json)) (i : Nat), objGet k kvs = some w →
    (kvs.map (·.2))[i]? = some w ∨
      objGet k (List.zipWith (fun kv c => (kv.1, c)) kvs ((kvs.map (·.2)).set i y)) = some w
  | [], _, h => by cases h
  | (k', v) :: kvs, 0, h => by
    simp only [objGet] at h
    split at h
    · left; simpa using h
    · rename_i hk
      right
      simp only [List.map_cons, List.set_cons_zero, List.zipWith_cons_cons, objGet, hk, if_false]
      rw [← h]
      congr 1
      clear h hk
      induction kvs with
      | nil => rfl
      | cons e kvs ih => simp [ih]
  | (k', v) :: kvs, i + 1, h => by
    simp only [objGet] at h
    split at h
    · rename_i hk
      right
      simp [objGet, hk, h]
    · rename_i hk
      rcases objGet_zip_set k w y kvs i h with h' | h'
      · left; simpa using h'
      · right; simpa [objGet, hk] using h'

/-- A text of the object stays if another object below it is replaced. -/
theorem replaceAt_text {i : Nat} {p : Pos} {x n : Json} {kvs kvs0 : List (String × Json)} {k v : String}
    (hp : nodeAt (i :: p) (.obj kvs) = some n) (hn : n = .obj kvs0) (h : objGet k kvs = some (.str v)) :
    ∃ kvs', replaceAt (i :: p) x (.obj kvs) = .obj kvs' ∧ objGet k kvs' = some (.str v) := by
  simp only [nodeAt] at hp
  simp only [replaceAt]
  split
  · rename_i c hc
    rw [hc] at hp
    simp only at hp
    refine ⟨_, rfl, ?_⟩
    rcases objGet_zip_set k (.str v) (replaceAt p x c) kvs i h with h' | h'
    · exfalso
      have : c = .str v := Option.some.inj (hc.symm.trans h')
      subst this
      cases p with
      | nil => simp only [nodeAt, Option.some.injEq] at hp; rw [hn] at hp; cases hp
      | cons a p => simp [nodeAt, children] at hp
    · exact h'
  · exact ⟨_, rfl, h⟩

theorem obj_of_str {k v : String} {n : Json} (hk : PlainKey k) (hi : parseIndex k = none) (h : getStrForKey k n = some v) :
    ∃ kvs, n = .obj kvs ∧ objGet k kvs = some (.str v) := by
  unfold getStrForKey at h
  rw [get?_plain hk] at h
  cases n with
  | obj kvs =>
    refine ⟨kvs, rfl, ?_⟩
    have h : (objGet k kvs).bind asStr = some v := h
    cases ho : objGet k kvs with
    | none => rw [ho] at h; cases h
    | some w =>
      rw [ho] at h
      cases w with
      | str t => exact congrArg (fun t => some (Json.str t)) (Option.some.inj h)
      | _ => cases h
  | arr xs => simp [step, hi] at h
  | _ => simp [step] at h

/-! ### Solidity -/

/-- Only nodes with a kind are mutable, and source units are not. -/
theorem solidity_kind (env : MutEnv) (t : MutationType) (m : Mutator R) (hm : Solidity.mutatorFor env t = some m) (n : Json)
    (h : m.isMutable n = true) : ∃ k, getStrForKey "nodeType" n = some k ∧ k ≠ "SourceUnit" := by
  have key : ∀ (k : String) (b : Bool), k ≠ "SourceUnit" → (Solidity.hasType k n && b) = true →
      ∃ k, getStrForKey "nodeType" n = some k ∧ k ≠ "SourceUnit" := by
    intro k b hk h
    rw [Bool.and_eq_true] at h
    exact ⟨k, by simpa [Solidity.hasType] using h.1, hk⟩
  cases t <;> cases hm
  case integer =>
    have h : (Solidity.hasType "Literal" n && _ && _) = true := h
    rw [Bool.and_assoc] at h
    exact key _ _ (by decide) h
  case require =>
    have h : (Solidity.hasType "FunctionCall" n && _ && _) = true := h
    rw [Bool.and_assoc] at h
    exact key _ _ (by decide) h
  all_goals exact key _ _ (by decide) h

/-- A source unit stays one if a node of another kind is replaced in it. -/
theorem solidity_replace {ast n x : Json} {p : Pos} {k : String} (h : getStrForKey "nodeType" ast = some "SourceUnit")
    (hp : nodeAt p ast = some n) (hk : getStrForKey "nodeType" n = some k) (hne : k ≠ "SourceUnit") :
    getStrForKey "nodeType" (replaceAt p x ast) = some "SourceUnit" := by
  cases p with
  | nil =>
    simp only [nodeAt, Option.some.injEq] at hp
    subst hp
    rw [h] at hk
    exact absurd (Option.some.inj hk).symm hne
  | cons i p =>
    obtain ⟨kvs, rfl, h1⟩ := obj_of_str (by decide) (by decide) h
    obtain ⟨kvs0, h2, -⟩ := obj_of_str (by decide) (by decide) hk
    obtain ⟨kvs', h3, h4⟩ := replaceAt_text (x := x) hp h2 h1
    rw [h3]
    simp [getStrForKey, get?_obj (show PlainKey "nodeType" by decide), h4, asStr]

theorem solidity_member_kind {id : Nat} {n : Json} (h : Solidity.isMember id n = true) :
    ∃ k, getStrForKey "nodeType" n = some k ∧ k ≠ "SourceUnit" := by
  unfold Solidity.isMember at h
  cases ht : getStrForKey "nodeType" n with
  | none => rw [ht] at h; cases h
  | some t =>
    refine ⟨t, rfl, ?_⟩
    rintro rfl
    rw [ht] at h
    simp at h

/-! ### Vyper -/

theorem vyper_kind (env : MutEnv) (t : MutationType) (m : Mutator R) (hm : Vyper.mutatorFor env t = some m) (n : Json)
    (h : m.isMutable n = true) : ∃ k, getStrForKey "ast_type" n = some k := by
  have one : ∀ k, Vyper.hasType k n = true → ∃ k, getStrForKey "ast_type" n = some k :=
    fun k h => ⟨k, by simpa [Vyper.hasType] using h⟩
  have bin : Vyper.isBinary n = true → ∃ k, getStrForKey "ast_type" n = some k := by
    intro h
    simp only [Vyper.isBinary, Bool.or_eq_true] at h
    rcases h with (h | h) | h <;> exact one _ h
  cases t <;> cases hm
  case swapOperatorArguments =>
    simp only [Vyper.swapOperandsMutable, decide_eq_true_eq] at h
    unfold Vyper.swapOperandsTest at h
    split at h
    · rename_i hb; exact bin hb
    · cases h
  case deleteStatement =>
    simp only [Vyper.deleteStatementMutable, Bool.and_eq_true, Bool.or_eq_true] at h
    rcases h.1 with ((h | h) | h) | h <;> exact one _ h
  case swapLines =>
    simp only [Vyper.swapLinesMutable, Bool.and_eq_true, Bool.or_eq_true] at h
    rcases h.1 with (h | h) | h <;> exact one _ h
  case assignment => exact one _ h
  case integer => exact one _ h
  case unaryOp => exact one _ h
  case functionCall => exact one _ (Bool.and_eq_true _ _ ▸ h).1
  case swapFunctionArguments => exact one _ (Bool.and_eq_true _ _ ▸ h).1
  case ifStatement => exact one _ (Bool.and_eq_true _ _ ▸ h).1
  all_goals exact bin (Bool.and_eq_true _ _ ▸ h).1

/-- An object with the two members that the check asks for that is not a node itself. -/
def VyperRoot (j : Json) : Prop := ∃ kvs, j = .obj kvs ∧ (objGet "contract_name" kvs).isSome = true ∧
  (objGet "ast" kvs).isSome = true ∧ (objGet "ast_type" kvs).isSome = false

theorem vyper_replace {ast n x : Json} {p : Pos} {k : String} (h : VyperRoot ast) (hp : nodeAt p ast = some n)
    (hk : getStrForKey "ast_type" n = some k) : VyperRoot (replaceAt p x ast) := by
  obtain ⟨kvs, rfl, h1, h2, h3⟩ := h
  cases p with
  | nil =>
    simp only [nodeAt, Option.some.injEq] at hp
    subst hp
    obtain ⟨kvs', h4, h5⟩ := obj_of_str (by decide) (by decide) hk
    cases h4
    rw [h5] at h3; cases h3
  | cons i p =>
    obtain ⟨kvs', h4, h5⟩ := replaceAt_keys (i := i) (p := p) (x := x) (kvs := kvs)
    exact ⟨kvs', h4, by rw [h5, h1], by rw [h5, h2], by rw [h5, h3]⟩

theorem vyper_member_kind {id : Nat} {n : Json} (h : Vyper.isMember id n = true) : ∃ k, getStrForKey "ast_type" n = some k := by
  unfold Vyper.isMember at h
  cases ht : getStrForKey "ast_type" n with
  | none => rw [ht] at h; cases h
  | some t => exact ⟨t, rfl⟩

/-! ### The whole mutation -/

/-- What stays true when nodes that are mutable or have comments put in are replaced is true of the result. -/
theorem mutated_keeps (lang : Language) (env : MutEnv) (Q : Json → Prop) (Node : Json → Prop)
    (hmut : ∀ t (m : Mutator R), languageMutator env lang t = some m → ∀ n, m.isMutable n = true → Node n)
    (hmem : ∀ id n, lang.commenting.isMember id n = true → Node n)
    (hrep : ∀ ast p n x, Q ast → nodeAt p ast = some n → Node n → Q (replaceAt p x ast))
    (ms : List (Mutator R)) (hms : ∀ m ∈ ms, ∃ t, languageMutator env lang t = some m) (ps : Permissions) (paths : PathMap)
    (ast : Json) (h : Q ast) (t : MutationType) (index : Nat) (rng rng' : R) (ast' : Json) (res : MutatorResult)
    (hok : mutateAst { lang.delegate env with isAst := fun _ => true } ms ps paths ast t index rng = .ok (ast', res, rng')) :
    Q ast' := by
  unfold mutateAst at hok
  cases hf : ms.find? (fun m => m.implements = t) with
  | none => rw [hf] at hok; cases hok
  | some m =>
    rw [hf] at hok
    obtain ⟨t', ht'⟩ := hms m (List.mem_of_find?_eq_some hf)
    simp only at hok
    have hfail : (runMaker lang.ctx ps m index ast rng).2.failure = none := by
      cases hx : (runMaker lang.ctx ps m index ast rng).2.failure with
      | none => rfl
      | some f =>
        have hok : (match (runMaker lang.ctx ps m index ast rng).2.failure with
          | some (.err e) => (.err e : Outcome (Json × MutatorResult × R))
          | some .panic => .panic
          | some .outOfFuel => .outOfFuel
          | none => _) = _ := hok
        rw [hx] at hok
        cases f <;> cases hok
    have hQ : Q (runMaker lang.ctx ps m index ast rng).1 := by
      obtain ⟨h1, h2⟩ := maker_served lang.ctx ps m ast index rng
      by_cases hlen : (cand lang.ctx ps m.isMutable ast false).1.length ≤ index
      · rw [(h2 hlen).1]; exact h
      · have hi : index < (cand lang.ctx ps m.isMutable ast false).1.length := by omega
        obtain ⟨n, hn, hmut', hs⟩ := h1 _ (List.getElem?_eq_getElem hi)
        cases hmm : m.mutate n rng with
        | ok r =>
          obtain ⟨n', res, cm, rng'⟩ := r
          rw [hmm] at hs
          obtain ⟨ht, -⟩ := hs
          rw [ht]
          exact hrep _ _ _ _ h hn (hmut _ _ ht' _ hmut')
        | err e => rw [hmm] at hs; rw [hs] at hfail; cases hfail
        | panic => rw [hmm] at hs; rw [hs] at hfail; cases hfail
        | outOfFuel => rw [hmm] at hs; rw [hs] at hfail; cases hfail
    have hc : ∀ comment id a, Q a → Q (addComment (R := R) { lang.delegate env with isAst := fun _ => true } paths comment id a) := by
      intro comment id a ha
      unfold addComment
      cases comment with
      | none => exact ha
      | some c =>
        cases paths.get? id with
        | none => exact ha
        | some path =>
          show Q (insertCommentByPath lang.commenting a c path)
          unfold insertCommentByPath
          split
          · exact ha
          · rename_i id' up hrev
            rcases insertCommentLoop_spec lang.commenting id' c up a with ⟨-, h'⟩ | ⟨b, -, p, n, -, hp, hm, h'⟩
            · rw [h']; exact ha
            · rw [h']; exact hrep _ _ _ _ ha hp (hmem _ _ hm)
    have hok : (match (runMaker lang.ctx ps m index ast rng).2.failure with
      | some (.err e) => (.err e : Outcome (Json × MutatorResult × R))
      | some .panic => .panic
      | some .outOfFuel => .outOfFuel
      | none => .ok _) = .ok (ast', res, rng') := hok
    rw [hfail] at hok
    simp only [Outcome.ok.injEq, Prod.mk.injEq] at hok
    rw [← hok.1]
    exact hc _ _ _ hQ

/-- With a result that passes the check the check makes no difference. -/
theorem mutateAst_checked (l : Lang R) (ms : List (Mutator R)) (ps : Permissions) (paths : PathMap) (ast : Json)
    (t : MutationType) (index : Nat) (rng : R) (a : Json) (res : MutatorResult) (rng' : R)
    (h : mutateAst { l with isAst := fun _ => true } ms ps paths ast t index rng = .ok (a, res, rng')) (ha : l.isAst a = true) :
    mutateAst l ms ps paths ast t index rng = .ok (a, res, rng') := by
  unfold mutateAst at h ⊢
  split at h
  · cases h
  · simp only at h ⊢
    split at h
    · cases h
    · cases h
    · cases h
    · simp only [if_true, Outcome.ok.injEq, Prod.mk.injEq] at h ⊢
      obtain ⟨rfl, rfl, rfl⟩ := h
      exact if_pos ha

end SyntaxTree

open SyntaxTree

/-- **C64**, Solidity: mutating a source unit yields a source unit, so that the check at the end of a mutation never
rejects a mutant. -/
theorem C64_solidity (env : MutEnv) (ms : List (Mutator R)) (hms : ∀ m ∈ ms, ∃ t, Solidity.mutatorFor env t = some m)
    (ps : Permissions) (paths : PathMap) (ast : Json) (h : getStrForKey "nodeType" ast = some "SourceUnit") (t : MutationType)
    (index : Nat) (rng rng' : R) (ast' : Json) (res : MutatorResult)
    (hok : mutateAst { Language.solidity.delegate env with isAst := fun _ => true } ms ps paths ast t index rng =
      .ok (ast', res, rng')) :
    getStrForKey "nodeType" ast' = some "SourceUnit" ∧
    mutateAst (Language.solidity.delegate env) ms ps paths ast t index rng = .ok (ast', res, rng') := by
  have hroot := mutated_keeps .solidity env (fun j => getStrForKey "nodeType" j = some "SourceUnit")
    (fun n => ∃ k, getStrForKey "nodeType" n = some k ∧ k ≠ "SourceUnit") (fun t m hm n => solidity_kind env t m hm n)
    (fun id n hm => solidity_member_kind hm) (fun a p n x ha hp ⟨k, hk, hne⟩ => solidity_replace ha hp hk hne)
    ms hms ps paths ast h t index rng rng' ast' res hok
  refine ⟨hroot, mutateAst_checked _ ms ps paths ast t index rng ast' res rng' hok ?_⟩
  show decide (getStrForKey "nodeType" ast' = some "SourceUnit") = true
  exact decide_eq_true hroot

/-- **C64**, Vyper: mutating an object with the members `contract_name` and `ast` that is not itself a node yields such an
object, so that the check at the end of a mutation never rejects a mutant. -/
theorem C64_vyper (env : MutEnv) (ms : List (Mutator R)) (hms : ∀ m ∈ ms, ∃ t, Vyper.mutatorFor env t = some m)
    (ps : Permissions) (paths : PathMap) (ast : Json) (h : VyperRoot ast) (t : MutationType)
    (index : Nat) (rng rng' : R) (ast' : Json) (res : MutatorResult)
    (hok : mutateAst { Language.vyper.delegate env with isAst := fun _ => true } ms ps paths ast t index rng =
      .ok (ast', res, rng')) :
    VyperRoot ast' ∧ mutateAst (Language.vyper.delegate env) ms ps paths ast t index rng = .ok (ast', res, rng') := by
  have hroot := mutated_keeps .vyper env VyperRoot (fun n => ∃ k, getStrForKey "ast_type" n = some k)
    (fun t m hm n => vyper_kind env t m hm n) (fun id n hm => vyper_member_kind hm)
    (fun a p n x ha hp ⟨k, hk⟩ => vyper_replace ha hp hk) ms hms ps paths ast h t index rng rng' ast' res hok
  refine ⟨hroot, mutateAst_checked _ ms ps paths ast t index rng ast' res rng' hok ?_⟩
  obtain ⟨kvs, rfl, h1, h2, -⟩ := hroot
  show (hasValueForKey "contract_name" (.obj kvs) && hasValueForKey "ast" (.obj kvs)) = true
  rw [hasValueForKey, hasValueForKey, get?_obj (by decide), get?_obj (by decide), h1, h2]
  rfl

omit [Rand R] in
theorem SyntaxTree.mem_insertMutator {m x : Mutator R} : ∀ {tbl : List (Mutator R)}, x ∈ insertMutator m tbl → x = m ∨ x ∈ tbl
  | [], h => by simpa [insertMutator] using h
  | y :: tbl, h => by
    unfold insertMutator at h
    split at h
    · rcases List.mem_cons.1 h with h | h
      · exact Or.inl h
      · exact Or.inr (List.mem_cons_of_mem _ h)
    · rcases List.mem_cons.1 h with h | h
      · exact Or.inr (by simp [h])
      · exact (SyntaxTree.mem_insertMutator h).imp_right (List.mem_cons_of_mem _)

/-- The mutators of a run come from the factory of its language. -/
theorem SyntaxTree.selected (env : MutEnv) (lang : Language) (ts : List MutationType) :
    ∀ m ∈ selectMutators (R := R) (lang.delegate env) ts, ∃ t, languageMutator env lang t = some m := by
  have key : ∀ (l tbl : List (Mutator R)) (m : Mutator R), m ∈ l.foldl (fun tbl m => insertMutator m tbl) tbl →
      m ∈ l ∨ m ∈ tbl := by
    intro l
    induction l with
    | nil => intro tbl m h; exact Or.inr h
    | cons a l ih =>
      intro tbl m h
      rcases ih _ m h with h | h
      · exact Or.inl (List.mem_cons_of_mem _ h)
      · rcases mem_insertMutator h with h | h
        · exact Or.inl (by simp [h])
        · exact Or.inr h
  intro m hm
  rcases key _ _ m hm with h | h
  · obtain ⟨t, -, ht⟩ := List.mem_filterMap.1 h
    exact ⟨t, ht⟩
  · cases h

/-- Example: the mutators of a run satisfy the hypothesis of C64, and a mutation of the program of the examples goes well. -/
example : getStrForKey "nodeType" DemoMachine.tree = some "SourceUnit" ∧
    (∀ m ∈ selectMutators (R := ListRand) (Language.solidity.delegate DemoNodes.env) [.arithmeticBinaryOp],
      ∃ t, Solidity.mutatorFor DemoNodes.env t = some m) ∧
    ((mutateAst { Language.solidity.delegate DemoNodes.env with isAst := fun _ => true }
      (selectMutators (Language.solidity.delegate DemoNodes.env) [.arithmeticBinaryOp]) (functionPermissions []) []
      DemoMachine.tree .arithmeticBinaryOp 0 (⟨[0, 1]⟩ : ListRand)).toOption.map fun r => r.2.1.mutatedNodeId) = some (some 6) :=
  ⟨by decide +kernel, fun m hm => SyntaxTree.selected DemoNodes.env .solidity _ m hm, by decide +kernel⟩

/-- Example: a Vyper tree. -/
example : VyperRoot (.obj [("ast", .obj [("ast_type", .str "Module"), ("body", .arr [])]), ("contract_name", .str "x.vy")]) :=
  ⟨_, rfl, rfl, rfl, rfl⟩

end Mutagenyx
