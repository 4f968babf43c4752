import Verif.Proofs.RunEnds
import Verif.Proofs.Console

/-!
# C94: a run does its work unless something outside of it fails
-/

namespace Mutagenyx
open Json

variable {S R : Type} [Rand R]

/-- There is a node for one of the requested algorithms, in a listed function if there is a list. -/
def SomethingToMutate (R : Type) [Rand R] (lang : Language) (env : MutEnv) (p : Params R) (ast : Json) : Prop :=
  ∃ t ∈ p.mutations, ∃ mu : Mutator R, languageMutator env lang t = some mu ∧ ∃ pos node, nodeAt pos ast = some node ∧
    mu.isMutable node = true ∧ (p.functions ≠ [] → ListedSoFar lang.ctx p.functions pos ast)

/-- One of the requested algorithms does not come to an end with some node of the tree. -/
def MutatorCutOff (R : Type) [Rand R] (lang : Language) (env : MutEnv) (p : Params R) (ast : Json) : Prop :=
  ∃ t ∈ p.mutations, ∃ mu : Mutator R, languageMutator env lang t = some mu ∧ ∃ pos node rng, nodeAt pos ast = some node ∧
    mu.isMutable node = true ∧ mu.mutate node rng = .outOfFuel

namespace RunEnds

omit [Rand R] in
/-- The algorithms of the table are those of the mutators. -/
theorem table_keys (cx : LangCtx) (ps : Permissions) (ms : List (Mutator R)) (ast : Json) (t : MutationType) (n : Nat)
    (h : (countMutableNodes cx ps ms ast).get? t = some n) : ∃ m ∈ ms, m.implements = t := by
  have hc : ∀ (ms' : List (Mutator R)) (j : Json) (tab : CountTable), (∀ m ∈ ms', m ∈ ms) →
      (∀ t n, tab.get? t = some n → ∃ m ∈ ms, m.implements = t) →
      ∀ t n, (countNode ms' j tab).get? t = some n → ∃ m ∈ ms, m.implements = t := by
    intro ms' j
    unfold countNode
    induction ms' with
    | nil => intro tab _ h; exact h
    | cons m ms' ih =>
      intro tab hm h
      simp only [List.foldl_cons]
      refine ih _ (fun x hx => hm x (List.mem_cons_of_mem _ hx)) ?_
      split
      · intro t n ht
        rw [CountTable.get?_bump] at ht
        split at ht
        · rename_i e
          exact ⟨m, hm m (by simp), e⟩
        · exact h t n ht
      · exact h
  have := traverse_inv (counterVisitor cx ps ms) (fun s => ∀ t n, s.table.get? t = some n → ∃ m ∈ ms, m.implements = t)
    (fun _ _ h => h)
    (fun j s h => by simp only [counterVisitor]; split; exact hc ms j _ (fun _ h => h) h; exact h)
    (fun j s h => by simp only [counterVisitor]; split <;> exact h)
    (fun j s h => by simp only [counterVisitor]; split <;> exact h)
    (fun _ _ h => h) ast {} (by simp [CountTable.get?])
  exact this t n h

variable {m : Machine S R} {p : Params R} {lang : Language} {ast : Json}

theorem of_mutators (hsh : ∀ l, (m.shuffle l).Perm l) {mu : Mutator R} (h : mu ∈ Tells.mutatorsOf m p lang) :
    mu ∈ selectMutators (lang.delegate m.env) p.mutations := (hsh _).mem_iff.1 h

theorem mutators_nodup (hsh : ∀ l, (m.shuffle l).Perm l) : ((Tells.mutatorsOf m p lang).map (·.implements)).Nodup :=
  ((hsh _).map _).nodup_iff.2 (selectMutators_nodup _ _)

/-- What comes of an attempt. -/
theorem make_ends (hsh : ∀ l, (m.shuffle l).Perm l) (hroot : RootOf lang ast)
    (hmut : ∀ t ∈ p.mutations, ∀ mu : Mutator R, languageMutator m.env lang t = some mu → ∀ pos node rng, nodeAt pos ast = some node →
      mu.isMutable node = true → (∃ x, mu.mutate node rng = .ok x) ∨ mu.mutate node rng = .outOfFuel)
    (hprint : ∀ mutant report, OneMutation (R := R) lang m.env p.mutations p.functions ast mutant report →
      ∃ text, m.print lang mutant = .ok text)
    (t : MutationType) (n i : Nat) (r : R) (hget : (Tells.tableOf m p lang ast).get? t = some n) (hi : i < n) :
    (∃ mutant res r', mutateAst (lang.delegate m.env) (Tells.mutatorsOf m p lang) (functionPermissions p.functions)
        (calculateNodePaths lang.ctx (functionPermissions p.functions) ast) ast t i r = .ok (mutant, res, r') ∧
        ∃ text, m.print lang mutant = .ok text) ∨
    mutateAst (lang.delegate m.env) (Tells.mutatorsOf m p lang) (functionPermissions p.functions)
      (calculateNodePaths lang.ctx (functionPermissions p.functions) ast) ast t i r = .outOfFuel ∧
      MutatorCutOff R lang m.env p ast := by
  have hnod : ((Tells.mutatorsOf m p lang).map (·.implements)).Nodup := mutators_nodup hsh
  have hms := fun mu h => of_mutators (m := m) (p := p) (lang := lang) (mu := mu) hsh h
  obtain ⟨m0, hm0, ht0⟩ := table_keys _ _ _ _ _ _ hget
  have hsome : ∃ mu, (Tells.mutatorsOf m p lang).find? (fun m => m.implements = t) = some mu := by
    cases hf : (Tells.mutatorsOf m p lang).find? (fun m => m.implements = t) with
    | some mu => exact ⟨mu, rfl⟩
    | none => exact absurd ht0 (by simpa using List.find?_eq_none.1 hf m0 hm0)
  obtain ⟨mu, hfind⟩ := hsome
  have hm := List.mem_of_find?_eq_some hfind
  have ht : mu.implements = t := by simpa using List.find?_some hfind
  obtain ⟨t', ht', hfac⟩ := Results.mem_selectMutators _ _ mu (hms mu hm)
  obtain ⟨pos, node, hnode, hmu, hs⟩ := C08_index_below_count_is_served lang.ctx (functionPermissions p.functions) _ hnod mu hm ast n i r
    (by rw [ht]; exact hget) hi
  have hdone : ∀ mutant res r', mutateAst (lang.delegate m.env) (Tells.mutatorsOf m p lang) (functionPermissions p.functions)
      (calculateNodePaths lang.ctx (functionPermissions p.functions) ast) ast t i r = .ok (mutant, res, r') →
      ∃ text, m.print lang mutant = .ok text := fun mutant res r' h =>
    hprint mutant res (Results.mutateAst_one lang m.env p.mutations p.functions _ hms hnod ast mutant t i n r r' res hget (fun _ => hi) h)
  rcases hmut t' ht' mu hfac pos node r hnode hmu with ⟨⟨node', rep, comment, r'⟩, hx⟩ | hx
  · rw [hx] at hs
    obtain ⟨-, hfail, -⟩ := hs
    refine Or.inl ?_
    have hfree : ∃ a res r', mutateAst { lang.delegate m.env with isAst := fun _ => true } (Tells.mutatorsOf m p lang)
        (functionPermissions p.functions) (calculateNodePaths lang.ctx (functionPermissions p.functions) ast) ast t i r = .ok (a, res, r') := by
      unfold mutateAst
      rw [hfind]
      simp only
      have hfail' : (runMaker (lang.delegate m.env : Lang R).ctx (functionPermissions p.functions) mu i ast r).2.failure = none := hfail
      rw [hfail']
      exact ⟨_, _, _, rfl⟩
    obtain ⟨a, res, r', hfree⟩ := hfree
    have hfull : mutateAst (lang.delegate m.env) (Tells.mutatorsOf m p lang) (functionPermissions p.functions)
        (calculateNodePaths lang.ctx (functionPermissions p.functions) ast) ast t i r = .ok (a, res, r') := by
      have hfm : ∀ x ∈ Tells.mutatorsOf m p lang, ∃ t, (lang.delegate m.env : Lang R).mutatorFor t = some x := fun x hx => by
        obtain ⟨t, -, h⟩ := Results.mem_selectMutators _ _ x (hms x hx)
        exact ⟨t, h⟩
      cases lang with
      | solidity => exact (C64_solidity m.env _ hfm _ _ ast hroot t i r r' a res hfree).2
      | vyper => exact (C64_vyper m.env _ hfm _ _ ast hroot t i r r' a res hfree).2
    exact ⟨a, res, r', hfull, hdone _ _ _ hfull⟩
  · rw [hx] at hs
    refine Or.inr ⟨?_, t', ht', mu, hfac, pos, node, r, hnode, hmu, hx⟩
    unfold mutateAst
    rw [hfind]
    simp only
    have hfail' : (runMaker (lang.delegate m.env : Lang R).ctx (functionPermissions p.functions) mu i ast r).2.failure = some .outOfFuel := hs
    rw [hfail']

/-- The table is empty if and only if there is nothing to mutate. -/
theorem table_empty (hsh : ∀ l, (m.shuffle l).Perm l) :
    (Tells.tableOf m p lang ast).isEmpty = true ↔ ¬ SomethingToMutate R lang m.env p ast := by
  have hnod : ((Tells.mutatorsOf m p lang).map (·.implements)).Nodup := mutators_nodup hsh
  have hcand : ∀ (mu : Mutator R) pos, pos ∈ (cand lang.ctx (functionPermissions p.functions) mu.isMutable ast false).1 ↔
      ∃ node, nodeAt pos ast = some node ∧ mu.isMutable node = true ∧ (p.functions ≠ [] → ListedSoFar lang.ctx p.functions pos ast) := by
    intro mu pos
    by_cases hf : p.functions = []
    · rw [hf, cand_all_aux, positionsWhere, List.mem_filter]
      constructor
      · rintro ⟨-, h⟩
        cases hn : nodeAt pos ast with
        | none => rw [hn] at h; simp at h
        | some node => rw [hn] at h; exact ⟨node, rfl, by simpa using h, fun h => absurd rfl h⟩
      · rintro ⟨node, h1, h2, -⟩
        exact ⟨mem_positions.2 (by rw [h1]; rfl), by rw [h1]; simpa using h2⟩
    · rw [cand_exact lang.ctx hf]
      constructor
      · rintro ⟨n, h1, h2, h3⟩
        exact ⟨n, h1, h2, fun _ => h3⟩
      · rintro ⟨n, h1, h2, h3⟩
        exact ⟨n, h1, h2, h3 hf⟩
  constructor
  · rintro he ⟨t, ht, mu, hfac, pos, node, h1, h2, h3⟩
    have hin : mu ∈ Tells.mutatorsOf m p lang := by
      refine (hsh _).mem_iff.2 ?_
      have hi := Results.implements_of lang m.env hfac
      obtain ⟨h27, -⟩ := C27_one_mutator_per_supported_algorithm (R := R) m.env (lang.delegate m.env) lang rfl p.mutations
      have hs : Supports lang t := (mutatorFor_supports m.env lang t).1 ⟨mu, hfac⟩
      obtain ⟨m', hm', hl⟩ := h27 t ht hs
      rw [hfac] at hm'
      cases hm'
      have : mu ∈ (selectMutators (lang.delegate m.env) p.mutations).filter (·.implements = t) := by rw [hl]; simp
      exact (List.mem_filter.1 this).1
    have hg := get?_countMutableNodes lang.ctx (functionPermissions p.functions) _ hnod mu hin ast
    have hpos : pos ∈ (cand lang.ctx (functionPermissions p.functions) mu.isMutable ast false).1 := (hcand mu pos).2 ⟨node, h1, h2, h3⟩
    rw [if_neg (fun h => by rw [List.length_eq_zero_iff.1 h] at hpos; cases hpos)] at hg
    have he' : countMutableNodes lang.ctx (functionPermissions p.functions) (Tells.mutatorsOf m p lang) ast = [] := List.isEmpty_iff.1 he
    rw [he'] at hg
    cases hg
  · intro hno
    rw [List.isEmpty_iff]
    cases htab : Tells.tableOf m p lang ast with
    | nil => rfl
    | cons e rest =>
      obtain ⟨t, n⟩ := e
      have hget : (Tells.tableOf m p lang ast).get? t = some n := by rw [htab]; simp [CountTable.get?]
      obtain ⟨mu, hm, ht⟩ := table_keys _ _ _ _ _ _ hget
      obtain ⟨t', ht', hfac⟩ := Results.mem_selectMutators _ _ mu (of_mutators hsh hm)
      have hg := get?_countMutableNodes lang.ctx (functionPermissions p.functions) _ hnod mu hm ast
      rw [ht] at hg
      have hg' : some n = _ := hget.symm.trans hg
      split at hg'
      · cases hg'
      · rename_i hne
        obtain ⟨pos, hpos⟩ := List.exists_mem_of_length_pos (Nat.pos_of_ne_zero hne)
        obtain ⟨node, h1, h2, h3⟩ := (hcand mu pos).1 hpos
        exact absurd ⟨t', ht', mu, hfac, pos, node, h1, h2, h3⟩ hno

end RunEnds

/-- **C94.** A run for an input that was read, where files can be written and texts of the input and of mutants can be printed,
ends well; or there is nothing to mutate, and the run says so; or the run is still drawing random numbers, for the selection of
algorithms or for a mutation.  It does not fail otherwise, and does not crash, whatever the compiler says about mutants. -/
theorem C94_run (m : Machine S R) (hsh : ∀ l, (m.shuffle l).Perm l) (fuel : Nat) (p : Params R) (s : S) (base : String)
    (hb : Path.fileName p.fileName = some base) (lang : Language) (ast : Json) (hr : (m.reading p s).1 = .ok (lang, ast))
    (hroot : RootOf lang ast) (hwrite : ∀ f text s, WrittenBy p f → (m.write f text s).1 = true)
    (hmut : ∀ t ∈ p.mutations, ∀ mu : Mutator R, languageMutator m.env lang t = some mu → ∀ pos node rng, nodeAt pos ast = some node →
      mu.isMutable node = true → (∃ x, mu.mutate node rng = .ok x) ∨ mu.mutate node rng = .outOfFuel)
    (horig : p.printOriginal = true → ∃ text, m.print lang ast = .ok text)
    (hprint : ∀ mutant report, OneMutation (R := R) lang m.env p.mutations p.functions ast mutant report →
      ∃ text, m.print lang mutant = .ok text) :
    (SomethingToMutate R lang m.env p ast ∧ (m.generate fuel p s).1 = .ok ()) ∨
    (¬ SomethingToMutate R lang m.env p ast ∧ (m.generate fuel p s).1 = .err .noMutableNode) ∨
    (SomethingToMutate R lang m.env p ast ∧ (m.generate fuel p s).1 = .outOfFuel ∧
      (selectAlgorithms fuel (countMutableNodes lang.ctx (functionPermissions p.functions)
        (m.shuffle (selectMutators (lang.delegate m.env) p.mutations)) ast) p.numberOfMutants p.rng = .outOfFuel ∨
      MutatorCutOff R lang m.env p ast)) := by
  have hgen : m.generate fuel p s = m.generateFrom fuel p lang ast (m.reading p s).2 := by
    rw [generate_eq]
    exact Act.bind_of_ok (Prod.ext hr rfl)
  rw [hgen]
  by_cases hsome : SomethingToMutate R lang m.env p ast
  · have hne : ¬ (Tells.tableOf m p lang ast).isEmpty = true := fun h => (RunEnds.table_empty hsh).1 h hsome
    have hnod := countTable_keys_nodup lang.ctx (functionPermissions p.functions) (Tells.mutatorsOf m p lang) ast
    have key : (m.generateFrom fuel p lang ast).Ends
        (selectAlgorithms fuel (Tells.tableOf m p lang ast) p.numberOfMutants p.rng = .outOfFuel ∨ MutatorCutOff R lang m.env p ast)
        fun _ => True := by
      unfold Machine.generateFrom
      simp only
      rw [if_neg (show ¬ (countMutableNodes (lang.delegate m.env : Lang R).ctx (functionPermissions p.functions)
        (m.shuffle (selectMutators (lang.delegate m.env) p.mutations)) ast).isEmpty = true from hne)]
      refine Act.Ends.bind (RunEnds.original_ends hb hwrite horig) fun _ _ => ?_
      refine Act.Ends.bind (RunEnds.config_ends hb hwrite) fun _ _ => ?_
      refine Act.Ends.bind (P := fun x => selectAlgorithms fuel (Tells.tableOf m p lang ast) p.numberOfMutants p.rng = .ok x)
        (Act.Ends.lift ?_) fun x hx => ?_
      · rcases C02_selection_never_fails (Tells.tableOf m p lang ast) hnod fuel p.numberOfMutants p.rng with ⟨x, hx⟩ | hx
        · exact Or.inl ⟨x, hx, hx⟩
        · exact Or.inr ⟨hx, Or.inl hx⟩
      · obtain ⟨todo, rng⟩ := x
        refine RunEnds.turns_ends (j := Tells.jobOf m p lang ast) rfl rfl hb hwrite ?_ _ _ ?_ (by simp) ?_
        · intro t n i r hget hi
          rcases RunEnds.make_ends hsh hroot hmut hprint t n i r hget hi with h | ⟨h1, h2⟩
          · exact Or.inl h
          · exact Or.inr ⟨h1, Or.inr h2⟩
        · show 51 * todo.length - 0 < 51 * todo.length + 1
          omega
        · intro t ht
          obtain ⟨n, hn, hmem⟩ := (C02_schedule_within_counts _ hnod fuel p.numberOfMutants p.rng rng todo hx t).1 ht
          exact ⟨n, hn, get?_of_mem hnod hmem⟩
    rcases key (m.reading p s).2 with ⟨a, s', h, -⟩ | ⟨h, hc⟩
    · exact Or.inl ⟨hsome, by rw [h]⟩
    · exact Or.inr (Or.inr ⟨hsome, h, hc⟩)
  · refine Or.inr (Or.inl ⟨hsome, ?_⟩)
    unfold Machine.generateFrom
    simp only
    rw [if_pos (show (countMutableNodes (lang.delegate m.env : Lang R).ctx (functionPermissions p.functions)
        (m.shuffle (selectMutators (lang.delegate m.env) p.mutations)) ast).isEmpty = true from (RunEnds.table_empty hsh).2 hsome)]
    rfl

end Mutagenyx
