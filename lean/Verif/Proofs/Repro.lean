import Verif.Proofs.Generate

/-! Helper lemmas for C17: the order of the mutator table does not matter. -/

namespace Mutagenyx
variable {R : Type}

theorem find_perm {ms ms' : List (Mutator R)} (hp : ms.Perm ms') (hn : (ms.map (·.implements)).Nodup)
    (t : MutationType) :
    ms.find? (fun m => m.implements = t) = ms'.find? (fun m => m.implements = t) := by
  induction hp with
  | nil => rfl
  | cons x _ ih =>
    simp only [List.map_cons, List.nodup_cons] at hn
    simp only [List.find?_cons]
    split
    · rfl
    · exact ih hn.2
  | swap x y l =>
    simp only [List.map_cons, List.nodup_cons, List.mem_cons, not_or] at hn
    simp only [List.find?_cons]
    by_cases hx : x.implements = t
    · by_cases hy : y.implements = t
      · exact absurd (hy.trans hx.symm) hn.1.1
      · simp [hx, hy]
    · simp [hx]
  | trans h1 _ ih1 ih2 =>
    rw [ih1 hn, ih2 ((h1.map _).nodup_iff.1 hn)]

theorem countTable_none (cx : LangCtx) (ps : Permissions) (ms : List (Mutator R)) (ast : Json)
    (t : MutationType) (ht : ∀ m ∈ ms, m.implements ≠ t) :
    (countMutableNodes cx ps ms ast).get? t = none := by
  have hc : ∀ (ms' : List (Mutator R)), (∀ m ∈ ms', m.implements ≠ t) → ∀ (j : Json) (tab : CountTable),
      tab.get? t = none → (countNode ms' j tab).get? t = none := by
    intro ms'
    unfold countNode
    induction ms' with
    | nil => intro _ j tab h; exact h
    | cons m ms' ih =>
      intro hne j tab h
      simp only [List.foldl_cons]
      apply ih (fun m hm => hne m (by simp [hm]))
      split
      · rw [CountTable.get?_bump, if_neg (fun e => hne m (by simp) e)]
        exact h
      · exact h
  have := traverse_inv (counterVisitor cx ps ms) (fun s => s.table.get? t = none)
    (fun _ _ h => h)
    (fun j s h => by simp only [counterVisitor]; split; exact hc ms ht j _ h; exact h)
    (fun j s h => by simp only [counterVisitor]; split <;> exact h)
    (fun j s h => by simp only [counterVisitor]; split <;> exact h)
    (fun _ _ h => h) ast {} (by simp [CountTable.get?])
  exact this

theorem countTable_get?_perm (cx : LangCtx) (ps : Permissions) {ms ms' : List (Mutator R)} (hp : ms.Perm ms')
    (hn : (ms.map (·.implements)).Nodup) (ast : Json) (t : MutationType) :
    (countMutableNodes cx ps ms ast).get? t = (countMutableNodes cx ps ms' ast).get? t := by
  by_cases h : ∃ m ∈ ms, m.implements = t
  · obtain ⟨m, hm, rfl⟩ := h
    rw [get?_countMutableNodes cx ps ms hn m hm ast,
      get?_countMutableNodes cx ps ms' ((hp.map _).nodup_iff.1 hn) m (hp.mem_iff.1 hm) ast]
  · have h1 : ∀ m ∈ ms, m.implements ≠ t := fun m hm e => h ⟨m, hm, e⟩
    rw [countTable_none cx ps ms ast t h1,
      countTable_none cx ps ms' ast t (fun m hm => h1 m (hp.mem_iff.2 hm))]

theorem usableTypes_eq {a b : CountTable} (ha : (a.map Prod.fst).Nodup) (hb : (b.map Prod.fst).Nodup)
    (h : ∀ t, a.get? t = b.get? t) : usableTypes a = usableTypes b := by
  have hs : ∀ {c : CountTable}, (c.map Prod.fst).Nodup →
      (usableTypes c).Pairwise (fun x y => MutationType.rank x < MutationType.rank y) := by
    intro c hc
    unfold usableTypes
    apply MutationType.sortBy_sorted MutationType.rank (fun _ _ _ => Nat.lt_trans)
    · intro x y hn
      rcases Nat.lt_trichotomy (MutationType.rank x) (MutationType.rank y) with h | h | h
      · exact absurd h hn
      · exact Or.inr (MutationType.rank_inj x y h)
      · exact Or.inl h
    · exact (List.Sublist.map Prod.fst (List.filter_sublist)).nodup hc
  refine MutationType.sorted_unique MutationType.rank (fun x => Nat.lt_irrefl x) (fun _ _ _ => Nat.lt_trans)
    _ _ (hs ha) (hs hb) ?_
  intro t
  rw [mem_usableTypes, mem_usableTypes]
  constructor
  · rintro ⟨n, h0, hm⟩
    exact ⟨n, h0, mem_of_get? (by rw [← h, get?_of_mem ha hm])⟩
  · rintro ⟨n, h0, hm⟩
    exact ⟨n, h0, mem_of_get? (by rw [h, get?_of_mem hb hm])⟩

theorem isEmpty_eq {a b : CountTable} (h : ∀ t, a.get? t = b.get? t) : List.isEmpty a = List.isEmpty b := by
  cases a with
  | nil =>
    cases b with
    | nil => rfl
    | cons e b => have := h e.1; simp [CountTable.get?] at this
  | cons e a =>
    cases b with
    | nil => have := h e.1; simp [CountTable.get?] at this
    | cons e' b => rfl

theorem selectAlgorithms_eq [Rand R] {a b : CountTable} (ha : (a.map Prod.fst).Nodup)
    (hb : (b.map Prod.fst).Nodup) (h : ∀ t, a.get? t = b.get? t) (fuel n : Nat) (r : R) :
    selectAlgorithms fuel a n r = selectAlgorithms fuel b n r := by
  unfold selectAlgorithms
  simp only [usableTypes_eq ha hb h, h]

theorem mutateAst_eq (l : Lang R) {ms ms' : List (Mutator R)} (hp : ms.Perm ms')
    (hn : (ms.map (·.implements)).Nodup) (ps : Permissions) (paths : PathMap) (ast : Json) :
    mutateAst l ms ps paths ast = mutateAst l ms' ps paths ast := by
  funext t i r
  unfold mutateAst
  rw [find_perm hp hn t]

/-- Processing a file does not depend on the order of the mutator table. -/
theorem generate_shuffle [Rand R] (w : World R) (sh : List (Mutator R) → List (Mutator R))
    (h1 : ∀ l, (w.shuffle l).Perm l) (h2 : ∀ l, (sh l).Perm l) (fuel : Nat) (p : Params R) :
    generateMutations w fuel p = generateMutations { w with shuffle := sh } fuel p := by
  unfold generateMutations
  congr 1
  funext x
  obtain ⟨language, ft⟩ := x
  simp only
  congr 1
  funext ast
  have hp : (w.shuffle (selectMutators (w.lang language) p.mutations)).Perm
      (sh (selectMutators (w.lang language) p.mutations)) := (h1 _).trans (h2 _).symm
  have hn : ((w.shuffle (selectMutators (w.lang language) p.mutations)).map (·.implements)).Nodup :=
    ((h1 _).map _).nodup_iff.2 (selectMutators_nodup _ _)
  have hget := countTable_get?_perm (w.lang language).ctx (functionPermissions p.functions) hp hn ast
  have hk1 := countTable_keys_nodup (w.lang language).ctx (functionPermissions p.functions)
    (w.shuffle (selectMutators (w.lang language) p.mutations)) ast
  have hk2 := countTable_keys_nodup (w.lang language).ctx (functionPermissions p.functions)
    (sh (selectMutators (w.lang language) p.mutations)) ast
  have hphase : ∀ paths todo rng, mutationPhase w (w.lang language) p
        (w.shuffle (selectMutators (w.lang language) p.mutations))
        (countMutableNodes (w.lang language).ctx (functionPermissions p.functions)
          (w.shuffle (selectMutators (w.lang language) p.mutations)) ast) paths ast todo rng =
        mutationPhase { w with shuffle := sh } (w.lang language) p
        (sh (selectMutators (w.lang language) p.mutations))
        (countMutableNodes (w.lang language).ctx (functionPermissions p.functions)
          (sh (selectMutators (w.lang language) p.mutations)) ast) paths ast todo rng := by
    intro paths todo rng
    funext before
    unfold mutationPhase
    have : ∀ (ta tb : CountTable), (∀ t, ta.get? t = tb.get? t) →
        loopCtx w (w.lang language) p (w.shuffle (selectMutators (w.lang language) p.mutations)) ta paths ast before =
        loopCtx { w with shuffle := sh } (w.lang language) p
          (sh (selectMutators (w.lang language) p.mutations)) tb paths ast before := by
      intro ta tb h
      have h' : (fun t => ta.get? t) = fun t => tb.get? t := funext h
      unfold loopCtx
      rw [mutateAst_eq _ hp hn, h']
    rw [this _ _ hget]
  simp only [isEmpty_eq hget, selectAlgorithms_eq hk1 hk2 hget, hphase]
  rfl

end Mutagenyx
