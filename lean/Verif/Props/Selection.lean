import Verif.Proofs.Select

/-!
# C01, C02, C03: the schedule of a run

`table` is the table of mutable-node counts: one entry per algorithm (`hn`, which `countTable_keys_nodup`
gives for the tables the tool makes).  `fuel` bounds the number of iterations of the selection loop.
-/

namespace Mutagenyx
variable {R : Type} [Rand R]

/-- **C01.** A finished selection schedules exactly the smaller of the number of requested mutants and
the number of mutable nodes over all algorithms, whatever the random numbers. -/
theorem C01_scheduled (table : CountTable) (hn : (table.map Prod.fst).Nodup) (fuel requested : Nat)
    (rng rng' : R) (todo : List MutationType)
    (h : selectAlgorithms fuel table requested rng = .ok (todo, rng')) :
    todo.length = min requested (table.map Prod.snd).sum := by
  rcases select_spec hn fuel requested rng with ⟨t, r, h1, -, -, h2⟩ | h1
  · rw [h] at h1; cases h1; exact h2
  · rw [h] at h1; cases h1

/-- **C01** for the table of a run: the available nodes are the candidates of the algorithms in use.
The schedule is never longer than what was asked for, and shorter only if every single candidate of
every algorithm is scheduled. -/
theorem C01_scheduled_in_run (cx : LangCtx) (ps : Permissions) (ms : List (Mutator R)) (ast : Json)
    (fuel requested : Nat) (rng rng' : R) (todo : List MutationType)
    (h : selectAlgorithms fuel (countMutableNodes cx ps ms ast) requested rng = .ok (todo, rng')) :
    todo.length ≤ requested ∧
    (todo.length < requested → ∀ t, todo.count t = ((countMutableNodes cx ps ms ast).get? t).getD 0) := by
  have hn := countTable_keys_nodup cx ps ms ast
  rcases select_spec hn fuel requested rng with ⟨t, r, h1, hmem, hle, h2⟩ | h1
  · rw [h] at h1; cases h1
    refine ⟨by omega, fun hlt u => ?_⟩
    have hl := length_eq_sum_count _ _ (usableTypes_nodup hn) hmem
    have ha := available_eq hn
    by_cases hu : u ∈ usableTypes (countMutableNodes cx ps ms ast)
    · have h3 := hle u hu
      by_cases h4 : todo.count u < tableCount (countMutableNodes cx ps ms ast) u
      · have := sum_lt_sum _ _ _ hle u hu h4
        omega
      · unfold tableCount at h3 h4; omega
    · have h3 : todo.count u = 0 := List.count_eq_zero.2 fun hm => hu (hmem u hm)
      rw [h3]
      cases hg : (countMutableNodes cx ps ms ast).get? u with
      | none => rfl
      | some n =>
        rcases Nat.eq_zero_or_pos n with rfl | hpos
        · rfl
        · exact absurd ((mem_usableTypes u).2 ⟨n, hpos, mem_of_get? hg⟩) hu
  · rw [h] at h1; cases h1

/-- **C02.** The schedule uses only algorithms that have mutable nodes, and none more often than it has
nodes. -/
theorem C02_schedule_within_counts (table : CountTable) (hn : (table.map Prod.fst).Nodup)
    (fuel requested : Nat) (rng rng' : R) (todo : List MutationType)
    (h : selectAlgorithms fuel table requested rng = .ok (todo, rng')) :
    ∀ t, (t ∈ todo → ∃ n, 0 < n ∧ (t, n) ∈ table) ∧ ∀ n, (t, n) ∈ table → todo.count t ≤ n := by
  rcases select_spec hn fuel requested rng with ⟨t, r, h1, hmem, hle, -⟩ | h1
  · rw [h] at h1; cases h1
    intro u
    refine ⟨fun hu => (mem_usableTypes u).1 (hmem u hu), fun n hun => ?_⟩
    by_cases hu : u ∈ usableTypes table
    · have := hle u hu
      unfold tableCount at this
      rw [get?_of_mem hn hun] at this
      exact this
    · rw [List.count_eq_zero.2 fun hm => hu (hmem u hm)]
      exact Nat.zero_le _
  · rw [h] at h1; cases h1

/-- Selecting cannot crash or fail: it either finishes or is still running. -/
theorem C02_selection_never_fails (table : CountTable) (hn : (table.map Prod.fst).Nodup)
    (fuel requested : Nat) (rng : R) :
    (∃ res, selectAlgorithms fuel table requested rng = .ok res) ∨
      selectAlgorithms fuel table requested rng = .outOfFuel := by
  rcases select_spec hn fuel requested rng with ⟨t, r, h1, -⟩ | h1
  · exact Or.inl ⟨_, h1⟩
  · exact Or.inr h1

/-- **C03.** If the table has a mutable node and the random source offers every algorithm again and
again, the selection finishes. -/
theorem C03_selection_ends (table : CountTable) (hn : (table.map Prod.fst).Nodup)
    (hsome : ∃ t n, 0 < n ∧ (t, n) ∈ table) (requested : Nat) (rng : R)
    (hfair : Fair (usableTypes table) rng) :
    ∃ fuel res, selectAlgorithms fuel table requested rng = .ok res := by
  have hne : usableTypes table ≠ [] := by
    obtain ⟨t, n, h⟩ := hsome
    exact List.ne_nil_of_mem ((mem_usableTypes t).2 ⟨n, h⟩)
  obtain ⟨fuel, s', h⟩ := selLoop_ends (usableTypes_nodup hn) hne rng hfair
    _ 0 _ (selInv_init table requested rng) rfl (Nat.le_refl _)
  refine ⟨fuel, (s'.todo, s'.rng), ?_⟩
  unfold selectAlgorithms
  simp only [sum_avail]
  rw [h]

private theorem selLoop_done {types : List MutationType} {av fuel : Nat} {s : SelState R}
    (h : s.remaining = 0) : selLoop types av fuel s = .ok s := by
  cases fuel <;> (rw [selLoop]; simp [h])

/-- **C03.** Bounding the iterations more generously changes nothing once the selection finishes. -/
theorem C03_more_iterations_same_result (table : CountTable) (requested : Nat) (rng : R)
    (fuel fuel' : Nat) (hle : fuel ≤ fuel') (res : List MutationType × R)
    (h : selectAlgorithms fuel table requested rng = .ok res) :
    selectAlgorithms fuel' table requested rng = .ok res := by
  have key : ∀ (types : List MutationType) (av : Nat) (fuel fuel' : Nat) (s s' : SelState R), fuel ≤ fuel' →
      selLoop types av fuel s = .ok s' → selLoop types av fuel' s = .ok s' := by
    intro types av fuel
    induction fuel with
    | zero =>
      intro fuel' s s' _ h
      by_cases h0 : s.remaining = 0
      · rw [selLoop_done h0] at h ⊢; exact h
      · rw [selLoop, if_neg h0] at h; cases h
    | succ fuel ih =>
      intro fuel' s s' hle h
      obtain ⟨f, rfl⟩ : ∃ f, fuel' = f + 1 := ⟨fuel' - 1, by omega⟩
      have hle : fuel ≤ f := by omega
      rw [selLoop] at h ⊢
      split at h
      · rename_i h0; rw [if_pos h0]; exact h
      · rename_i h0
        rw [if_neg h0]
        cases hc : choose types s.rng with
        | mk o r =>
          rw [hc] at h
          cases o with
          | none => exact ih _ _ _ hle h
          | some t =>
            simp only at h ⊢
            cases hg : s.map.get? t with
            | none => rw [hg] at h; cases h
            | some e =>
              obtain ⟨used, count⟩ := e
              rw [hg] at h
              simp only at h ⊢
              split
              · rename_i h1; rw [if_pos h1] at h; exact ih _ _ _ hle h
              · rename_i h1; rw [if_neg h1] at h
                split
                · rename_i h2; rw [if_pos h2] at h; exact h
                · rename_i h2; rw [if_neg h2] at h; exact ih _ _ _ hle h
  unfold selectAlgorithms at h ⊢
  simp only at h ⊢
  split at h
  · rename_i s hs
    rw [key _ _ _ _ _ _ hle hs]
    exact h
  all_goals cases h

/-- **C03.** Once every algorithm is used up the loop stops on the very next choice, even if more
mutants were requested. -/
theorem C03_stops_when_exhausted (types : List MutationType) (hne : types ≠ []) (s : SelState R)
    (hall : ∀ t ∈ types, ∃ n, s.map.get? t = some (n, n)) (available : Nat) (hsel : available ≤ s.selected) :
    ∃ s', selLoop types available 1 s = .ok s' ∧ s'.todo = s.todo := by
  by_cases h0 : s.remaining = 0
  · exact ⟨s, selLoop_done h0, rfl⟩
  · rw [selLoop, if_neg h0]
    obtain ⟨t, ht⟩ := choose_isSome s.rng hne
    have hm := choose_mem ht
    cases hc : choose types s.rng with
    | mk o r =>
      rw [hc] at ht
      simp only at ht
      subst ht
      obtain ⟨n, hn⟩ := hall t hm
      simp only [hn, Nat.lt_irrefl, if_false, ge_iff_le, hsel, if_true]
      exact ⟨_, rfl, rfl⟩

/-- **C03.** The fairness assumption is needed: a source that always offers the same algorithm keeps the
loop going forever although a second algorithm has a node left. -/
theorem C03_unfair_runs_forever (fuel : Nat) :
    selectAlgorithms fuel [(.assignment, 1), (.ifStatement, 1)] 2 (⟨[]⟩ : ListRand) = .outOfFuel := by
  have htypes : usableTypes [(.assignment, 1), (.ifStatement, 1)] = [.assignment, .ifStatement] := by decide
  have hchoose : choose [MutationType.assignment, .ifStatement] (⟨[]⟩ : ListRand) = (some .assignment, ⟨[]⟩) := rfl
  have key : ∀ fuel, selLoop [.assignment, .ifStatement] 2 fuel
      { remaining := 1, map := [(.assignment, 1, 1), (.ifStatement, 0, 1)], todo := [.assignment], selected := 1,
        rng := (⟨[]⟩ : ListRand) } = .outOfFuel := by
    intro fuel
    induction fuel with
    | zero => rw [selLoop]; rfl
    | succ fuel ih =>
      rw [selLoop]
      simp only [Nat.succ_ne_zero, if_false, hchoose]
      exact ih
  unfold selectAlgorithms
  simp only [htypes]
  have h : ∀ fuel, selLoop [.assignment, .ifStatement] 2 fuel
      { remaining := 2, map := [(.assignment, 0, 1), (.ifStatement, 0, 1)], rng := (⟨[]⟩ : ListRand) } = .outOfFuel := by
    intro fuel
    cases fuel with
    | zero => rw [selLoop]; rfl
    | succ fuel =>
      rw [selLoop]
      simp only [hchoose]
      exact key fuel
  have e : (List.map (fun t => (t, 0, (CountTable.get? t [(.assignment, 1), (.ifStatement, 1)]).getD 0))
      [MutationType.assignment, .ifStatement]) = [(.assignment, 0, 1), (.ifStatement, 0, 1)] := by decide
  rw [e]
  have e2 : (List.map (fun e : MutationType × Nat × Nat => e.2.2) [(MutationType.assignment, 0, 1), (.ifStatement, 0, 1)]).sum = 2 := by decide
  rw [e2, h]

/-! ### Concrete cases -/

/-- A source that goes round is fair. -/
theorem cycleRand_fair (types : List MutationType) (hn : types.Nodup) (k : Nat) : Fair types (⟨k⟩ : CycleRand) := by
  intro t ht n
  have hlen : 0 < types.length := List.length_pos_of_mem ht
  have hne : types.isEmpty = false := by cases types <;> simp_all
  have hafter : ∀ m, rngAfter types (⟨k⟩ : CycleRand) m = ⟨k + m⟩ := by
    intro m
    induction m with
    | zero => rfl
    | succ m ih =>
      simp only [rngAfter, ih, choose, hne, Bool.false_eq_true, if_false]
      rfl
  have hoff : ∀ m, offered types (⟨k⟩ : CycleRand) m = types[(k + m) % types.length]? := by
    intro m
    simp only [offered, hafter, choose, hne, Bool.false_eq_true, if_false]
    rfl
  obtain ⟨i, hi, rfl⟩ := List.mem_iff_getElem.1 ht
  refine ⟨n + ((types.length - (k + n) % types.length) + i), by omega, ?_⟩
  rw [hoff]
  have h1 : (k + n) % types.length < types.length := Nat.mod_lt _ hlen
  have h2 : k + (n + (types.length - (k + n) % types.length + i)) =
      i + types.length * ((k + n) / types.length + 1) := by
    have := Nat.div_add_mod (k + n) types.length
    rw [Nat.mul_add]
    omega
  rw [h2, Nat.add_mul_mod_self_left, Nat.mod_eq_of_lt hi]
  exact List.getElem?_eq_getElem hi

example : (selectAlgorithms 10 [(.assignment, 2), (.ifStatement, 1)] 2 (⟨0⟩ : CycleRand)).toOption.map Prod.fst =
    some [.assignment, .ifStatement] := by decide
example : (selectAlgorithms 10 [(.assignment, 2), (.ifStatement, 1)] 7 (⟨0⟩ : CycleRand)).toOption.map Prod.fst =
    some [.assignment, .ifStatement, .assignment] := by decide
example : ∃ fuel res, selectAlgorithms fuel [(.assignment, 2), (.ifStatement, 1)] 100 (⟨0⟩ : CycleRand) = .ok res :=
  C03_selection_ends _ (by decide) ⟨.assignment, 2, by decide⟩ 100 _
    (cycleRand_fair _ (usableTypes_nodup (by decide)) 0)

end Mutagenyx
