import Verif.Model.Driver
import Verif.Spec.Selection
import Verif.Proofs.Sort
import Verif.Proofs.Candidates

/-! Helper lemmas about the selection loop. -/

namespace Mutagenyx
variable {R : Type} [Rand R]

theorem choose_mem {α : Type} {xs : List α} {r : R} {a : α} (h : (choose xs r).1 = some a) : a ∈ xs := by
  unfold choose at h
  split at h
  · cases h
  · exact List.mem_of_getElem? h

theorem choose_isSome {α : Type} {xs : List α} (r : R) (h : xs ≠ []) : ∃ a, (choose xs r).1 = some a := by
  unfold choose
  have : xs.isEmpty = false := by cases xs <;> simp_all
  simp only [this, Bool.false_eq_true, if_false]
  have hlt := Rand.below_lt xs.length r (List.length_pos_iff.2 h)
  exact ⟨xs[(Rand.below xs.length r).1], List.getElem?_eq_getElem hlt⟩

/-- The map as a function of the types. -/
def selMapOf (types : List MutationType) (g c : MutationType → Nat) : SelMap :=
  types.map (fun t => (t, g t, c t))

theorem get?_selMapOf (types : List MutationType) (g c : MutationType → Nat) (t : MutationType)
    (h : t ∈ types) : (selMapOf types g c).get? t = some (g t, c t) := by
  induction types with
  | nil => cases h
  | cons u us ih =>
    simp only [selMapOf, List.map_cons, SelMap.get?]
    by_cases hu : u = t
    · simp [hu]
    · rw [if_neg hu]
      exact ih (by rcases List.mem_cons.1 h with h | h; exact absurd h.symm hu; exact h)

theorem use_selMapOf (types : List MutationType) (g c : MutationType → Nat) (t : MutationType)
    (hn : types.Nodup) :
    (selMapOf types g c).use t = selMapOf types (fun u => g u + if u = t then 1 else 0) c := by
  induction types with
  | nil => rfl
  | cons u us ih =>
    obtain ⟨h1, h2⟩ := List.nodup_cons.1 hn
    have ih := ih h2
    unfold selMapOf at ih ⊢
    simp only [List.map_cons, SelMap.use]
    by_cases hu : u = t
    · subst hu
      rw [if_pos rfl]
      congr 1
      · simp
      · apply List.map_congr_left
        intro v hv
        have : v ≠ u := fun e => h1 (e ▸ hv)
        simp [this]
    · rw [if_neg hu, ih]
      congr 1
      simp [hu]

theorem sum_incr (types : List MutationType) (f : MutationType → Nat) (a : MutationType)
    (hn : types.Nodup) (ha : a ∈ types) :
    (types.map (fun u => f u + if u = a then 1 else 0)).sum = (types.map f).sum + 1 := by
  induction types with
  | nil => cases ha
  | cons u us ih =>
    obtain ⟨h1, h2⟩ := List.nodup_cons.1 hn
    simp only [List.map_cons, List.sum_cons]
    by_cases hu : u = a
    · subst hu
      have : us.map (fun v => f v + if v = u then 1 else 0) = us.map f := by
        apply List.map_congr_left
        intro v hv
        have : v ≠ u := fun e => h1 (e ▸ hv)
        simp [this]
      rw [this]; simp; omega
    · have ha' : a ∈ us := by
        rcases List.mem_cons.1 ha with h | h
        · exact absurd h.symm hu
        · exact h
      rw [ih h2 ha']
      simp [hu]; omega

theorem length_eq_sum_count (types todo : List MutationType) (hn : types.Nodup)
    (h : ∀ t ∈ todo, t ∈ types) : todo.length = (types.map (fun t => todo.count t)).sum := by
  induction todo with
  | nil =>
    clear h
    induction types with
    | nil => rfl
    | cons u us ih =>
      have := ih (List.nodup_cons.1 hn).2
      rw [List.map_cons, List.sum_cons, ← this]
      rfl
  | cons a as ih =>
    have h1 := ih (fun t ht => h t (by simp [ht]))
    have h2 := sum_incr types (fun t => as.count t) a hn (h a (by simp))
    rw [List.length_cons, h1, ← h2]
    congr 1
    apply List.map_congr_left
    intro t _
    rw [List.count_cons]
    congr 1
    by_cases hta : t = a
    · simp [hta]
    · have : ¬ a = t := fun e => hta e.symm
      simp [hta, this]

theorem sum_le_sum (types : List MutationType) (f g : MutationType → Nat) (h : ∀ t ∈ types, f t ≤ g t) :
    (types.map f).sum ≤ (types.map g).sum := by
  induction types with
  | nil => exact Nat.le_refl _
  | cons u us ih =>
    simp only [List.map_cons, List.sum_cons]
    have := h u (by simp)
    have := ih (fun t ht => h t (by simp [ht]))
    omega

theorem sum_lt_sum (types : List MutationType) (f g : MutationType → Nat) (h : ∀ t ∈ types, f t ≤ g t)
    (t : MutationType) (ht : t ∈ types) (hlt : f t < g t) : (types.map f).sum < (types.map g).sum := by
  induction types with
  | nil => cases ht
  | cons u us ih =>
    simp only [List.map_cons, List.sum_cons]
    have h1 := h u (by simp)
    have h2 := sum_le_sum us f g (fun t ht => h t (by simp [ht]))
    rcases List.mem_cons.1 ht with rfl | ht
    · omega
    · have := ih (fun t ht => h t (by simp [ht])) ht
      omega

theorem exists_lt_of_sum_lt (types : List MutationType) (f g : MutationType → Nat)
    (h : (types.map f).sum < (types.map g).sum) : ∃ t ∈ types, f t < g t := by
  induction types with
  | nil => simp at h
  | cons u us ih =>
    simp only [List.map_cons, List.sum_cons] at h
    by_cases hu : f u < g u
    · exact ⟨u, by simp, hu⟩
    · obtain ⟨t, ht, hlt⟩ := ih (by omega)
      exact ⟨t, by simp [ht], hlt⟩

/-- What holds throughout the selection loop. -/
structure SelInv (types : List MutationType) (cnt : MutationType → Nat) (requested : Nat)
    (s : SelState R) : Prop where
  map : s.map = selMapOf types (fun t => s.todo.count t) cnt
  mem : ∀ t ∈ s.todo, t ∈ types
  le : ∀ t ∈ types, s.todo.count t ≤ cnt t
  sel : s.selected = s.todo.length
  rem : s.remaining + s.todo.length = requested

theorem SelInv.push {types : List MutationType} {cnt : MutationType → Nat} {requested : Nat}
    {s : SelState R} (hn : types.Nodup) (h : SelInv types cnt requested s) {t : MutationType}
    (ht : t ∈ types) (hlt : s.todo.count t < cnt t) (hrem : s.remaining ≠ 0) (r : R) :
    SelInv types cnt requested
      { remaining := s.remaining - 1, map := s.map.use t, todo := s.todo ++ [t],
        selected := s.selected + 1, rng := r } := by
  have hcount : ∀ u, (s.todo ++ [t]).count u = s.todo.count u + if u = t then 1 else 0 := by
    intro u
    rw [List.count_append, List.count_singleton]
    by_cases hu : u = t
    · simp [hu]
    · have : ¬ t = u := fun e => hu e.symm
      simp [hu, this]
  constructor
  · simp only [h.map, use_selMapOf _ _ _ _ hn, hcount]
  · intro u hu
    rcases List.mem_append.1 hu with hu | hu
    · exact h.mem u hu
    · rw [List.mem_singleton.1 hu]; exact ht
  · intro u hu
    rw [hcount]
    have := h.le u hu
    by_cases hut : u = t
    · subst hut; simp; omega
    · simp [hut]; exact this
  · simp [h.sel]
  · have := h.rem
    simp; omega

theorem SelInv.rng {types : List MutationType} {cnt : MutationType → Nat} {requested : Nat}
    {s : SelState R} (h : SelInv types cnt requested s) (r : R) :
    SelInv types cnt requested { s with rng := r } :=
  ⟨h.map, h.mem, h.le, h.sel, h.rem⟩

/-- One iteration of the loop, given the invariant. -/
theorem selLoop_unfold {types : List MutationType} {cnt : MutationType → Nat} {requested : Nat}
    (available fuel : Nat) {s : SelState R} (h : SelInv types cnt requested s)
    (hrem : s.remaining ≠ 0) :
    selLoop types available (fuel + 1) s =
      match choose types s.rng with
      | (none, r) => selLoop types available fuel { s with rng := r }
      | (some t, r) =>
        if s.todo.count t < cnt t then
          selLoop types available fuel
            { remaining := s.remaining - 1, map := s.map.use t, todo := s.todo ++ [t],
              selected := s.selected + 1, rng := r }
        else if s.selected ≥ available then .ok { s with rng := r }
        else selLoop types available fuel { s with rng := r } := by
  rw [selLoop]
  simp only [hrem, if_false]
  cases hc : choose types s.rng with
  | mk o r =>
    cases o with
    | none => rfl
    | some t =>
      have ht : t ∈ types := choose_mem (r := s.rng) (by rw [hc])
      simp only [h.map, get?_selMapOf _ _ _ _ ht]

theorem selLoop_inv {types : List MutationType} {cnt : MutationType → Nat} {requested available : Nat}
    (hn : types.Nodup) (fuel : Nat) : ∀ s : SelState R, SelInv types cnt requested s →
    (∃ s', selLoop types available fuel s = .ok s' ∧ SelInv types cnt requested s' ∧
      (s'.remaining = 0 ∨ s'.selected ≥ available)) ∨ selLoop types available fuel s = .outOfFuel := by
  induction fuel with
  | zero =>
    intro s h
    by_cases hrem : s.remaining = 0
    · left; exact ⟨s, by rw [selLoop]; simp [hrem], h, Or.inl hrem⟩
    · right; rw [selLoop]; simp [hrem]
  | succ fuel ih =>
    intro s h
    by_cases hrem : s.remaining = 0
    · left; exact ⟨s, by rw [selLoop]; simp [hrem], h, Or.inl hrem⟩
    · rw [selLoop_unfold available fuel h hrem]
      cases hc : choose types s.rng with
      | mk o r =>
        cases o with
        | none => exact ih _ (h.rng r)
        | some t =>
          have ht : t ∈ types := choose_mem (r := s.rng) (by rw [hc])
          simp only
          split
          · rename_i hlt; exact ih _ (h.push hn ht hlt hrem r)
          · split
            · rename_i hsel
              left; exact ⟨_, rfl, h.rng r, Or.inr hsel⟩
            · exact ih _ (h.rng r)

/-- Number of nodes of an algorithm according to the table. -/
def tableCount (table : CountTable) (t : MutationType) : Nat := (table.get? t).getD 0

theorem get?_of_mem {table : CountTable} (hn : (table.map Prod.fst).Nodup) {t : MutationType} {n : Nat}
    (h : (t, n) ∈ table) : table.get? t = some n := by
  induction table with
  | nil => cases h
  | cons e rest ih =>
    obtain ⟨u, m⟩ := e
    simp only [List.map_cons, List.nodup_cons] at hn
    rcases List.mem_cons.1 h with h | h
    · cases h; simp [CountTable.get?]
    · have : u ≠ t := by
        rintro rfl
        exact hn.1 (List.mem_map.2 ⟨_, h, rfl⟩)
      simp only [CountTable.get?, this, if_false]
      exact ih hn.2 h

theorem mem_of_get? {table : CountTable} {t : MutationType} {n : Nat} (h : table.get? t = some n) :
    (t, n) ∈ table := by
  induction table with
  | nil => cases h
  | cons e rest ih =>
    obtain ⟨u, m⟩ := e
    simp only [CountTable.get?] at h
    split at h
    · rename_i hu; cases h; simp [hu]
    · exact List.mem_cons_of_mem _ (ih h)

theorem mem_usableTypes {table : CountTable} (t : MutationType) :
    t ∈ usableTypes table ↔ ∃ n, 0 < n ∧ (t, n) ∈ table := by
  unfold usableTypes
  rw [(MutationType.sortBy_perm _ _).mem_iff, List.mem_map]
  constructor
  · rintro ⟨⟨u, n⟩, he, rfl⟩
    rw [List.mem_filter] at he
    exact ⟨n, by simpa using he.2, he.1⟩
  · rintro ⟨n, hn, hm⟩
    exact ⟨(t, n), by rw [List.mem_filter]; exact ⟨hm, by simpa using hn⟩, rfl⟩

theorem usableTypes_nodup {table : CountTable} (hn : (table.map Prod.fst).Nodup) :
    (usableTypes table).Nodup := by
  unfold usableTypes
  rw [(MutationType.sortBy_perm _ _).nodup_iff]
  exact (List.Sublist.map Prod.fst (List.filter_sublist)).nodup hn

theorem available_eq {table : CountTable} (hn : (table.map Prod.fst).Nodup) :
    ((usableTypes table).map (tableCount table)).sum = (table.map Prod.snd).sum := by
  have hp : ((usableTypes table).map (tableCount table)).Perm
      (((table.filter (fun e => e.2 > 0)).map Prod.fst).map (tableCount table)) :=
    (MutationType.sortBy_perm _ _).map _
  rw [hp.sum_nat, List.map_map]
  have : ∀ l : CountTable, (∀ e ∈ l, tableCount table e.1 = e.2) →
      ((l.filter (fun e => e.2 > 0)).map (tableCount table ∘ Prod.fst)).sum = (l.map Prod.snd).sum := by
    intro l
    induction l with
    | nil => intro _; rfl
    | cons e l ih =>
      intro h
      have h1 := h e (by simp)
      have h2 := ih (fun e he => h e (by simp [he]))
      by_cases he : e.2 > 0
      · rw [List.filter_cons_of_pos (by simpa using he)]
        simp only [List.map_cons, List.sum_cons, Function.comp, h1]
        exact congrArg (e.2 + ·) h2
      · rw [List.filter_cons_of_neg (by simpa using he), h2]
        simp; omega
  exact this table (fun e he => by
    obtain ⟨t, n⟩ := e
    simp [tableCount, get?_of_mem hn he])

theorem selMap_init (types : List MutationType) (table : CountTable) :
    types.map (fun t => (t, 0, (table.get? t).getD 0)) = selMapOf types (fun t => ([] : List MutationType).count t) (tableCount table) := by
  simp [selMapOf, tableCount]

theorem selInv_init (table : CountTable) (requested : Nat) (rng : R) :
    SelInv (usableTypes table) (tableCount table) requested
      { remaining := requested
        map := (usableTypes table).map (fun t => (t, 0, (table.get? t).getD 0)), rng := rng : SelState R } :=
  ⟨selMap_init _ _, by simp, by simp, rfl, by simp⟩

theorem sum_avail (types : List MutationType) (table : CountTable) :
    ((types.map (fun t => (t, 0, (table.get? t).getD 0))).map (fun e : MutationType × Nat × Nat => e.2.2)).sum =
      (types.map (tableCount table)).sum := by
  rw [List.map_map]; rfl

/-- Everything about the end of a selection. -/
theorem select_spec {table : CountTable} (hn : (table.map Prod.fst).Nodup) (fuel requested : Nat) (rng : R) :
    (∃ todo r, selectAlgorithms fuel table requested rng = .ok (todo, r) ∧
      (∀ t ∈ todo, t ∈ usableTypes table) ∧
      (∀ t ∈ usableTypes table, todo.count t ≤ tableCount table t) ∧
      todo.length = min requested (table.map Prod.snd).sum) ∨
    selectAlgorithms fuel table requested rng = .outOfFuel := by
  unfold selectAlgorithms
  simp only [sum_avail]
  rcases selLoop_inv (R := R) (available := ((usableTypes table).map (tableCount table)).sum)
    (usableTypes_nodup hn) fuel _ (selInv_init table requested rng) with ⟨s', h1, h2, h3⟩ | h
  · left
    rw [h1]
    refine ⟨_, _, rfl, h2.mem, h2.le, ?_⟩
    have hl := length_eq_sum_count _ _ (usableTypes_nodup hn) h2.mem
    have hle := sum_le_sum _ _ _ h2.le
    have hr := h2.rem
    have hs := h2.sel
    rw [available_eq hn] at hle h3
    rcases h3 with h3 | h3
    · omega
    · omega
  · right; rw [h]

/-- Progress under fairness. -/
theorem selLoop_ends {types : List MutationType} {cnt : MutationType → Nat} {requested : Nat}
    (hn : types.Nodup) (hne : types ≠ []) (r0 : R) (hfair : Fair types r0) (k : Nat) :
    ∀ (n : Nat) (s : SelState R), SelInv types cnt requested s → s.rng = rngAfter types r0 n →
      (types.map cnt).sum - s.todo.length ≤ k →
      ∃ fuel s', selLoop types (types.map cnt).sum fuel s = .ok s' := by
  induction k with
  | zero =>
    intro n s h hr hk
    by_cases hrem : s.remaining = 0
    · exact ⟨0, s, by rw [selLoop]; simp [hrem]⟩
    · refine ⟨1, ?_⟩
      rw [selLoop_unfold _ 0 h hrem]
      obtain ⟨t, ht⟩ := choose_isSome s.rng hne
      have hm := choose_mem ht
      cases hc : choose types s.rng with
      | mk o r =>
        rw [hc] at ht
        simp only at ht
        subst ht
        have hl := length_eq_sum_count _ _ hn h.mem
        have hnot : ¬ s.todo.count t < cnt t := by
          intro hlt
          have := sum_lt_sum types _ _ h.le t hm hlt
          omega
        have hsel : s.selected ≥ (types.map cnt).sum := by rw [h.sel]; omega
        exact ⟨_, by simp only [hnot, if_false, hsel, if_true]; rfl⟩
  | succ k ih =>
    intro n s h hr hk
    by_cases hlt : s.todo.length < (types.map cnt).sum
    · have hl := length_eq_sum_count _ _ hn h.mem
      obtain ⟨t, ht, htlt⟩ := exists_lt_of_sum_lt types (fun t => s.todo.count t) cnt (by omega)
      obtain ⟨m, hm, hoff⟩ := hfair t ht n
      -- induction on the distance to the next offer of `t`
      have key : ∀ (d n : Nat) (s : SelState R), n + d = m → SelInv types cnt requested s →
          s.rng = rngAfter types r0 n → (types.map cnt).sum - s.todo.length ≤ k + 1 →
          s.todo.count t < cnt t → ∃ fuel s', selLoop types (types.map cnt).sum fuel s = .ok s' := by
        intro d
        induction d with
        | zero =>
          intro n s hnm h hr hk htlt
          by_cases hrem : s.remaining = 0
          · exact ⟨0, s, by rw [selLoop]; simp [hrem]⟩
          · have hnm : n = m := by omega
            subst hnm
            have hoff' : (choose types s.rng).1 = some t := by rw [hr]; exact hoff
            cases hc : choose types s.rng with
            | mk o r =>
              rw [hc] at hoff'
              simp only at hoff'
              subst hoff'
              have hr' : r = rngAfter types r0 (n + 1) := by
                have : rngAfter types r0 (n + 1) = (choose types (rngAfter types r0 n)).2 := rfl
                rw [this, ← hr, hc]
              obtain ⟨fuel, s', he⟩ := ih (n + 1) _ (h.push hn ht htlt hrem r) hr' (by simp; omega)
              refine ⟨fuel + 1, s', ?_⟩
              rw [selLoop_unfold _ fuel h hrem, hc]
              simp only [htlt, if_true]
              exact he
        | succ d ihd =>
          intro n s hnm h hr hk htlt
          by_cases hrem : s.remaining = 0
          · exact ⟨0, s, by rw [selLoop]; simp [hrem]⟩
          · cases hc : choose types s.rng with
            | mk o r =>
              have hr' : r = rngAfter types r0 (n + 1) := by
                have : rngAfter types r0 (n + 1) = (choose types (rngAfter types r0 n)).2 := rfl
                rw [this, ← hr, hc]
              cases o with
              | none =>
                obtain ⟨fuel, s', he⟩ := ihd (n + 1) _ (by omega) (h.rng r) hr' hk htlt
                refine ⟨fuel + 1, s', ?_⟩
                rw [selLoop_unfold _ fuel h hrem, hc]
                exact he
              | some u =>
                have hu : u ∈ types := choose_mem (r := s.rng) (by rw [hc])
                by_cases hult : s.todo.count u < cnt u
                · obtain ⟨fuel, s', he⟩ := ih (n + 1) _ (h.push hn hu hult hrem r) hr' (by simp; omega)
                  refine ⟨fuel + 1, s', ?_⟩
                  rw [selLoop_unfold _ fuel h hrem, hc]
                  simp only [hult, if_true]
                  exact he
                · have hl := length_eq_sum_count _ _ hn h.mem
                  have hs := sum_lt_sum types _ _ h.le t ht htlt
                  have hsel : ¬ s.selected ≥ (types.map cnt).sum := by rw [h.sel]; omega
                  obtain ⟨fuel, s', he⟩ := ihd (n + 1) _ (by omega) (h.rng r) hr' hk htlt
                  refine ⟨fuel + 1, s', ?_⟩
                  rw [selLoop_unfold _ fuel h hrem, hc]
                  simp only [hult, if_false, hsel]
                  exact he
      exact key (m - n) n s (by omega) h hr hk htlt
    · exact ih n s h hr (by omega)

end Mutagenyx

namespace Mutagenyx
variable {R : Type}

theorem bump_keys_nodup (t : MutationType) (tab : CountTable) (h : (tab.map Prod.fst).Nodup) :
    ((tab.bump t).map Prod.fst).Nodup := by
  have hsub : ∀ tab : CountTable, ∀ u ∈ (tab.bump t).map Prod.fst, u = t ∨ u ∈ tab.map Prod.fst := by
    intro tab
    induction tab with
    | nil => intro u hu; simp [CountTable.bump] at hu; exact Or.inl hu
    | cons e rest ih =>
      obtain ⟨v, n⟩ := e
      intro u hu
      simp only [CountTable.bump] at hu
      split at hu
      · exact Or.inr hu
      · simp only [List.map_cons, List.mem_cons] at hu ⊢
        rcases hu with rfl | hu
        · exact Or.inr (Or.inl rfl)
        · rcases ih u hu with h | h
          · exact Or.inl h
          · exact Or.inr (Or.inr h)
  induction tab with
  | nil => simp [CountTable.bump]
  | cons e rest ih =>
    obtain ⟨v, n⟩ := e
    simp only [CountTable.bump]
    split
    · exact h
    · rename_i hv
      simp only [List.map_cons, List.nodup_cons] at h ⊢
      refine ⟨?_, ih h.2⟩
      intro hm
      rcases hsub rest v hm with h' | h'
      · exact hv h'
      · exact h.1 h'

/-- The table of counts has one entry per algorithm. -/
theorem countTable_keys_nodup (cx : LangCtx) (ps : Permissions) (ms : List (Mutator R)) (ast : Json) :
    ((countMutableNodes cx ps ms ast).map Prod.fst).Nodup := by
  have hc : ∀ (ms : List (Mutator R)) (j : Json) (tab : CountTable), (tab.map Prod.fst).Nodup →
      ((countNode ms j tab).map Prod.fst).Nodup := by
    intro ms j
    unfold countNode
    induction ms with
    | nil => intro tab h; exact h
    | cons m ms ih =>
      intro tab h
      simp only [List.foldl_cons]
      apply ih
      split
      · exact bump_keys_nodup _ _ h
      · exact h
  have := traverse_inv (counterVisitor cx ps ms) (fun s => (s.table.map Prod.fst).Nodup)
    (fun _ _ h => h)
    (fun j s h => by simp only [counterVisitor]; split; exact hc ms j _ h; exact h)
    (fun j s h => by simp only [counterVisitor]; split <;> exact h)
    (fun j s h => by simp only [counterVisitor]; split <;> exact h)
    (fun _ _ h => h) ast {} (by simp)
  exact this

end Mutagenyx
