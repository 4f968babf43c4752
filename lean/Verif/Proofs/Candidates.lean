import Verif.Proofs.Visitor
import Verif.Proofs.TraverseInv
import Verif.Spec.Candidates

/-! Candidates under the permissions made from a list of function names. -/

namespace Mutagenyx
open Json

variable {R : Type}

/-! ### Permissions made from function names -/

theorem Permissions.have?_iff (a : PermissionAction) (ps : Permissions) :
    ps.have? a = true ↔ ∃ p ∈ ps, p.covers a = true := by
  induction ps with
  | nil => simp [Permissions.have?]
  | cons p ps ih =>
    simp only [Permissions.have?, List.mem_cons]
    split
    · rename_i h; simp [h]
    · rename_i h; rw [ih]; constructor
      · rintro ⟨q, hq, h'⟩; exact ⟨q, Or.inr hq, h'⟩
      · rintro ⟨q, rfl | hq, h'⟩
        · exact absurd h' h
        · exact ⟨q, hq, h'⟩

theorem mem_foldl_addFunctionName (names : List String) (ps : Permissions) (a : PermissionAction) :
    a ∈ names.foldl addFunctionName ps ↔
      a ∈ ps ∨ ∃ n ∈ names, a = .mutate (.name (.value n .allow)) ∨
        a = .mutate (.children (.value n .allow)) := by
  induction names generalizing ps with
  | nil => simp
  | cons n names ih =>
    simp only [List.foldl_cons, ih]
    simp only [addFunctionName, Permissions.add, List.mem_append, List.mem_cons, List.not_mem_nil,
      or_false]
    constructor
    · rintro ((((h | h) | h)) | ⟨k, hk, h⟩)
      · exact Or.inl h
      · exact Or.inr ⟨n, Or.inl rfl, Or.inl h⟩
      · exact Or.inr ⟨n, Or.inl rfl, Or.inr h⟩
      · exact Or.inr ⟨k, Or.inr hk, h⟩
    · rintro (h | ⟨k, rfl | hk, h | h⟩)
      · exact Or.inl (Or.inl (Or.inl h))
      · exact Or.inl (Or.inl (Or.inr h))
      · exact Or.inl (Or.inr h)
      · exact Or.inr ⟨k, hk, Or.inl h⟩
      · exact Or.inr ⟨k, hk, Or.inr h⟩

theorem mem_functionPermissions {names : List String} (hne : names ≠ []) (a : PermissionAction) :
    a ∈ functionPermissions names ↔ a = .visit (.any .allow) ∨
      ∃ n ∈ names, a = .mutate (.name (.value n .allow)) ∨
        a = .mutate (.children (.value n .allow)) := by
  have : names.isEmpty = false := by cases names <;> simp_all
  simp [functionPermissions, this, Permissions.add, mem_foldl_addFunctionName, Permissions.new, or_comm]

theorem functionPermissions_nil :
    functionPermissions [] = [.mutate (.any .allow), .visit (.any .allow)] := rfl

theorem visit_ok (cx : LangCtx) (names : List String) (j : Json) :
    permittedToVisit cx (functionPermissions names) j = true := by
  have hmem : PermissionAction.visit (.any .allow) ∈ functionPermissions names := by
    simp [functionPermissions, Permissions.add]
  unfold permittedToVisit
  split
  · exact (Permissions.have?_iff _ _).2 ⟨_, hmem, rfl⟩
  · exact (Permissions.have?_iff _ _).2 ⟨_, hmem, rfl⟩

theorem mutate_eq_listed (cx : LangCtx) {names : List String} (hne : names ≠ []) (j : Json) :
    permittedToMutate cx (functionPermissions names) j = listedName cx names j := by
  rw [Bool.eq_iff_iff]
  unfold permittedToMutate listedName
  cases cx.nameOf j with
  | none =>
    simp only [Permissions.have?_iff, Bool.false_eq_true, iff_false, not_exists, not_and]
    intro a ha
    rcases (mem_functionPermissions hne a).1 ha with rfl | ⟨n, _, rfl | rfl⟩ <;>
      simp [PermissionAction.covers, PermissionScope.covers, PermissionObject.covers]
  | some nm =>
    simp only [Permissions.have?_iff, List.contains_iff_mem]
    constructor
    · rintro ⟨a, ha, hc⟩
      rcases (mem_functionPermissions hne a).1 ha with rfl | ⟨n, hn, rfl | rfl⟩
      · simp [PermissionAction.covers] at hc
      · simp [PermissionAction.covers, PermissionScope.covers, PermissionObject.covers] at hc
        rw [← hc.1]; exact hn
      · simp [PermissionAction.covers, PermissionScope.covers] at hc
    · intro h
      exact ⟨_, (mem_functionPermissions hne _).2 (Or.inr ⟨nm, h, Or.inl rfl⟩), by
        simp [PermissionAction.covers, PermissionScope.covers, PermissionObject.covers, Permission.covers]⟩

theorem mutateChildren_eq_listed (cx : LangCtx) {names : List String} (hne : names ≠ []) (j : Json) :
    permittedToMutateChildren cx (functionPermissions names) j = listedName cx names j := by
  rw [Bool.eq_iff_iff]
  unfold permittedToMutateChildren listedName
  cases cx.nameOf j with
  | none =>
    simp only [Permissions.have?_iff, Bool.false_eq_true, iff_false, not_exists, not_and]
    intro a ha
    rcases (mem_functionPermissions hne a).1 ha with rfl | ⟨n, _, rfl | rfl⟩ <;>
      simp [PermissionAction.covers, PermissionScope.covers, PermissionObject.covers]
  | some nm =>
    simp only [Permissions.have?_iff, List.contains_iff_mem]
    constructor
    · rintro ⟨a, ha, hc⟩
      rcases (mem_functionPermissions hne a).1 ha with rfl | ⟨n, hn, rfl | rfl⟩
      · simp [PermissionAction.covers] at hc
      · simp [PermissionAction.covers, PermissionScope.covers] at hc
      · simp [PermissionAction.covers, PermissionScope.covers, PermissionObject.covers] at hc
        rw [← hc.1]; exact hn
    · intro h
      exact ⟨_, (mem_functionPermissions hne _).2 (Or.inr ⟨nm, h, Or.inr rfl⟩), by
        simp [PermissionAction.covers, PermissionScope.covers, PermissionObject.covers, Permission.covers]⟩

theorem mutate_all (cx : LangCtx) (j : Json) :
    permittedToMutate cx (functionPermissions []) j = true := by
  unfold permittedToMutate
  split <;> exact (Permissions.have?_iff _ _).2 ⟨.mutate (.any .allow), by simp [functionPermissions_nil], rfl⟩

/-! ### No function list: all mutable positions -/

theorem positionsWhere_eq (mut? : Json → Bool) (ok : Pos → Bool) (j : Json) :
    positionsWhere mut? ok j =
      (if ok [] && mut? j then [[]] else []) ++
      (positionsList 0 j.children).filter (fun p => ok p && (nodeAt p j).any mut?) := by
  unfold positionsWhere
  rw [positions_eq]
  by_cases h : (ok [] && mut? j) = true
  · rw [List.filter_cons_of_pos (by simpa [nodeAt] using h), if_pos h]; rfl
  · rw [List.filter_cons_of_neg (by simpa [nodeAt] using h), if_neg h]; rfl

theorem filter_positionsList (mut? : Json → Bool) (ok : Pos → Bool) (i : Nat) (pre xs : List Json)
    (j : Json) (hj : j.children = pre ++ xs) (hi : i = pre.length)
    (f : Nat → Json → List Pos)
    (ih : ∀ d c, xs[d]? = some c → f (i + d) c = positionsWhere mut? (fun p => ok ((i + d) :: p)) c) :
    (positionsList i xs).filter (fun p => ok p && (nodeAt p j).any mut?) = (xs.zipIdx i).flatMap (fun cd => (f cd.2 cd.1).map (cd.2 :: ·)) := by
  induction xs generalizing i pre with
  | nil => rfl
  | cons x xs ihx =>
    simp only [positionsList, List.filter_append, List.zipIdx_cons, List.flatMap_cons]
    congr 1
    · have := ih 0 x (by simp)
      simp only [Nat.add_zero] at this
      rw [this, List.filter_map]
      congr 1
      unfold positionsWhere
      apply List.filter_congr
      intro p _
      subst hi
      simp [nodeAt, hj]
    · apply ihx (i + 1) (pre ++ [x])
      · simp [hj]
      · simp [hi]
      · intro d c hd
        have := ih (d + 1) c (by simpa using hd)
        rw [show i + 1 + d = i + (d + 1) by omega]; exact this

theorem candList_flatMap (cx : LangCtx) (ps : Permissions) (mut? : Json → Bool) (i : Nat)
    (xs : List Json) (k : Bool) (hk : ∀ c ∈ xs, (cand cx ps mut? c k).2 = k) :
    candList cx ps mut? i xs k =
      ((xs.zipIdx i).flatMap (fun cd => ((cand cx ps mut? cd.1 k).1).map (cd.2 :: ·)), k) := by
  induction xs generalizing i with
  | nil => rfl
  | cons x xs ih =>
    simp only [candList, List.zipIdx_cons, List.flatMap_cons]
    rw [hk x (by simp), ih (i + 1) (fun c hc => hk c (by simp [hc]))]

theorem cand_all_aux (cx : LangCtx) (mut? : Json → Bool) (j : Json) (k : Bool) :
    (cand cx (functionPermissions []) mut? j k).1 = positionsWhere mut? (fun _ => true) j := by
  -- the flag is irrelevant, so compare with an arbitrary one
  induction j using induct generalizing k with
  | h j ih =>
    rw [cand_eq, positionsWhere_eq]
    simp only [visit_ok, mutate_all, Bool.or_true, Bool.true_and, if_true]
    congr 1
    have key : ∀ (xs : List Json) (i : Nat) (pre : List Json) (k : Bool), j.children = pre ++ xs →
        i = pre.length → (∀ c ∈ xs, ∀ k, (cand cx (functionPermissions []) mut? c k).1 =
          positionsWhere mut? (fun _ => true) c) →
        (candList cx (functionPermissions []) mut? i xs k).1 =
          (positionsList i xs).filter (fun p => (nodeAt p j).any mut?) := by
      intro xs
      induction xs with
      | nil => intros; rfl
      | cons x xs ihx =>
        intro i pre k hj hi hx
        simp only [candList, positionsList, List.filter_append]
        congr 1
        · rw [hx x (by simp), List.filter_map]
          congr 1
          unfold positionsWhere
          apply List.filter_congr
          intro p _
          subst hi
          simp [nodeAt, hj]
        · exact ihx (i + 1) (pre ++ [x]) _ (by simp [hj]) (by simp [hi])
            (fun c hc => hx c (by simp [hc]))
    exact key j.children 0 [] _ (by simp) rfl ih

/-! ### With a function list -/

theorem cand_sound_aux (cx : LangCtx) {names : List String} (hne : names ≠ []) (mut? : Json → Bool)
    (j : Json) : ∀ k : Bool,
    ((cand cx (functionPermissions names) mut? j k).2 = true → k = true) ∧
    (k = false → ∀ p ∈ (cand cx (functionPermissions names) mut? j k).1,
      insideListed cx names p j = true) := by
  induction j using induct with
  | h j ih =>
    intro k
    rw [cand_eq]
    simp only [visit_ok, mutate_eq_listed cx hne, mutateChildren_eq_listed cx hne, if_true]
    have key : ∀ (xs : List Json) (i : Nat) (k : Bool),
        (∀ c ∈ xs, ∀ k : Bool, ((cand cx (functionPermissions names) mut? c k).2 = true → k = true) ∧
          (k = false → ∀ p ∈ (cand cx (functionPermissions names) mut? c k).1,
          insideListed cx names p c = true)) →
        ((candList cx (functionPermissions names) mut? i xs k).2 = true → k = true) ∧
        (k = false → ∀ q ∈ (candList cx (functionPermissions names) mut? i xs k).1,
          ∃ d c p, xs[d]? = some c ∧ q = (i + d) :: p ∧ insideListed cx names p c = true) := by
      intro xs
      induction xs with
      | nil => intro i k _; simp [candList]
      | cons x xs ihx =>
        intro i k hx
        obtain ⟨h1, h2⟩ := hx x (by simp) k
        obtain ⟨g1, g2⟩ := ihx (i + 1) (cand cx (functionPermissions names) mut? x k).2
          (fun c hc => hx c (by simp [hc]))
        refine ⟨fun h => h1 (g1 h), ?_⟩
        intro hk q hq
        simp only [candList, List.mem_append, List.mem_map] at hq
        rcases hq with ⟨p, hp, rfl⟩ | hq
        · exact ⟨0, x, p, by simp, by simp, h2 hk p hp⟩
        · obtain ⟨d, c, p, hd, rfl, hin⟩ := g2 (by
            cases hf : (cand cx (functionPermissions names) mut? x k).2 with
            | false => rfl
            | true => exact absurd (h1 hf) (by simp [hk])) q hq
          exact ⟨d + 1, c, p, by simpa using hd, by simp; omega, hin⟩
    obtain ⟨g1, g2⟩ := key j.children 0 (if listedName cx names j then true else k) ih
    refine ⟨?_, ?_⟩
    · intro h
      by_cases hl : listedName cx names j
      · simp [hl] at h
      · simp only [hl, Bool.false_eq_true, if_false] at h g1; exact g1 h
    · intro hk p hp
      subst hk
      simp only [List.mem_append] at hp
      rcases hp with hp | hp
      · split at hp
        · rename_i h
          simp only [Bool.false_or, Bool.and_eq_true] at h
          simp only [List.mem_singleton] at hp
          subst hp
          exact h.1
        · cases hp
      · by_cases hl : listedName cx names j
        · cases p <;> simp [insideListed, hl]
        · simp only [hl, Bool.false_eq_true, if_false] at g2 hp
          obtain ⟨d, c, q, hd, rfl, hin⟩ := g2 trivial p hp
          simp [insideListed, hd, hin]

theorem cand_clean (cx : LangCtx) {names : List String} (hne : names ≠ []) (mut? : Json → Bool)
    (j : Json) : (∀ p n, nodeAt p j = some n → listedName cx names n = false) → ∀ k : Bool,
    cand cx (functionPermissions names) mut? j k = (positionsWhere mut? (fun _ => k) j, k) := by
  induction j using induct with
  | h j ih =>
    intro hclean k
    rw [cand_eq, positionsWhere_eq]
    have hj : listedName cx names j = false := hclean [] j rfl
    have hc : ∀ c ∈ j.children, ∀ p n, nodeAt p c = some n → listedName cx names n = false := by
      intro c hc p n hp
      obtain ⟨d, hd⟩ := List.mem_iff_getElem?.1 hc
      exact hclean (d :: p) n (by simp [nodeAt, hd, hp])
    simp only [visit_ok, mutate_eq_listed cx hne, mutateChildren_eq_listed cx hne, hj, if_true,
      Bool.or_false, Bool.false_eq_true, if_false]
    rw [candList_flatMap _ _ _ _ _ _ (fun c h => by rw [ih c h (hc c h) k])]
    rw [filter_positionsList mut? (fun _ => k) 0 [] j.children j (by simp) rfl
      (fun _ c => (cand cx (functionPermissions names) mut? c k).1)
      (fun d c hd => by
        have h := List.mem_iff_getElem?.2 ⟨d, hd⟩
        rw [ih c h (hc c h) k])]

theorem cand_complete_aux (cx : LangCtx) {names : List String} (hne : names ≠ []) (mut? : Json → Bool)
    (j : Json) : NoNestedListed cx names j →
    cand cx (functionPermissions names) mut? j false =
      (positionsWhere mut? (fun p => insideListed cx names p j) j, false) := by
  induction j using induct with
  | h j ih =>
    intro hno
    rw [cand_eq, positionsWhere_eq]
    simp only [visit_ok, mutate_eq_listed cx hne, mutateChildren_eq_listed cx hne, if_true,
      Bool.false_or]
    by_cases hl : listedName cx names j
    · have hclean : ∀ c ∈ j.children, ∀ p n, nodeAt p c = some n → listedName cx names n = false := by
        intro c hc p n hp
        obtain ⟨d, hd⟩ := List.mem_iff_getElem?.1 hc
        exact hno [] j rfl hl (d :: p) n (by simp) (by simp [nodeAt, hd, hp])
      simp only [hl, if_true, Bool.true_and, insideListed]
      rw [candList_flatMap _ _ _ _ _ _ (fun c h => by rw [cand_clean cx hne mut? c (hclean c h) true])]
      rw [filter_positionsList mut? (fun p => insideListed cx names p j) 0 [] j.children j (by simp) rfl
        (fun _ c => (cand cx (functionPermissions names) mut? c true).1)
        (fun d c hd => by
          have h := List.mem_iff_getElem?.2 ⟨d, hd⟩
          rw [cand_clean cx hne mut? c (hclean c h) true]
          simp [insideListed, hl])]
    · have hl' : listedName cx names j = false := by simpa using hl
      have hno' : ∀ c ∈ j.children, NoNestedListed cx names c := by
        intro c hc p n hp hn q m hq hm
        obtain ⟨d, hd⟩ := List.mem_iff_getElem?.1 hc
        exact hno (d :: p) n (by simp [nodeAt, hd, hp]) hn q m hq hm
      simp only [hl', Bool.false_eq_true, if_false, Bool.false_and, insideListed]
      rw [candList_flatMap _ _ _ _ _ _ (fun c h => by rw [ih c h (hno' c h)])]
      rw [filter_positionsList mut? (fun p => insideListed cx names p j) 0 [] j.children j (by simp) rfl
        (fun _ c => (cand cx (functionPermissions names) mut? c false).1)
        (fun d c hd => by
          have h := List.mem_iff_getElem?.2 ⟨d, hd⟩
          rw [ih c h (hno' c h)]
          simp only [insideListed, hl', Bool.false_or, Nat.zero_add, hd])]

/-! ### Tables have no zero entries -/

theorem countTable_pos (cx : LangCtx) (ps : Permissions) (ms : List (Mutator R)) (ast : Json)
    (t : MutationType) : (countMutableNodes cx ps ms ast).get? t ≠ some 0 := by
  have hb : ∀ (tab : CountTable) u, (∀ t, tab.get? t ≠ some 0) → ∀ t, (tab.bump u).get? t ≠ some 0 := by
    intro tab u h t
    rw [CountTable.get?_bump]; split
    · simp
    · exact h t
  have hc : ∀ (ms : List (Mutator R)) (j : Json) (tab : CountTable), (∀ t, tab.get? t ≠ some 0) →
      ∀ t, (countNode ms j tab).get? t ≠ some 0 := by
    intro ms j
    unfold countNode
    induction ms with
    | nil => intro tab h; exact h
    | cons m ms ih =>
      intro tab h
      simp only [List.foldl_cons]
      apply ih
      split
      · exact hb _ _ h
      · exact h
  have := traverse_inv (counterVisitor cx ps ms) (fun s => ∀ t, s.table.get? t ≠ some 0)
    (fun _ _ h => h)
    (fun j s h => by simp only [counterVisitor]; split; exact hc ms j _ h; exact h)
    (fun j s h => by simp only [counterVisitor]; split <;> exact h)
    (fun j s h => by simp only [counterVisitor]; split <;> exact h)
    (fun _ _ h => h) ast {} (by simp [CountTable.get?])
  exact this t

theorem get?_countMutableNodes (cx : LangCtx) (ps : Permissions) (ms : List (Mutator R))
    (hn : (ms.map (·.implements)).Nodup) (m : Mutator R) (hm : m ∈ ms) (ast : Json) :
    (countMutableNodes cx ps ms ast).get? m.implements =
      if (cand cx ps m.isMutable ast false).1.length = 0 then none
      else some (cand cx ps m.isMutable ast false).1.length := by
  have h1 := count_eq_cand cx ps ms hn m hm ast
  have h2 := countTable_pos cx ps ms ast m.implements
  unfold CountTable.count at h1
  cases h : (countMutableNodes cx ps ms ast).get? m.implements with
  | none => rw [h] at h1; simp at h1; simp [← h1]
  | some n => rw [h] at h1 h2; simp at h1 h2; rw [← h1]; simp [h2]

end Mutagenyx
