import Verif.Model.MutationVisitor
import Verif.Proofs.Tree

/-! Helper lemmas: what the counter and the maker do, in terms of a list of candidate positions. -/

namespace Mutagenyx
open Json

variable {R : Type}

section
variable (cx : LangCtx) (ps : Permissions) (mut? : Json → Bool)

mutual
/-- Candidate positions and flag after the traversal of a node, given the flag before. -/
def cand : Json → Bool → List Pos × Bool
  | .null, k => candLeaf .null k
  | .bool b, k => candLeaf (.bool b) k
  | .num n, k => candLeaf (.num n) k
  | .str t, k => candLeaf (.str t) k
  | .arr xs, k =>
    if permittedToVisit cx ps (.arr xs) then
      let r := candList 0 xs (if permittedToMutateChildren cx ps (.arr xs) then true else k)
      ((if (k || permittedToMutate cx ps (.arr xs)) && mut? (.arr xs) then [[]] else []) ++ r.1,
       if permittedToMutateChildren cx ps (.arr xs) then false else r.2)
    else ([], k)
  | .obj kvs, k =>
    if permittedToVisit cx ps (.obj kvs) then
      let r := candFields 0 kvs (if permittedToMutateChildren cx ps (.obj kvs) then true else k)
      ((if (k || permittedToMutate cx ps (.obj kvs)) && mut? (.obj kvs) then [[]] else []) ++ r.1,
       if permittedToMutateChildren cx ps (.obj kvs) then false else r.2)
    else ([], k)
def candLeaf (j : Json) (k : Bool) : List Pos × Bool :=
  if permittedToVisit cx ps j then
    ((if (k || permittedToMutate cx ps j) && mut? j then [[]] else []),
     if permittedToMutateChildren cx ps j then false else k)
  else ([], k)
def candList (i : Nat) : List Json → Bool → List Pos × Bool
  | [], k => ([], k)
  | x :: xs, k =>
    let r := cand x k
    let q := candList (i + 1) xs r.2
    (r.1.map (i :: ·) ++ q.1, q.2)
def candFields (i : Nat) : List (String × Json) → Bool → List Pos × Bool
  | [], k => ([], k)
  | (_, x) :: xs, k =>
    let r := cand x k
    let q := candFields (i + 1) xs r.2
    (r.1.map (i :: ·) ++ q.1, q.2)
end

theorem candFields_eq (i : Nat) (kvs : List (String × Json)) (k : Bool) :
    candFields cx ps mut? i kvs k = candList cx ps mut? i (kvs.map Prod.snd) k := by
  induction kvs generalizing i k with
  | nil => rfl
  | cons kv kvs ih => obtain ⟨l, x⟩ := kv; simp only [candFields, candList, List.map_cons, ih]

theorem cand_eq (j : Json) (k : Bool) : cand cx ps mut? j k =
    if permittedToVisit cx ps j then
      let r := candList cx ps mut? 0 j.children (if permittedToMutateChildren cx ps j then true else k)
      ((if (k || permittedToMutate cx ps j) && mut? j then [[]] else []) ++ r.1,
       if permittedToMutateChildren cx ps j then false else r.2)
    else ([], k) := by
  cases j <;>
    simp only [cand, candLeaf, children, candList, candFields_eq, List.append_nil] <;>
    (try split <;> simp_all)

theorem candList_sublist_aux (i : Nat) (xs : List Json) (k : Bool)
    (ih : ∀ c ∈ xs, ∀ k, (cand cx ps mut? c k).1.Sublist (positions c)) :
    (candList cx ps mut? i xs k).1.Sublist (positionsList i xs) := by
  induction xs generalizing i k with
  | nil => exact List.Sublist.slnil
  | cons x xs ihx =>
    simp only [candList, positionsList]
    exact List.Sublist.append ((ih x (by simp) k).map _)
      (ihx _ _ (fun c hc => ih c (by simp [hc])))

theorem cand_sublist (j : Json) (k : Bool) : (cand cx ps mut? j k).1.Sublist (positions j) := by
  induction j using induct generalizing k with
  | h j ih =>
    rw [cand_eq, positions_eq]
    split
    · simp only
      split
      · exact (candList_sublist_aux cx ps mut? 0 _ _ ih).cons_cons _
      · exact (candList_sublist_aux cx ps mut? 0 _ _ ih).cons _
    · exact List.nil_sublist _

theorem candList_mem {q : Pos} {i : Nat} {xs : List Json} {k : Bool}
    (h : q ∈ (candList cx ps mut? i xs k).1) :
    ∃ n c p k', xs[n]? = some c ∧ p ∈ (cand cx ps mut? c k').1 ∧ q = (i + n) :: p := by
  induction xs generalizing i k with
  | nil => simp [candList] at h
  | cons x xs ih =>
    simp only [candList, List.mem_append, List.mem_map] at h
    rcases h with ⟨p, hp, rfl⟩ | h
    · exact ⟨0, x, p, k, by simp, hp, by simp⟩
    · obtain ⟨n, c, p, k', hn, hp, rfl⟩ := ih h
      exact ⟨n + 1, c, p, k', by simpa using hn, hp, by simp; omega⟩

theorem cand_mutable {j : Json} {k : Bool} {p : Pos} (h : p ∈ (cand cx ps mut? j k).1) :
    ∃ n, nodeAt p j = some n ∧ mut? n = true := by
  induction p generalizing j k with
  | nil =>
    rw [cand_eq] at h
    split at h
    · simp only [List.mem_append] at h
      rcases h with h | h
      · split at h
        · rename_i hm; simp only [Bool.and_eq_true] at hm; exact ⟨j, rfl, hm.2⟩
        · cases h
      · obtain ⟨n, c, p, k', _, _, e⟩ := candList_mem cx ps mut? h
        cases e
    · cases h
  | cons i p ih =>
    rw [cand_eq] at h
    split at h
    · simp only [List.mem_append] at h
      rcases h with h | h
      · split at h
        · simp at h
        · cases h
      · obtain ⟨n, c, q, k', hn, hq, e⟩ := candList_mem cx ps mut? h
        injection e with e1 e2
        subst e2
        have : i = n := by omega
        subst this
        obtain ⟨m, hm, hm'⟩ := ih hq
        exact ⟨m, by simp [nodeAt, hn, hm], hm'⟩
    · cases h

end

/-! ### Counting -/

theorem CountTable.get?_bump (t u : MutationType) (tab : CountTable) :
    (tab.bump t).get? u = if t = u then some ((tab.get? u).getD 0 + 1) else tab.get? u := by
  induction tab with
  | nil => simp [CountTable.bump, CountTable.get?]
  | cons e rest ih =>
    obtain ⟨v, n⟩ := e
    simp only [CountTable.bump, CountTable.get?]
    by_cases h : v = t
    · subst h
      by_cases h' : v = u
      · subst h'; simp [CountTable.get?]
      · simp [CountTable.get?, h']
    · simp only [if_neg h, CountTable.get?]
      by_cases h' : v = u
      · subst h'; simp [Ne.symm h]
      · simp [h', ih]

/-- Count of an algorithm, 0 when it has no entry. -/
def CountTable.count (t : MutationType) (tab : CountTable) : Nat := (tab.get? t).getD 0

theorem CountTable.count_bump (t u : MutationType) (tab : CountTable) :
    (tab.bump t).count u = tab.count u + (if t = u then 1 else 0) := by
  simp only [CountTable.count, CountTable.get?_bump]
  split <;> simp

theorem CountTable.get?_eq_none_bump (t u : MutationType) (tab : CountTable) :
    (tab.bump t).get? u = none ↔ t ≠ u ∧ tab.get? u = none := by
  rw [CountTable.get?_bump]; split <;> simp_all

theorem count_countNode_aux (ms : List (Mutator R)) (j : Json) (u : MutationType) (tab : CountTable) :
    (countNode ms j tab).count u
      = tab.count u + ms.countP (fun m => m.isMutable j && decide (m.implements = u)) := by
  unfold countNode
  induction ms generalizing tab with
  | nil => simp
  | cons m ms ih =>
    simp only [List.foldl_cons, List.countP_cons]
    rw [ih]
    by_cases h : m.isMutable j
    · simp only [h, if_true, CountTable.count_bump]
      by_cases h' : m.implements = u <;> simp [h'] <;> omega
    · simp [h]

theorem countP_unique (ms : List (Mutator R)) (hn : (ms.map (·.implements)).Nodup) (m : Mutator R)
    (hm : m ∈ ms) (j : Json) :
    ms.countP (fun m' => m'.isMutable j && decide (m'.implements = m.implements))
      = if m.isMutable j then 1 else 0 := by
  induction ms with
  | nil => cases hm
  | cons a ms ih =>
    simp only [List.map_cons, List.nodup_cons] at hn
    rw [List.countP_cons]
    rcases List.mem_cons.1 hm with e | hm'
    · subst e
      have : ms.countP (fun m' => m'.isMutable j && decide (m'.implements = m.implements)) = 0 := by
        rw [List.countP_eq_zero]
        intro b hb
        have : b.implements ≠ m.implements := fun e => hn.1 (by rw [← e]; exact List.mem_map_of_mem hb)
        simp [this]
      rw [this]; simp
    · have : a.implements ≠ m.implements := fun e => hn.1 (by rw [e]; exact List.mem_map_of_mem hm')
      rw [ih hn.2 hm']; simp [this]

section
variable (cx : LangCtx) (ps : Permissions)

theorem counterList_aux (ms : List (Mutator R)) (hn : (ms.map (·.implements)).Nodup) (m : Mutator R)
    (hm : m ∈ ms) (i : Nat) (xs : List Json) (s : CounterState)
    (ih : ∀ c ∈ xs, ∀ s : CounterState, traverse (counterVisitor cx ps ms) c s =
        (false, (traverse (counterVisitor cx ps ms) c s).2) ∧
      (traverse (counterVisitor cx ps ms) c s).2.skip = (cand cx ps m.isMutable c s.skip).2 ∧
      (traverse (counterVisitor cx ps ms) c s).2.table.count m.implements
        = s.table.count m.implements + (cand cx ps m.isMutable c s.skip).1.length) :
    traverseList (counterVisitor cx ps ms) xs s = (false, (traverseList (counterVisitor cx ps ms) xs s).2) ∧
    (traverseList (counterVisitor cx ps ms) xs s).2.skip = (candList cx ps m.isMutable i xs s.skip).2 ∧
    (traverseList (counterVisitor cx ps ms) xs s).2.table.count m.implements
        = s.table.count m.implements + (candList cx ps m.isMutable i xs s.skip).1.length := by
  induction xs generalizing i s with
  | nil => simp [traverseList, candList]
  | cons x xs ihx =>
    obtain ⟨h1, h2, h3⟩ := ih x (by simp) s
    have hf : (traverse (counterVisitor cx ps ms) x s).1 = false := by rw [h1]
    obtain ⟨g1, g2, g3⟩ := ihx (i + 1) (traverse (counterVisitor cx ps ms) x s).2
      (fun c hc => ih c (by simp [hc]))
    simp only [traverseList, candList, hf]
    refine ⟨g1, ?_, ?_⟩
    · simp only [Bool.false_eq_true, if_false]; rw [g2, h2]
    · simp only [Bool.false_eq_true, if_false]
      rw [g3, h3, h2]; simp; omega

theorem counter_aux (ms : List (Mutator R)) (hn : (ms.map (·.implements)).Nodup) (m : Mutator R)
    (hm : m ∈ ms) (j : Json) : ∀ s : CounterState,
    traverse (counterVisitor cx ps ms) j s = (false, (traverse (counterVisitor cx ps ms) j s).2) ∧
    (traverse (counterVisitor cx ps ms) j s).2.skip = (cand cx ps m.isMutable j s.skip).2 ∧
    (traverse (counterVisitor cx ps ms) j s).2.table.count m.implements
        = s.table.count m.implements + (cand cx ps m.isMutable j s.skip).1.length := by
  induction j using induct with
  | h j ih =>
    intro s
    rw [traverse_eq, cand_eq]
    simp only [counterVisitor]
    by_cases hv : permittedToVisit cx ps j
    · simp only [hv, if_true]
      have key : ∀ s' : CounterState, s'.skip = s.skip →
          s'.table.count m.implements = s.table.count m.implements +
            (if (s.skip || permittedToMutate cx ps j) && m.isMutable j then 1 else 0) →
          _ := fun s' e1 e2 => by
        obtain ⟨g1, g2, g3⟩ := counterList_aux cx ps ms hn m hm 0 j.children
          (if permittedToMutateChildren cx ps j then { s' with skip := true } else s') ih
        exact (⟨g1, g2, g3, e1, e2⟩ :
          (traverseList (counterVisitor cx ps ms) j.children
              (if permittedToMutateChildren cx ps j then { s' with skip := true } else s') = (false, _)) ∧ _ ∧ _ ∧
            s'.skip = s.skip ∧ s'.table.count m.implements = _)
      by_cases hp : (s.skip || permittedToMutate cx ps j) = true
      · simp only [hp, if_true, Bool.true_and, Bool.false_eq_true, if_false]
        obtain ⟨g1, g2, g3, e1, e2⟩ := key { s with table := countNode ms j s.table } rfl (by
          simp only [hp, Bool.true_and]
          rw [count_countNode_aux, countP_unique ms hn m hm])
        simp only [counterVisitor] at g1 g2 g3
        refine ⟨?_, ?_, ?_⟩
        · rw [g1]
        · by_cases hc : permittedToMutateChildren cx ps j
          · simp [hc]
          · simp only [hc, Bool.false_eq_true, if_false] at g2 ⊢; exact g2
        · by_cases hc : permittedToMutateChildren cx ps j
          · simp only [hc, if_true] at g3 ⊢
            rw [g3, e2]; simp only [hp, Bool.true_and]
            by_cases hq : m.isMutable j <;> simp [hq] <;> omega
          · simp only [hc, Bool.false_eq_true, if_false] at g3 ⊢
            rw [g3, e2]; simp only [hp, Bool.true_and]
            by_cases hq : m.isMutable j <;> simp [hq] <;> omega
      · have hp' : (s.skip || permittedToMutate cx ps j) = false := by simpa using hp
        simp only [hp', Bool.false_and, Bool.false_eq_true, if_false]
        obtain ⟨g1, g2, g3, e1, e2⟩ := key s rfl (by simp [hp'])
        simp only [counterVisitor] at g1 g2 g3
        refine ⟨?_, ?_, ?_⟩
        · rw [g1]
        · by_cases hc : permittedToMutateChildren cx ps j
          · simp [hc]
          · simp only [hc, Bool.false_eq_true, if_false] at g2 ⊢; exact g2
        · by_cases hc : permittedToMutateChildren cx ps j
          · simp only [hc, if_true] at g3 ⊢
            rw [g3]; simp
          · simp only [hc, Bool.false_eq_true, if_false] at g3 ⊢
            rw [g3]; simp
    · simp [hv]

theorem count_eq_cand (ms : List (Mutator R)) (hn : (ms.map (·.implements)).Nodup) (m : Mutator R)
    (hm : m ∈ ms) (j : Json) :
    (countMutableNodes cx ps ms j).count m.implements = (cand cx ps m.isMutable j false).1.length := by
  have := (counter_aux cx ps ms hn m hm j {}).2.2
  simpa [countMutableNodes, CountTable.count, CountTable.get?] using this

end

/-! ### Making -/

section
variable (cx : LangCtx) (ps : Permissions) (m : Mutator R) (index : Nat)

/-- What the maker does to the chosen node. -/
def makerHit (j : Json) (s : MakerState R) : Json × MakerState R :=
  match m.mutate j s.rng with
  | .ok (j', res, comment, rng) =>
    let nid := match res.mutatedNodeId with
      | some id => id
      | none => match cx.idOf j' with
        | some id => id
        | none => s.mutatedNodeId
    (j', { s with rng := rng, result := res, mutatedNodeId := nid, comment := comment })
  | .err e => (j, { s with failure := some (.err e) })
  | .panic => (j, { s with failure := some .panic })
  | .outOfFuel => (j, { s with failure := some .outOfFuel })

theorem makerVisit_hit (j : Json) (s : MakerState R)
    (h : ((s.skip || permittedToMutate cx ps j) && m.isMutable j) = true) (hi : s.currentIndex = index) :
    makerVisit cx ps m index j s = (some (makerHit cx m j s).1, (makerHit cx m j s).2) := by
  unfold makerVisit makerHit
  rw [if_pos h, if_pos hi]
  cases m.mutate j s.rng <;> rfl

theorem makerVisit_pass (j : Json) (s : MakerState R)
    (h : ((s.skip || permittedToMutate cx ps j) && m.isMutable j) = true) (hi : s.currentIndex ≠ index) :
    makerVisit cx ps m index j s = (none, { s with currentIndex := s.currentIndex + 1 }) := by
  unfold makerVisit
  rw [if_pos h, if_neg hi]

theorem makerVisit_skip (j : Json) (s : MakerState R)
    (h : ((s.skip || permittedToMutate cx ps j) && m.isMutable j) = false) :
    makerVisit cx ps m index j s = (none, s) := by
  unfold makerVisit
  rw [if_neg (by simp [h])]

/-- `makerHit` with flag and index irrelevant. -/
theorem makerHit_with (j : Json) (s : MakerState R) (k : Bool) (c : Nat) :
    makerHit cx m j { s with skip := k, currentIndex := c } =
      ((makerHit cx m j s).1, { (makerHit cx m j s).2 with skip := k, currentIndex := c }) := by
  unfold makerHit
  cases m.mutate j s.rng <;> rfl

/-- The claim proved by induction on the tree. -/
def MakerClaim (j : Json) : Prop :=
  ∀ s : MakerState R, s.currentIndex ≤ index →
    (∀ p, (cand cx ps m.isMutable j s.skip).1[index - s.currentIndex]? = some p →
      ∃ n k, nodeAt p j = some n ∧ traverseMut (makerVisitor cx ps m index) j s =
        (true, replaceAt p (makerHit cx m n s).1 j,
          { (makerHit cx m n s).2 with skip := k, currentIndex := index })) ∧
    ((cand cx ps m.isMutable j s.skip).1.length ≤ index - s.currentIndex →
      traverseMut (makerVisitor cx ps m index) j s =
        (false, j, { s with currentIndex := s.currentIndex + (cand cx ps m.isMutable j s.skip).1.length,
                            skip := (cand cx ps m.isMutable j s.skip).2 }))

theorem makerList_aux (i : Nat) (xs : List Json) (ih : ∀ c ∈ xs, MakerClaim cx ps m index c)
    (s : MakerState R) (hs : s.currentIndex ≤ index) :
    (∀ q, (candList cx ps m.isMutable i xs s.skip).1[index - s.currentIndex]? = some q →
      ∃ d c p n k, xs[d]? = some c ∧ q = (i + d) :: p ∧ nodeAt p c = some n ∧
        traverseMutList (makerVisitor cx ps m index) xs s =
        (true, xs.set d (replaceAt p (makerHit cx m n s).1 c),
          { (makerHit cx m n s).2 with skip := k, currentIndex := index })) ∧
    ((candList cx ps m.isMutable i xs s.skip).1.length ≤ index - s.currentIndex →
      traverseMutList (makerVisitor cx ps m index) xs s =
        (false, xs, { s with
            currentIndex := s.currentIndex + (candList cx ps m.isMutable i xs s.skip).1.length,
            skip := (candList cx ps m.isMutable i xs s.skip).2 })) := by
  induction xs generalizing i s with
  | nil => exact ⟨by simp [candList], fun _ => by simp [candList, traverseMutList]⟩
  | cons x xs ihx =>
    obtain ⟨h1, h2⟩ := ih x (by simp) s hs
    by_cases hlt : index - s.currentIndex < (cand cx ps m.isMutable x s.skip).1.length
    · obtain ⟨n, k, hn, hr⟩ := h1 _ (List.getElem?_eq_getElem hlt)
      refine ⟨?_, ?_⟩
      · intro q hq
        simp only [candList] at hq
        rw [List.getElem?_append_left (by simpa using hlt)] at hq
        simp only [List.getElem?_map, List.getElem?_eq_getElem hlt, Option.map_some,
          Option.some.injEq] at hq
        exact ⟨0, x, _, n, k, by simp, by simp [← hq], hn, by simp [traverseMutList, hr]⟩
      · intro hle
        simp only [candList, List.length_append, List.length_map] at hle
        omega
    · have hle : (cand cx ps m.isMutable x s.skip).1.length ≤ index - s.currentIndex := by omega
      have hr := h2 hle
      let s1 : MakerState R := { s with
        currentIndex := s.currentIndex + (cand cx ps m.isMutable x s.skip).1.length,
        skip := (cand cx ps m.isMutable x s.skip).2 }
      obtain ⟨g1, g2⟩ := ihx (i + 1) (fun c hc => ih c (by simp [hc])) s1
        (by simp only [s1]; omega)
      refine ⟨?_, ?_⟩
      · intro q hq
        simp only [candList] at hq
        rw [List.getElem?_append_right (by simpa using hle)] at hq
        obtain ⟨d, c, p, n, k, hd, rfl, hn, hx⟩ := g1 q (by
          simp only [s1]
          rw [← hq]; congr 1; simp; omega)
        refine ⟨d + 1, c, p, n, k, by simpa using hd, by simp; omega, hn, ?_⟩
        simp only [traverseMutList, hr]
        have e : makerHit cx m n s1 = ((makerHit cx m n s).1,
          { (makerHit cx m n s).2 with skip := s1.skip, currentIndex := s1.currentIndex }) :=
          makerHit_with cx m n s _ _
        change (match traverseMutList (makerVisitor cx ps m index) xs s1 with
          | (stop, ys, s) => (stop, x :: ys, s)) = _
        rw [hx, e]; simp
      · intro hle'
        simp only [candList, List.length_append, List.length_map] at hle' ⊢
        have := g2 (by simp only [s1]; omega)
        simp only [traverseMutList, hr]
        change (match traverseMutList (makerVisitor cx ps m index) xs s1 with
          | (stop, ys, s) => (stop, x :: ys, s)) = _
        rw [this]
        simp only [s1, Nat.add_assoc]

theorem traverseMut_maker (j : Json) (s : MakerState R) :
    traverseMut (makerVisitor cx ps m index) j s =
      if permittedToVisit cx ps j then
        match makerVisit cx ps m index j s with
        | (some n, s) => (true, n, s)
        | (none, s) =>
          match traverseMutList (makerVisitor cx ps m index) j.children
              { s with skip := if permittedToMutateChildren cx ps j then true else s.skip } with
          | (stop, ys, s) => (stop, j.setChildren ys, { s with
              skip := if permittedToMutateChildren cx ps (j.setChildren ys) then false else s.skip })
      else (false, j, s) := by
  have hs : ∀ j (s : MakerState R), (makerVisitor cx ps m index).onStart j s =
      { s with skip := if permittedToMutateChildren cx ps j then true else s.skip } := by
    intro j s; simp only [makerVisitor]; split <;> rfl
  have he : ∀ j (s : MakerState R), (makerVisitor cx ps m index).onEnd j s =
      { s with skip := if permittedToMutateChildren cx ps j then false else s.skip } := by
    intro j s; simp only [makerVisitor]; split <;> rfl
  have h1 : ∀ j (s : MakerState R), (makerVisitor cx ps m index).onEnter j s = s := fun _ _ => rfl
  have h2 : ∀ j (s : MakerState R), (makerVisitor cx ps m index).havePermission j s =
    permittedToVisit cx ps j := fun _ _ => rfl
  have h3 : ∀ j (s : MakerState R), (makerVisitor cx ps m index).visitMut j s =
    makerVisit cx ps m index j s := fun _ _ => rfl
  have h4 : ∀ j (s : MakerState R), (makerVisitor cx ps m index).visitChildren j s = true :=
    fun _ _ => rfl
  have h5 : ∀ j (s : MakerState R), (makerVisitor cx ps m index).onExit j s = s := fun _ _ => rfl
  rw [traverseMut_eq]
  simp only [hs, he, h1, h2, h3, h4, h5, if_true]
  rcases makerVisit cx ps m index j s with ⟨_ | n, s'⟩ <;> rfl

theorem maker_aux (j : Json) : MakerClaim cx ps m index j := by
  induction j using induct with
  | h j ih =>
    intro s hs
    rw [traverseMut_maker, cand_eq]
    by_cases hv : permittedToVisit cx ps j
    · simp only [hv, if_true]
      by_cases hp : ((s.skip || permittedToMutate cx ps j) && m.isMutable j) = true
      · by_cases hi : s.currentIndex = index
        · rw [makerVisit_hit cx ps m index j s hp hi]
          refine ⟨?_, ?_⟩
          · intro p hpp
            simp only [hp, if_true, hi, Nat.sub_self] at hpp
            simp at hpp
            subst hpp
            refine ⟨j, s.skip, rfl, ?_⟩
            have := congrArg Prod.snd (makerHit_with cx m j s s.skip s.currentIndex)
            rw [hi] at this
            subst hi
            simp only [replaceAt, Prod.mk.injEq, true_and]
            exact this
          · intro hle
            simp only [hp, if_true, hi, Nat.sub_self] at hle
            simp at hle
        · rw [makerVisit_pass cx ps m index j s hp hi]
          simp only [hp, if_true]
          obtain ⟨g1, g2⟩ := makerList_aux cx ps m index 0 j.children ih
            { s with currentIndex := s.currentIndex + 1,
                     skip := if permittedToMutateChildren cx ps j then true else s.skip }
            (by simp only; omega)
          simp only at g1 g2
          refine ⟨?_, ?_⟩
          · intro p hpp
            rw [List.getElem?_append_right (by simp; omega)] at hpp
            obtain ⟨d, c, q, n, k, hd, rfl, hn, hx⟩ := g1 p (by
              rw [← hpp]; congr 1)
            rw [hx, makerHit_with]
            refine ⟨n, (if permittedToMutateChildren cx ps
                (j.setChildren (j.children.set d (replaceAt q (makerHit cx m n s).1 c))) then false else k),
              by simp [nodeAt, hd, hn], ?_⟩
            simp only [replaceAt, hd, Nat.zero_add]
          · intro hle
            simp only [List.length_append, List.length_cons, List.length_nil] at hle ⊢
            rw [g2 (by omega)]
            simp only [setChildren_children, Nat.zero_add, Nat.add_assoc]
      · have hp' : ((s.skip || permittedToMutate cx ps j) && m.isMutable j) = false := by simpa using hp
        rw [makerVisit_skip cx ps m index j s hp']
        simp only [hp', Bool.false_eq_true, if_false, List.nil_append]
        obtain ⟨g1, g2⟩ := makerList_aux cx ps m index 0 j.children ih
          { s with skip := if permittedToMutateChildren cx ps j then true else s.skip } hs
        simp only at g1 g2
        refine ⟨?_, ?_⟩
        · intro p hpp
          obtain ⟨d, c, q, n, k, hd, rfl, hn, hx⟩ := g1 p hpp
          rw [hx]
          have e := makerHit_with cx m n s (if permittedToMutateChildren cx ps j then true else s.skip)
            s.currentIndex
          refine ⟨n, (if permittedToMutateChildren cx ps
                (j.setChildren (j.children.set d (replaceAt q (makerHit cx m n s).1 c))) then false else k),
            by simp [nodeAt, hd, hn], ?_⟩
          rw [show ({ s with skip := if permittedToMutateChildren cx ps j then true else s.skip } :
            MakerState R) = { s with skip := if permittedToMutateChildren cx ps j then true else s.skip,
                                     currentIndex := s.currentIndex } from rfl, e]
          simp only [replaceAt, hd, Nat.zero_add]
        · intro hle
          rw [g2 hle]
          simp only [setChildren_children]
    · simp only [hv, Bool.false_eq_true, if_false]
      refine ⟨by simp, by simp⟩

end

end Mutagenyx
