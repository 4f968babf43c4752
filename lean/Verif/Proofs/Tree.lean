import Verif.Model.Traverse
import Verif.Spec.Tree

/-! Helper lemmas about JSON trees and positions. -/

namespace Mutagenyx
namespace Json

mutual
theorem inductAux {P : Json → Prop} (h : ∀ j, (∀ c ∈ j.children, P c) → P j) : ∀ j, P j
  | .null => h _ (by simp [children])
  | .bool _ => h _ (by simp [children])
  | .num _ => h _ (by simp [children])
  | .str _ => h _ (by simp [children])
  | .arr xs => h _ (by simpa [children] using inductListAux h xs)
  | .obj kvs => h _ (by
      intro c hc
      simp only [children, List.mem_map] at hc
      obtain ⟨kv, hkv, rfl⟩ := hc
      exact inductFieldsAux h kvs kv hkv)
theorem inductListAux {P : Json → Prop} (h : ∀ j, (∀ c ∈ j.children, P c) → P j) :
    ∀ xs : List Json, ∀ c ∈ xs, P c
  | [], c, hc => by cases hc
  | x :: xs, c, hc => by
      rcases List.mem_cons.1 hc with e | hc
      · exact e ▸ inductAux h x
      · exact inductListAux h xs c hc
theorem inductFieldsAux {P : Json → Prop} (h : ∀ j, (∀ c ∈ j.children, P c) → P j) :
    ∀ xs : List (String × Json), ∀ c ∈ xs, P c.2
  | [], c, hc => by cases hc
  | (k, x) :: xs, c, hc => by
      rcases List.mem_cons.1 hc with e | hc
      · exact e ▸ inductAux h x
      · exact inductFieldsAux h xs c hc
end

/-- Induction on trees through their children. -/
@[elab_as_elim]
theorem induct {P : Json → Prop} (j : Json) (h : ∀ j, (∀ c ∈ j.children, P c) → P j) : P j :=
  inductAux h j

theorem positionsFields_eq (i : Nat) (kvs : List (String × Json)) :
    positionsFields i kvs = positionsList i (kvs.map Prod.snd) := by
  induction kvs generalizing i with
  | nil => rfl
  | cons kv kvs ih => obtain ⟨k, v⟩ := kv; simp [positionsFields, positionsList, ih]

theorem positions_eq (j : Json) : positions j = [] :: positionsList 0 j.children := by
  cases j <;> simp [positions, children, positionsList, positionsFields_eq]

theorem preorderFields_eq (kvs : List (String × Json)) :
    preorderFields kvs = preorderList (kvs.map Prod.snd) := by
  induction kvs with
  | nil => rfl
  | cons kv kvs ih => obtain ⟨k, v⟩ := kv; simp [preorderFields, preorderList, ih]

theorem preorder_eq (j : Json) : preorder j = j :: preorderList j.children := by
  cases j <;> simp [preorder, children, preorderList, preorderFields_eq]

theorem preorderList_eq (xs : List Json) : preorderList xs = xs.flatMap preorder := by
  induction xs with
  | nil => rfl
  | cons x xs ih => simp [preorderList, ih]

theorem zipWith_set_fields (kvs : List (String × Json)) (cs : List Json)
    (h : cs.length = kvs.length) :
    (List.zipWith (fun (kv : String × Json) c => (kv.1, c)) kvs cs).map Prod.snd = cs := by
  induction kvs generalizing cs with
  | nil => cases cs <;> simp_all
  | cons kv kvs ih => cases cs with
    | nil => simp at h
    | cons c cs => simp [ih cs (by simpa using h)]

theorem children_setChildren (j : Json) (cs : List Json) (h : cs.length = j.children.length) :
    (setChildren j cs).children = cs := by
  cases j with
  | arr xs => rfl
  | obj kvs => exact zipWith_set_fields kvs cs (by simpa [children] using h)
  | _ => simp [children] at h; simp [setChildren, children, h]

theorem setChildren_children (j : Json) : setChildren j j.children = j := by
  cases j with
  | arr xs => rfl
  | obj kvs =>
    simp only [setChildren, children]
    congr 1
    induction kvs with
    | nil => rfl
    | cons kv kvs ih => simp [ih]
  | _ => rfl

theorem setChildren_setChildren (j : Json) (cs ds : List Json)
    (h : cs.length = j.children.length) :
    setChildren (setChildren j cs) ds = setChildren j ds := by
  cases j with
  | arr xs => rfl
  | obj kvs =>
    simp only [setChildren]
    congr 1
    simp only [children, List.length_map] at h
    induction kvs generalizing cs ds with
    | nil => cases cs <;> simp_all
    | cons kv kvs ih => cases cs with
      | nil => simp at h
      | cons c cs => cases ds with
        | nil => simp
        | cons d ds => simpa using ih cs ds (by simpa using h)
  | _ => rfl

theorem mem_positionsList {q : Pos} {i : Nat} {xs : List Json} :
    q ∈ positionsList i xs ↔ ∃ k c p, xs[k]? = some c ∧ p ∈ positions c ∧ q = (i + k) :: p := by
  induction xs generalizing i with
  | nil => simp [positionsList]
  | cons x xs ih =>
    simp only [positionsList, List.mem_append, List.mem_map, ih]
    constructor
    · rintro (⟨p, hp, rfl⟩ | ⟨k, c, p, hk, hp, rfl⟩)
      · exact ⟨0, x, p, by simp, hp, by simp⟩
      · exact ⟨k + 1, c, p, by simpa using hk, hp, by simp; omega⟩
    · rintro ⟨k, c, p, hk, hp, rfl⟩
      cases k with
      | zero => simp at hk; subst hk; exact Or.inl ⟨p, hp, by simp⟩
      | succ k => exact Or.inr ⟨k, c, p, by simpa using hk, hp, by simp; omega⟩

/-- The positions of a tree are exactly the places that hold a node. -/
theorem mem_positions {p : Pos} {j : Json} : p ∈ positions j ↔ (nodeAt p j).isSome := by
  induction p generalizing j with
  | nil => simp [positions_eq, nodeAt]
  | cons i p ih =>
    rw [positions_eq]
    simp only [List.mem_cons, reduceCtorEq, false_or, mem_positionsList, nodeAt]
    constructor
    · rintro ⟨k, c, q, hk, hq, e⟩
      injection e with e1 e2
      subst e2
      have : i = k := by omega
      subst this
      rw [hk]; exact ih.1 hq
    · intro h
      cases hc : j.children[i]? with
      | none => rw [hc] at h; simp at h
      | some c => rw [hc] at h; exact ⟨i, c, p, hc, ih.2 h, by simp⟩

theorem positionsList_map_nodeAt_aux (i : Nat) (pre xs : List Json)
    (ih : ∀ c ∈ xs, (positions c).map (fun p => nodeAt p c) = (preorder c).map some)
    (j : Json) (hj : j.children = pre ++ xs) (hi : i = pre.length) :
    (positionsList i xs).map (fun p => nodeAt p j) = (preorderList xs).map some := by
  induction xs generalizing i pre with
  | nil => rfl
  | cons x xs ihx =>
    simp only [positionsList, preorderList, List.map_append, List.map_map]
    congr 1
    · rw [← ih x (by simp)]
      apply List.map_congr_left
      intro p _
      subst hi
      simp [nodeAt, hj]
    · apply ihx (i + 1) (pre ++ [x])
      · intro c hc; exact ih c (by simp [hc])
      · simp [hj]
      · simp [hi]

/-- Reading the positions in order gives the nodes in document order. -/
theorem positions_map_nodeAt (j : Json) :
    (positions j).map (fun p => nodeAt p j) = (preorder j).map some := by
  induction j using induct with
  | h j ih =>
    rw [positions_eq, preorder_eq]
    simp only [List.map_cons, nodeAt, List.cons.injEq, true_and]
    exact positionsList_map_nodeAt_aux 0 [] j.children ih j (by simp) rfl

theorem docLt_irrefl (p : Pos) : ¬ docLt p p := by
  induction p with
  | nil => simp [docLt]
  | cons i p ih => simp [docLt, ih]

theorem docLt_trans {p q r : Pos} (h1 : docLt p q) (h2 : docLt q r) : docLt p r := by
  induction p generalizing q r with
  | nil => cases q with
    | nil => exact h2
    | cons a q => cases r with
      | nil => simp [docLt] at h2
      | cons b r => simp [docLt]
  | cons i p ih => cases q with
    | nil => simp [docLt] at h1
    | cons a q => cases r with
      | nil => simp [docLt] at h2
      | cons b r =>
        simp only [docLt] at *
        rcases h1 with h1 | ⟨rfl, h1⟩
        · rcases h2 with h2 | ⟨rfl, h2⟩
          · left; omega
          · left; exact h1
        · rcases h2 with h2 | ⟨rfl, h2⟩
          · left; exact h2
          · right; exact ⟨rfl, ih h1 h2⟩

theorem positionsList_pairwise (i : Nat) (xs : List Json)
    (ih : ∀ c ∈ xs, (positions c).Pairwise docLt) : (positionsList i xs).Pairwise docLt := by
  induction xs generalizing i with
  | nil => exact List.Pairwise.nil
  | cons x xs ihx =>
    simp only [positionsList]
    rw [List.pairwise_append]
    refine ⟨?_, ihx (i + 1) (fun c hc => ih c (by simp [hc])), ?_⟩
    · rw [List.pairwise_map]
      exact (ih x (by simp)).imp (fun h => by simp [docLt, h])
    · intro p hp q hq
      simp only [List.mem_map] at hp
      obtain ⟨p, _, rfl⟩ := hp
      obtain ⟨k, c, r, _, _, rfl⟩ := mem_positionsList.1 hq
      simp only [docLt]; left; omega

/-- The positions of a tree are listed in document order, without repeats. -/
theorem positions_pairwise (j : Json) : (positions j).Pairwise docLt := by
  induction j using induct with
  | h j ih =>
    rw [positions_eq]
    refine List.pairwise_cons.2 ⟨?_, positionsList_pairwise 0 _ ih⟩
    intro p hp
    obtain ⟨k, c, r, _, _, rfl⟩ := mem_positionsList.1 hp
    simp [docLt]

theorem positions_nodup (j : Json) : (positions j).Nodup := by
  refine (positions_pairwise j).imp ?_
  intro a b h e
  subst e
  exact docLt_irrefl _ h

theorem nodeAt_replaceAt_self {p : Pos} {x j : Json} (h : (nodeAt p j).isSome) :
    nodeAt p (replaceAt p x j) = some x := by
  induction p generalizing j with
  | nil => rfl
  | cons i p ih =>
    simp only [nodeAt] at h
    cases hc : j.children[i]? with
    | none => rw [hc] at h; simp at h
    | some c =>
      rw [hc] at h
      simp only [replaceAt, hc, nodeAt]
      have hi : i < j.children.length := (List.getElem?_eq_some_iff.1 hc).1
      rw [children_setChildren _ _ (by simp)]
      simp [hi, ih h]

end Json

/-! ### `traverse` through `children` -/

section
variable {S : Type}

theorem traverseFields_eq (v : Visitor S) (kvs : List (String × Json)) (s : S) :
    traverseFields v kvs s = traverseList v (kvs.map Prod.snd) s := by
  induction kvs generalizing s with
  | nil => rfl
  | cons kv kvs ih => obtain ⟨k, x⟩ := kv; simp only [traverseFields, traverseList, List.map_cons, ih]

theorem traverse_eq (v : Visitor S) (j : Json) (s : S) :
    traverse v j s =
      (let s := v.onEnter j s
       if v.havePermission j s then
         let r := v.visit j s
         if r.1 then (true, v.onExit j r.2)
         else if v.visitChildren j r.2 then
           let c := traverseList v j.children (v.onStart j r.2)
           (c.1, v.onExit j (v.onEnd j c.2))
         else (false, v.onExit j r.2)
       else (false, v.onExit j s)) := by
  cases j <;> simp only [traverse, traverseLeaf, Json.children, traverseList, traverseFields_eq]

theorem traverseMutFields_eq (v : VisitorMut S) (kvs : List (String × Json)) (s : S) :
    traverseMutFields v kvs s =
      (let r := traverseMutList v (kvs.map Prod.snd) s
       (r.1, List.zipWith (fun kv c => (kv.1, c)) kvs r.2.1, r.2.2)) := by
  induction kvs generalizing s with
  | nil => rfl
  | cons kv kvs ih =>
    obtain ⟨k, x⟩ := kv
    simp only [traverseMutFields, traverseMutList, List.map_cons]
    rcases traverseMut v x s with ⟨b, y, s'⟩
    cases b with
    | true =>
      simp only [List.zipWith_cons_cons, Prod.mk.injEq, List.cons.injEq, true_and, and_true]
      clear ih
      induction kvs with
      | nil => rfl
      | cons kv kvs ih => simp [← ih]
    | false => simp only [ih]; rfl

theorem traverseMut_eq (v : VisitorMut S) (j : Json) (s : S) :
    traverseMut v j s =
      (let s := v.onEnter j s
       if v.havePermission j s then
         match v.visitMut j s with
         | (some n, s) => (true, n, v.onExit n s)
         | (none, s) =>
           if v.visitChildren j s then
             match traverseMutList v j.children (v.onStart j s) with
             | (stop, ys, s) =>
               (stop, j.setChildren ys, v.onExit (j.setChildren ys) (v.onEnd (j.setChildren ys) s))
           else (false, j, v.onExit j s)
       else (false, j, v.onExit j s)) := by
  cases j <;>
    simp only [traverseMut, traverseMutLeaf, Json.children, traverseMutList, traverseMutFields_eq,
      Json.setChildren] <;> rfl

end

end Mutagenyx
