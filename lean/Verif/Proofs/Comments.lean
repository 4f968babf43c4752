import Verif.Model.Comments
import Verif.Spec.Comments
import Verif.Proofs.Json
import Verif.Props.Json

/-! # Lemmas about inserting comments -/

namespace Mutagenyx
open Json

theorem nodeAt_append (q p : Pos) (j : Json) : nodeAt (q ++ p) j = (nodeAt q j).bind (nodeAt p) := by
  induction q generalizing j with
  | nil => rfl
  | cons i q ih =>
    simp only [List.cons_append, nodeAt]
    cases j.children[i]? with
    | none => rfl
    | some c => exact ih c

theorem replaceAt_append {q p : Pos} {j n x : Json} (h : nodeAt q j = some n) :
    replaceAt q (replaceAt p x n) j = replaceAt (q ++ p) x j := by
  induction q generalizing j with
  | nil => cases h; rfl
  | cons i q ih =>
    simp only [nodeAt] at h
    simp only [List.cons_append, replaceAt]
    cases hc : j.children[i]? with
    | none => rfl
    | some c => rw [hc] at h; simp only [ih h]

theorem replaceAt_self {p : Pos} {j n : Json} (h : nodeAt p j = some n) : replaceAt p n j = j := by
  induction p generalizing j with
  | nil => cases h; rfl
  | cons i p ih =>
    simp only [nodeAt] at h
    simp only [replaceAt]
    cases hc : j.children[i]? with
    | none => rfl
    | some c =>
      rw [hc] at h
      simp only
      rw [ih h]
      have : j.children.set i c = j.children := by
        obtain ⟨hi, he⟩ := List.getElem?_eq_some_iff.1 hc
        rw [← he, List.set_getElem_self]
      rw [this, setChildren_children]

/-- A comment added in a part is added in the whole. -/
theorem CommentAdded.lift {lang : Language} {id : Nat} {c ast n n' : Json} {q : Pos}
    (h : CommentAdded lang id c n n') (hq : nodeAt q ast = some n) :
    CommentAdded lang id c ast (replaceAt q n' ast) := by
  cases h with
  | inList p i b pre post s hp hb hx hs hpre =>
    rw [replaceAt_append hq, ← List.append_assoc]
    exact .inList (q ++ p) i b pre post s (by rw [nodeAt_append, hq]; exact hp) hb
      (by rw [List.append_assoc, nodeAt_append, hq]; exact hx) hs hpre
  | atTop p i b xs hl hp hb hi hx =>
    rw [replaceAt_append hq, ← List.append_assoc]
    exact .atTop (q ++ p) i b xs hl (by rw [nodeAt_append, hq]; exact hp) hb hi
      (by rw [List.append_assoc, nodeAt_append, hq]; exact hx)
  | inBlock p i n s t hl hp hi hx ht hb hs =>
    rw [replaceAt_append hq, ← List.append_assoc]
    exact .inBlock (q ++ p) i n s t hl (by rw [nodeAt_append, hq]; exact hp) hi
      (by rw [List.append_assoc, nodeAt_append, hq]; exact hx) ht hb hs

theorem children_of_field {k : String} {kvs : List (String × Json)} {v : Json} (h : objGet k kvs = some v) :
    ∃ i, nodeAt [i] (.obj kvs) = some v ∧ (∀ w, replaceAt [i] w (.obj kvs) = .obj (objReplace k w kvs)) ∧
      (kvs.map Prod.fst)[i]? = some k ∧ ∀ i' < i, (kvs.map Prod.fst)[i']? ≠ some k := by
  suffices hs : ∃ i : Nat, (kvs.map Prod.snd)[i]? = some v ∧
      (∀ w, List.zipWith (fun (kv : String × Json) c => (kv.1, c)) kvs ((kvs.map Prod.snd).set i w) =
        objReplace k w kvs) ∧ (kvs.map Prod.fst)[i]? = some k ∧ ∀ i' < i, (kvs.map Prod.fst)[i']? ≠ some k by
    obtain ⟨i, h1, h2, h3⟩ := hs
    refine ⟨i, ?_, fun w => ?_, h3⟩
    · simp only [nodeAt, children, h1]
    · simp only [replaceAt, children, h1, setChildren, h2]
  induction kvs with
  | nil => cases h
  | cons kv rest ih =>
    obtain ⟨l, x⟩ := kv
    unfold objGet at h
    split at h
    · rename_i hl
      cases h
      refine ⟨0, rfl, fun w => ?_, by simp [hl], by simp⟩
      simp only [List.map_cons, List.set_cons_zero, List.zipWith_cons_cons, objReplace, hl, if_true]
      congr 1
      have := setChildren_children (.obj rest)
      simp only [setChildren, children] at this
      exact Json.obj.inj this
    · rename_i hl
      obtain ⟨i, h1, h2, h3, h4⟩ := ih h
      refine ⟨i + 1, by simpa using h1, fun w => ?_, by simpa using h3, fun i' hi' => ?_⟩
      rotate_left
      · cases i' with
        | zero => simpa using hl
        | succ i' => simpa using h4 i' (by omega)
      simp only [List.map_cons, List.set_cons_succ, List.zipWith_cons_cons, objReplace, hl, if_false]
      rw [h2]

theorem objReplace_objReplace (k : String) (v w : Json) (kvs : List (String × Json)) :
    objReplace k w (objReplace k v kvs) = objReplace k w kvs := by
  induction kvs with
  | nil => rfl
  | cons kv rest ih =>
    obtain ⟨l, x⟩ := kv
    by_cases h : l = k
    · simp [objReplace, h]
    · simp [objReplace, h, ih]

theorem containsId_iff {idOf : Json → Option Nat} {id : Nat} {j : Json} :
    (getNodeWithId idOf id j).isSome ↔ ContainsId idOf id j := by
  rw [Option.isSome_iff_exists, C25_found_iff]; rfl

theorem commentIndex_spec (idOf : Json → Option Nat) (id : Nat) (xs : List Json) :
    (commentIndex idOf id xs = none ∧ ∀ x ∈ xs, ¬ ContainsId idOf id x) ∨
    ∃ pre s post, xs = pre ++ s :: post ∧ ContainsId idOf id s ∧ (∀ x ∈ pre, ¬ ContainsId idOf id x) ∧
      commentIndex idOf id xs = some pre.length := by
  induction xs with
  | nil => exact Or.inl ⟨rfl, by simp⟩
  | cons x xs ih =>
    unfold commentIndex
    by_cases hx : (getNodeWithId idOf id x).isSome
    · right
      exact ⟨[], x, xs, rfl, containsId_iff.1 hx, by simp, by rw [if_pos hx]; rfl⟩
    · rw [if_neg hx]
      rcases ih with ⟨h1, h2⟩ | ⟨pre, s, post, rfl, h2, h3, h4⟩
      · left
        refine ⟨by rw [h1]; rfl, ?_⟩
        intro y hy
        rcases List.mem_cons.1 hy with rfl | hy
        · exact fun h => hx (containsId_iff.2 h)
        · exact h2 y hy
      · right
        refine ⟨x :: pre, s, post, rfl, h2, ?_, by rw [h4]; rfl⟩
        intro y hy
        rcases List.mem_cons.1 hy with rfl | hy
        · exact fun h => hx (containsId_iff.2 h)
        · exact h3 y hy

theorem insertIdx_split (pre : List Json) (c : Json) (post : List Json) :
    (pre ++ post).insertIdx pre.length c = pre ++ c :: post := by
  induction pre with
  | nil => rfl
  | cons x xs ih => simp [ih]

theorem foundInArray_iff {idOf : Json → Option Nat} {id : Nat} {xs : List Json} :
    foundInArray idOf id xs = true ↔ ∃ x ∈ xs, ContainsId idOf id x := by
  unfold foundInArray
  rw [List.any_eq_true]
  constructor
  · rintro ⟨x, hx, h⟩; exact ⟨x, hx, containsId_iff.1 h⟩
  · rintro ⟨x, hx, h⟩; exact ⟨x, hx, containsId_iff.2 h⟩

/-- Inserting in the list of a key: nothing happens, or the comment is added. -/
theorem insertInKey_spec {key : String} (hk : PlainKey key) (hi : parseIndex key = none)
    (lang : Language) {idOf : Json → Option Nat} (hi : nodeIdIn lang = idOf) {t : String} (id : Nat) (c j : Json) (ht : nodeTypeIn lang j = some t)
    (hl : (t, key) ∈ statementLists lang) :
    (foundInKey idOf key id j = false ∧ insertInKey idOf key id c j = (j, false)) ∨
    (foundInKey idOf key id j = true ∧ ∃ j', insertInKey idOf key id c j = (j', true) ∧
      CommentAdded lang id c j j') := by
  subst hi
  unfold foundInKey insertInKey getArrayForKey
  cases hg : get? key j with
  | none => exact Or.inl ⟨rfl, rfl⟩
  | some v =>
    obtain ⟨kvs, rfl⟩ := isObj_iff.1 (isObj_of_get? hk hi hg)
    cases v with
    | arr xs =>
      simp only [Option.bind_some, asArray]
      have hget : objGet key kvs = some (.arr xs) := by rw [← get?_obj hk]; exact hg
      obtain ⟨i, h1, h2, h3, h4⟩ := children_of_field hget
      have hset : ∀ w, (pointerSet (jsonPath key) w (.obj kvs)).getD (.obj kvs) = .obj (objReplace key w kvs) := by
        intro w
        rw [pointerSet_plain hk, hg]; rfl
      rw [hset, insertedInArray]
      rcases commentIndex_spec (nodeIdIn lang) id xs with ⟨hn, hall⟩ | ⟨pre, s, post, rfl, hs, hpre, hidx⟩
      · left
        refine ⟨?_, ?_⟩
        · rw [Bool.eq_false_iff]
          intro h
          obtain ⟨x, hx, hc⟩ := foundInArray_iff.1 h
          exact hall x hx hc
        · rw [hn]
          simp only
          rw [← h2, replaceAt_self h1]
      · right
        have h5 := CommentAdded.inList (lang := lang) (id := id) (c := c) (before := .obj kvs) [] i _ pre post s rfl
          ⟨kvs, t, key, rfl, ht, hl, h3, h4⟩ h1 hs hpre
        rw [List.nil_append] at h5
        refine ⟨foundInArray_iff.2 ⟨s, by simp, hs⟩, _, ?_, h5⟩
        rw [hidx]
        simp only
        rw [insertIdx_split, h2]
    | _ => exact Or.inl ⟨rfl, rfl⟩

/-- The loop over the ancestors leaves the tree alone or changes one ancestor that has the node. -/
theorem insertCommentLoop_spec (cm : Commenting) (id : Nat) (c : Json) (up : List Nat) (ast : Json) :
    ((∀ a ∈ up, ∀ n, getNodeWithId cm.idOf a ast = some n → cm.isMember id n = false) ∧
      insertCommentLoop cm id c up ast = ast) ∨
    ∃ a ∈ up, ∃ p n, getNodeWithId cm.idOf a ast = some n ∧ nodeAt p ast = some n ∧ cm.isMember id n = true ∧
      insertCommentLoop cm id c up ast = replaceAt p (cm.insert id c n) ast := by
  induction up with
  | nil => exact Or.inl ⟨by simp, rfl⟩
  | cons a up ih =>
    unfold insertCommentLoop
    cases hg : getNodeWithId cm.idOf a ast with
    | none =>
      simp only
      rcases ih with ⟨h1, h2⟩ | ⟨b, hb, h⟩
      · refine Or.inl ⟨?_, h2⟩
        intro b hb n hn
        rcases List.mem_cons.1 hb with rfl | hb
        · rw [hg] at hn; cases hn
        · exact h1 b hb n hn
      · exact Or.inr ⟨b, by simp [hb], h⟩
    | some n =>
      simp only
      by_cases hm : cm.isMember id n = true
      · rw [if_pos hm]
        right
        have hfind := getNodeWithId_find cm.idOf a ast
        rw [hg] at hfind
        rcases C25_modify_first cm.idOf a (cm.insert id c) ast with ⟨pre, p, n', post, he, hp, hid, hpre, hmod⟩ | ⟨hno, _⟩
        · have hn : n' = n := by
            have hmap := positions_map_nodeAt ast
            rw [he, List.map_append, List.map_cons, hp] at hmap
            obtain ⟨l1, l2, hl, hl1, hl2⟩ := List.map_eq_append_iff.1 hmap.symm
            cases l2 with
            | nil => cases hl2
            | cons m l2 =>
              simp only [List.map_cons, List.cons.injEq, Option.some.injEq] at hl2
              rw [hl, List.find?_append] at hfind
              have hnone : l1.find? (fun n => decide (cm.idOf n = some a)) = none := by
                rw [List.find?_eq_none]
                intro y hy hya
                have : some y ∈ pre.map (fun p => nodeAt p ast) := by
                  rw [← hl1]; exact List.mem_map.2 ⟨y, hy, rfl⟩
                obtain ⟨q, hq, hqy⟩ := List.mem_map.1 this
                exact hpre q hq y hqy (by simpa using hya)
              rw [hnone, hl2.1] at hfind
              simp [hid] at hfind
              exact hfind.symm
          subst hn
          exact ⟨a, by simp, p, n', hg, hp, hm, by rw [hmod]; rfl⟩
        · obtain ⟨q, m, hq, hid⟩ := (C25_found_iff cm.idOf a ast).1 ⟨n, hg⟩
          exact absurd hid (hno q m hq)
      · rw [if_neg hm]
        rcases ih with ⟨h1, h2⟩ | ⟨b, hb, h⟩
        · refine Or.inl ⟨?_, h2⟩
          intro b hb n' hn
          rcases List.mem_cons.1 hb with rfl | hb
          · rw [hg] at hn; cases hn; simpa using hm
          · exact h1 b hb n' hn
        · exact Or.inr ⟨b, by simp [hb], h⟩

/-- Filling in a key that was taken. -/
theorem set_after_take {key : String} (hk : PlainKey key) {kvs : List (String × Json)} {body : Json}
    (h : objGet key kvs = some body) (w : Json) :
    takeValueForKey key (.obj kvs) = (some body, .obj (objReplace key .null kvs)) ∧
    setNodeForKey key w (.obj (objReplace key .null kvs)) = .obj (objReplace key w kvs) := by
  constructor
  · have hg : get? key (.obj kvs) = some body := by rw [get?_obj hk]; exact h
    unfold takeValueForKey
    rw [hg]
    simp only
    rw [pointerSet_plain hk, hg]
    rfl
  · have hg : get? key (.obj (objReplace key .null kvs)) = some .null := by
      rw [get?_obj hk, objGet_objReplace, h, if_pos ⟨rfl, rfl⟩]
    unfold setNodeForKey
    rw [pointerSet_plain hk, hg]
    simp only [Option.isSome_some, if_true, stepSet, objReplace_objReplace]

end Mutagenyx

namespace Mutagenyx
open Json

/-! ### Removing comments -/

/-- The tree has neither the comment nor a block that looks added. -/
def NoComment (c j : Json) : Prop := c ∉ preorder j ∧ ∀ n ∈ preorder j, unwrapBlock n = n

theorem preorder_child {j x n : Json} (hx : x ∈ j.children) (hn : n ∈ preorder x) : n ∈ preorder j := by
  rw [preorder_eq, preorderList_eq]
  exact List.mem_cons_of_mem _ (List.mem_flatMap.2 ⟨x, hx, hn⟩)

theorem mem_preorder_self (j : Json) : j ∈ preorder j := by rw [preorder_eq]; simp

theorem NoComment.child {c j x : Json} (h : NoComment c j) (hx : x ∈ j.children) : NoComment c x :=
  ⟨fun hc => h.1 (preorder_child hx hc), fun n hn => h.2 n (preorder_child hx hn)⟩

theorem NoComment.ne {c j : Json} (h : NoComment c j) : j ≠ c := fun e => h.1 (e ▸ mem_preorder_self j)

theorem withoutCommentList_same {c : Json} {xs : List Json} (h : ∀ x ∈ xs, x ≠ c ∧ withoutComment c x = x) :
    withoutCommentList c xs = xs := by
  induction xs with
  | nil => rfl
  | cons x xs ih =>
    rw [withoutCommentList, if_neg (h x (by simp)).1, (h x (by simp)).2, ih fun y hy => h y (by simp [hy])]

theorem withoutCommentFields_same {c : Json} {kvs : List (String × Json)}
    (h : ∀ x ∈ kvs.map Prod.snd, withoutComment c x = x) : withoutCommentFields c kvs = kvs := by
  induction kvs with
  | nil => rfl
  | cons kv rest ih =>
    obtain ⟨k, x⟩ := kv
    rw [withoutCommentFields, h x (by simp), ih fun y hy => h y (by simp only [List.map_cons, List.mem_cons]; exact Or.inr hy)]

theorem withoutComment_same {c : Json} (j : Json) : NoComment c j → withoutComment c j = j := by
  induction j using induct with
  | h j ih =>
    intro h
    cases j with
    | arr xs =>
      rw [withoutComment, withoutCommentList_same]
      exact fun x hx => ⟨(h.child hx).ne, ih x hx (h.child hx)⟩
    | obj kvs =>
      rw [withoutComment, withoutCommentFields_same, h.2 _ (mem_preorder_self _)]
      exact fun x hx => ih x hx (h.child hx)
    | _ => rw [withoutComment]

theorem le_sum_of_mem {n : Nat} {l : List Nat} (h : n ∈ l) : n ≤ l.sum := by
  induction l with
  | nil => cases h
  | cons a l ih =>
    rw [List.sum_cons]
    rcases List.mem_cons.1 h with rfl | h
    · omega
    · have := ih h; omega

theorem size_child {j x : Json} (hx : x ∈ j.children) : (preorder x).length < (preorder j).length := by
  rw [preorder_eq j, preorderList_eq, List.length_cons, List.length_flatMap]
  have : (preorder x).length ≤ (j.children.map fun a => (preorder a).length).sum :=
    le_sum_of_mem (List.mem_map.2 ⟨x, hx, rfl⟩)
  omega

theorem size_nodeAt {p : Pos} {j x : Json} (h : nodeAt p j = some x) :
    (preorder x).length ≤ (preorder j).length := by
  induction p generalizing j with
  | nil => cases h; exact Nat.le_refl _
  | cons i p ih =>
    simp only [nodeAt] at h
    cases hc : j.children[i]? with
    | none => rw [hc] at h; cases h
    | some y =>
      rw [hc] at h
      have := ih h
      have := size_child (List.mem_of_getElem? hc)
      omega

theorem withoutCommentList_set {c y : Json} {xs : List Json} {i : Nat} {x : Json}
    (h : ∀ x ∈ xs, x ≠ c ∧ withoutComment c x = x) (hx : xs[i]? = some x) (hy : y ≠ c)
    (hyx : withoutComment c y = x) : withoutCommentList c (xs.set i y) = xs := by
  induction xs generalizing i with
  | nil => cases hx
  | cons a xs ih =>
    cases i with
    | zero =>
      simp only [List.getElem?_cons_zero, Option.some.injEq] at hx
      rw [List.set_cons_zero, withoutCommentList, if_neg hy, hyx, hx,
        withoutCommentList_same fun z hz => h z (by simp [hz])]
    | succ i =>
      simp only [List.getElem?_cons_succ] at hx
      rw [List.set_cons_succ, withoutCommentList, if_neg (h a (by simp)).1, (h a (by simp)).2,
        ih (fun z hz => h z (by simp [hz])) hx]

theorem withoutCommentFields_set {c y : Json} {kvs : List (String × Json)} {i : Nat} {x : Json}
    (h : ∀ x ∈ kvs.map Prod.snd, withoutComment c x = x) (hx : (kvs.map Prod.snd)[i]? = some x)
    (hyx : withoutComment c y = x) :
    withoutCommentFields c (List.zipWith (fun (kv : String × Json) c => (kv.1, c)) kvs
      ((kvs.map Prod.snd).set i y)) = kvs := by
  induction kvs generalizing i with
  | nil => cases hx
  | cons kv rest ih =>
    obtain ⟨k, a⟩ := kv
    have hrest : ∀ x ∈ rest.map Prod.snd, withoutComment c x = x := fun z hz => h z (by
      simp only [List.map_cons, List.mem_cons]; exact Or.inr hz)
    cases i with
    | zero =>
      simp only [List.map_cons, List.getElem?_cons_zero, Option.some.injEq] at hx
      simp only [List.map_cons, List.set_cons_zero, List.zipWith_cons_cons, withoutCommentFields, hyx, hx]
      congr 1
      have := setChildren_children (.obj rest)
      simp only [setChildren, children] at this
      rw [Json.obj.inj this, withoutCommentFields_same hrest]
    | succ i =>
      simp only [List.map_cons, List.getElem?_cons_succ] at hx
      simp only [List.map_cons, List.set_cons_succ, List.zipWith_cons_cons, withoutCommentFields]
      rw [ih hrest hx, h a (by simp)]

theorem withoutComment_replaceAt {c n' : Json} {p : Pos} {ast n : Json} (hf : NoComment c ast)
    (hp : nodeAt p ast = some n) (hn : withoutComment c n' = n)
    (hs : (preorder c).length < (preorder n').length) : withoutComment c (replaceAt p n' ast) = ast := by
  induction p generalizing ast with
  | nil => cases hp; exact hn
  | cons i p ih =>
    simp only [nodeAt] at hp
    simp only [replaceAt]
    cases hc : ast.children[i]? with
    | none => rw [hc] at hp; cases hp
    | some x =>
      rw [hc] at hp
      simp only at hp ⊢
      have hx := List.mem_of_getElem? hc
      have hw := ih (hf.child hx) hp
      have hne : replaceAt p n' x ≠ c := by
        intro e
        have h1 : nodeAt p (replaceAt p n' x) = some n' := nodeAt_replaceAt_self (by rw [hp]; rfl)
        have h2 := size_nodeAt h1
        rw [e] at h2
        omega
      cases ast with
      | arr xs =>
        simp only [setChildren, children] at hc ⊢
        rw [withoutComment, withoutCommentList_set _ hc hne hw]
        exact fun z hz => ⟨(hf.child hz).ne, withoutComment_same z (hf.child hz)⟩
      | obj kvs =>
        simp only [setChildren, children] at hc ⊢
        rw [withoutComment, withoutCommentFields_set _ hc hw, hf.2 _ (mem_preorder_self _)]
        exact fun z hz => withoutComment_same z (hf.child hz)
      | _ => simp [children] at hc

theorem NoComment.at {c : Json} {p : Pos} {j n : Json} (h : NoComment c j) (hp : nodeAt p j = some n) :
    NoComment c n := by
  induction p generalizing j with
  | nil => cases hp; exact h
  | cons i p ih =>
    simp only [nodeAt] at hp
    cases hc : j.children[i]? with
    | none => rw [hc] at hp; cases hp
    | some x =>
      rw [hc] at hp
      exact ih (h.child (List.mem_of_getElem? hc)) hp

theorem withoutCommentList_append (c : Json) (xs ys : List Json) :
    withoutCommentList c (xs ++ ys) = withoutCommentList c xs ++ withoutCommentList c ys := by
  induction xs with
  | nil => rfl
  | cons x xs ih =>
    rw [List.cons_append, withoutCommentList, withoutCommentList, ih]
    split <;> rfl

theorem withoutCommentList_insert {c : Json} {pre post : List Json} (h : NoComment c (.arr (pre ++ post))) :
    withoutComment c (.arr (pre ++ c :: post)) = .arr (pre ++ post) := by
  have hall : ∀ x ∈ pre ++ post, x ≠ c ∧ withoutComment c x = x := fun x hx =>
    ⟨(h.child hx).ne, withoutComment_same x (h.child hx)⟩
  rw [withoutComment, withoutCommentList_append, withoutCommentList, if_pos rfl,
    withoutCommentList_same fun x hx => hall x (by simp [hx]),
    withoutCommentList_same fun x hx => hall x (by simp [hx])]

theorem mem_preorder_of_nodeAt {p : Pos} {j n : Json} (h : nodeAt p j = some n) : n ∈ preorder j := by
  induction p generalizing j with
  | nil => cases h; exact mem_preorder_self _
  | cons i p ih =>
    simp only [nodeAt] at h
    cases hc : j.children[i]? with
    | none => rw [hc] at h; cases h
    | some x =>
      rw [hc] at h
      exact preorder_child (List.mem_of_getElem? hc) (ih h)

theorem replaceAt_children_length {i : Nat} {p : Pos} {x j : Json} :
    (replaceAt (i :: p) x j).children.length = j.children.length := by
  simp only [replaceAt]
  split
  · rw [children_setChildren _ _ (by simp)]; simp
  · rfl

end Mutagenyx
