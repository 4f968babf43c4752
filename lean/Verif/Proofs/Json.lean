import Verif.Spec.JsonSpec
import Verif.Proofs.Tree

/-! Lemmas about the JSON accessors. -/

namespace Mutagenyx
namespace Json

/-! ### Pointers made from plain keys -/

theorem splitSlash_plain (cs : List Char) (h : ∀ c ∈ cs, c ≠ '/') : splitSlash cs = [cs] := by
  induction cs with
  | nil => rfl
  | cons c cs ih =>
    simp only [splitSlash]
    rw [if_neg (h c (by simp)), ih (fun d hd => h d (by simp [hd]))]

theorem replaceTilde_plain (d r : Char) (cs : List Char) (h : ∀ c ∈ cs, c ≠ '~') :
    replaceTilde d r cs = cs := by
  induction cs with
  | nil => rfl
  | cons c cs ih =>
    cases cs with
    | nil => rfl
    | cons c' cs =>
      simp only [replaceTilde]
      rw [if_neg (fun hc => h c (by simp) hc.1), ih (fun d hd => h d (by simp_all))]

theorem pointerTokens_plain {k : String} (h : PlainKey k) : pointerTokens (jsonPath k) = some [k] := by
  have : (jsonPath k).toList = '/' :: k.toList := by
    simp only [jsonPath, String.toList_append]; rfl
  unfold pointerTokens
  rw [this]
  simp only
  rw [splitSlash_plain _ (fun c hc => (h c hc).1)]
  simp only [List.map_cons, List.map_nil, unescapeToken]
  rw [replaceTilde_plain '1' '/' _ (fun c hc => (h c hc).2),
    replaceTilde_plain '0' '~' _ (fun c hc => (h c hc).2), String.ofList_toList]

theorem get?_plain {k : String} (h : PlainKey k) (j : Json) : get? k j = step k j := by
  unfold get? pointer
  rw [pointerTokens_plain h]
  simp only [follow]
  cases step k j <;> rfl

theorem get?_obj {k : String} (h : PlainKey k) (kvs : List (String × Json)) :
    get? k (.obj kvs) = objGet k kvs := get?_plain h _

theorem pointerSet_plain {k : String} (h : PlainKey k) (v j : Json) :
    pointerSet (jsonPath k) v j = if (get? k j).isSome then some (stepSet k v j) else none := by
  rw [get?_plain h]
  unfold pointerSet
  rw [pointerTokens_plain h]
  simp only [followSet]
  cases step k j <;> rfl

/-! ### Fields -/

theorem objGet_objReplace (k k' : String) (v : Json) (kvs : List (String × Json)) :
    objGet k' (objReplace k v kvs) =
      if k = k' ∧ (objGet k kvs).isSome then some v else objGet k' kvs := by
  induction kvs with
  | nil => simp [objReplace, objGet]
  | cons kv rest ih =>
    obtain ⟨l, w⟩ := kv
    simp only [objReplace, objGet]
    by_cases hl : l = k
    · subst hl
      by_cases hk : l = k' <;> simp [objGet, hk]
    · simp only [hl, if_false, objGet]
      by_cases hk : l = k'
      · simp [hk, show ¬ k = k' from fun e => hl (hk.trans e.symm)]
      · simp only [hk, if_false, ih]

theorem objGet_objInsert (k k' : String) (v : Json) (kvs : List (String × Json)) :
    objGet k' (objInsert k v kvs) = if k = k' then some v else objGet k' kvs := by
  induction kvs with
  | nil => simp only [objInsert, objGet]
  | cons kv rest ih =>
    obtain ⟨l, w⟩ := kv
    simp only [objInsert]
    by_cases hl : l = k
    · subst hl
      simp only [if_true, objGet]
      by_cases hk : l = k' <;> simp [hk]
    · simp only [hl, if_false]
      by_cases hlt : k < l
      · simp only [hlt, if_true, objGet]
      · simp only [hlt, if_false, objGet, ih]
        by_cases hk : l = k'
        · simp [hk, show ¬ k = k' from fun e => hl (hk.trans e.symm)]
        · simp [hk]

theorem objGet_none_of_lt {k : String} {kvs : List (String × Json)}
    (h : ∀ kv ∈ kvs, k < kv.1) : objGet k kvs = none := by
  induction kvs with
  | nil => rfl
  | cons kv rest ih =>
    obtain ⟨l, w⟩ := kv
    have h1 : k < l := h (l, w) (by simp)
    have : l ≠ k := by rintro rfl; exact String.lt_irrefl _ h1
    simp only [objGet, this, if_false]
    exact ih (fun kv hkv => h kv (by simp [hkv]))

theorem sortedKeys_cons {kv : String × Json} {rest : List (String × Json)} :
    SortedKeys (kv :: rest) ↔ (∀ kv' ∈ rest, kv.1 < kv'.1) ∧ SortedKeys rest := by
  simp [SortedKeys]

theorem objReplace_eq_objInsert {k : String} {v : Json} {kvs : List (String × Json)}
    (hs : SortedKeys kvs) (h : (objGet k kvs).isSome) : objReplace k v kvs = objInsert k v kvs := by
  induction kvs with
  | nil => simp [objGet] at h
  | cons kv rest ih =>
    obtain ⟨l, w⟩ := kv
    obtain ⟨h1, h2⟩ := sortedKeys_cons.1 hs
    simp only [objReplace, objInsert]
    by_cases hl : l = k
    · simp [hl]
    · simp only [hl, if_false]
      simp only [objGet, hl, if_false] at h
      have : ¬ k < l := by
        intro hlt
        rw [objGet_none_of_lt (fun kv hkv => String.lt_trans hlt (h1 kv hkv))] at h
        cases h
      simp only [this, if_false, ih h2 h]

theorem setNodeForKey_obj {k : String} (hk : PlainKey k) (v : Json) {kvs : List (String × Json)}
    (hs : SortedKeys kvs) : setNodeForKey k v (.obj kvs) = .obj (objInsert k v kvs) := by
  unfold setNodeForKey
  rw [pointerSet_plain hk, get?_obj hk]
  by_cases h : (objGet k kvs).isSome
  · simp only [h, if_true, stepSet]
    rw [objReplace_eq_objInsert hs h]
  · simp only [h]; rfl

theorem keys_objReplace (k : String) (v : Json) (kvs : List (String × Json)) :
    (objReplace k v kvs).map Prod.fst = kvs.map Prod.fst := by
  induction kvs with
  | nil => rfl
  | cons kv rest ih =>
    obtain ⟨l, w⟩ := kv
    simp only [objReplace]
    split <;> simp [ih]

theorem sortedKeys_objReplace (k : String) (v : Json) (kvs : List (String × Json)) :
    SortedKeys (objReplace k v kvs) ↔ SortedKeys kvs := by
  unfold SortedKeys; rw [keys_objReplace]

theorem mem_objInsert {k : String} {v : Json} {kvs : List (String × Json)} {kv : String × Json}
    (h : kv ∈ objInsert k v kvs) : kv = (k, v) ∨ kv ∈ kvs := by
  induction kvs with
  | nil => simpa [objInsert] using h
  | cons kv' rest ih =>
    obtain ⟨l, w⟩ := kv'
    simp only [objInsert] at h
    split at h
    · rename_i hl; subst hl
      rcases List.mem_cons.1 h with h | h
      · exact Or.inl h
      · exact Or.inr (by simp [h])
    · split at h
      · rcases List.mem_cons.1 h with h | h
        · exact Or.inl h
        · exact Or.inr h
      · rcases List.mem_cons.1 h with h | h
        · exact Or.inr (by simp [h])
        · rcases ih h with h | h
          · exact Or.inl h
          · exact Or.inr (by simp [h])

theorem sortedKeys_objInsert (k : String) (v : Json) (kvs : List (String × Json))
    (h : SortedKeys kvs) : SortedKeys (objInsert k v kvs) := by
  induction kvs with
  | nil => simp [objInsert, SortedKeys]
  | cons kv rest ih =>
    obtain ⟨l, w⟩ := kv
    obtain ⟨h1, h2⟩ := sortedKeys_cons.1 h
    simp only [objInsert]
    split
    · exact sortedKeys_cons.2 ⟨h1, h2⟩
    · rename_i hne
      split
      · rename_i hlt
        refine sortedKeys_cons.2 ⟨?_, h⟩
        intro kv hkv
        rcases List.mem_cons.1 hkv with rfl | hkv
        · exact hlt
        · exact String.lt_trans hlt (h1 kv hkv)
      · rename_i hlt
        refine sortedKeys_cons.2 ⟨?_, ih h2⟩
        intro kv hkv
        rcases mem_objInsert hkv with rfl | hkv
        · rcases Std.lt_trichotomy l k with h | h | h
          · exact h
          · exact absurd h hne
          · exact absurd h hlt
        · exact h1 kv hkv

/-! ### Well-formedness -/

theorem wfList_iff {xs : List Json} : WFList xs ↔ ∀ x ∈ xs, WF x := by
  induction xs with
  | nil => simp [WFList]
  | cons x xs ih => simp [WFList, ih]

theorem wfFields_iff {kvs : List (String × Json)} : WFFields kvs ↔ ∀ kv ∈ kvs, WF kv.2 := by
  induction kvs with
  | nil => simp [WFFields]
  | cons x xs ih => obtain ⟨k, v⟩ := x; simp [WFFields, ih]

theorem wf_objInsert {k : String} {v : Json} {kvs : List (String × Json)} (hv : WF v)
    (h : WF (.obj kvs)) : WF (.obj (objInsert k v kvs)) := by
  refine ⟨sortedKeys_objInsert k v kvs h.1, wfFields_iff.2 ?_⟩
  intro kv hkv
  rcases mem_objInsert hkv with rfl | hkv
  · exact hv
  · exact wfFields_iff.1 h.2 kv hkv

theorem mem_objReplace {k : String} {v : Json} {kvs : List (String × Json)} {kv : String × Json}
    (h : kv ∈ objReplace k v kvs) : kv = (k, v) ∨ kv ∈ kvs := by
  induction kvs with
  | nil => cases h
  | cons kv' rest ih =>
    obtain ⟨l, w⟩ := kv'
    simp only [objReplace] at h
    split at h
    · rename_i hl; subst hl
      rcases List.mem_cons.1 h with h | h
      · exact Or.inl h
      · exact Or.inr (by simp [h])
    · rcases List.mem_cons.1 h with h | h
      · exact Or.inr (by simp [h])
      · rcases ih h with h | h
        · exact Or.inl h
        · exact Or.inr (by simp [h])

theorem wf_stepSet {k : String} {v j : Json} (hv : WF v) (h : WF j) : WF (stepSet k v j) := by
  cases j with
  | obj kvs =>
    refine ⟨(sortedKeys_objReplace k v kvs).2 h.1, wfFields_iff.2 ?_⟩
    intro kv hkv
    rcases mem_objReplace hkv with rfl | hkv
    · exact hv
    · exact wfFields_iff.1 h.2 kv hkv
  | arr xs =>
    simp only [stepSet]
    split
    · exact wfList_iff.2 (fun x hx => by
        rcases List.mem_or_eq_of_mem_set hx with h' | rfl
        · exact wfList_iff.1 h x h'
        · exact hv)
    · exact h
  | _ => exact h

theorem wf_setNodeForKey {k : String} (hk : PlainKey k) {v j : Json} (hv : WF v) (h : WF j) :
    WF (setNodeForKey k v j) := by
  unfold setNodeForKey
  rw [pointerSet_plain hk]
  by_cases hs : (get? k j).isSome
  · simp only [hs, if_true]; exact wf_stepSet hv h
  · simp only [hs]
    cases j with
    | obj kvs => exact wf_objInsert hv h
    | _ => exact h

theorem mem_of_objGet {k : String} {kvs : List (String × Json)} {v : Json} (h : objGet k kvs = some v) :
    (k, v) ∈ kvs := by
  induction kvs with
  | nil => cases h
  | cons kv rest ih =>
    obtain ⟨l, w⟩ := kv
    simp only [objGet] at h
    split at h
    · rename_i hl; cases h; subst hl; simp
    · exact List.mem_cons_of_mem _ (ih h)

theorem wf_step {k : String} {j v : Json} (h : WF j) (hs : step k j = some v) : WF v := by
  cases j with
  | obj kvs => exact wfFields_iff.1 h.2 _ (mem_of_objGet hs)
  | arr xs =>
    simp only [step] at hs
    split at hs
    · exact wfList_iff.1 h v (List.mem_of_getElem? hs)
    · cases hs
  | _ => cases hs

/-! ### Get and set -/

theorem isObj_iff {j : Json} : IsObj j ↔ ∃ kvs, j = .obj kvs := by cases j <;> simp [IsObj]

theorem get?_field {k : String} (hk : PlainKey k) {j : Json} (hj : IsObj j) : get? k j = field k j := by
  obtain ⟨kvs, rfl⟩ := isObj_iff.1 hj
  exact get?_obj hk kvs

theorem setNodeForKey_isObj {k : String} (hk : PlainKey k) (v : Json) {j : Json} (hj : IsObj j) :
    IsObj (setNodeForKey k v j) := by
  obtain ⟨kvs, rfl⟩ := isObj_iff.1 hj
  unfold setNodeForKey
  rw [pointerSet_plain hk]
  by_cases h : (get? k (.obj kvs)).isSome <;> simp [h, stepSet, IsObj]

/-- Reading any plain key after setting a plain key on an object. -/
theorem get?_setNodeForKey {k k' : String} (hk : PlainKey k) (hk' : PlainKey k') (v : Json) {j : Json}
    (hj : IsObj j) : get? k' (setNodeForKey k v j) = if k = k' then some v else get? k' j := by
  obtain ⟨kvs, rfl⟩ := isObj_iff.1 hj
  unfold setNodeForKey
  rw [pointerSet_plain hk, get?_obj hk]
  by_cases h : (objGet k kvs).isSome
  · simp only [h, if_true, stepSet]
    rw [get?_obj hk', get?_obj hk', objGet_objReplace]
    simp [h]
  · simp only [h]
    simp only [Bool.false_eq_true, if_false]
    rw [get?_obj hk', get?_obj hk', objGet_objInsert]

theorem isObj_of_get?_some {k : String} (hk : PlainKey k) {j v : Json} (h : get? k j = some v) :
    IsObj j ∨ ∃ xs, j = .arr xs := by
  cases j with
  | obj _ => exact Or.inl trivial
  | arr xs => exact Or.inr ⟨xs, rfl⟩
  | _ => rw [get?_plain hk] at h; cases h

/-- A key that is not an array index. -/
theorem isObj_of_get? {k : String} (hk : PlainKey k) (hi : parseIndex k = none) {j v : Json}
    (h : get? k j = some v) : IsObj j := by
  cases j with
  | obj _ => trivial
  | arr xs => rw [get?_plain hk] at h; simp [step, hi] at h
  | _ => rw [get?_plain hk] at h; cases h

theorem takeValueForKey_fst (k : String) (j : Json) : (takeValueForKey k j).1 = get? k j := by
  unfold takeValueForKey
  cases get? k j <;> rfl

theorem takeValueForKey_snd {k : String} (hk : PlainKey k) (j : Json) :
    (takeValueForKey k j).2 = if (get? k j).isSome then stepSet k .null j else j := by
  unfold takeValueForKey
  rw [pointerSet_plain hk]
  cases h : get? k j <;> simp

theorem get?_take {k k' : String} (hk : PlainKey k) (hk' : PlainKey k') {j : Json} (hj : IsObj j) :
    get? k' (takeValueForKey k j).2 =
      if k = k' ∧ (get? k j).isSome then some .null else get? k' j := by
  obtain ⟨kvs, rfl⟩ := isObj_iff.1 hj
  rw [takeValueForKey_snd hk, get?_obj hk, get?_obj hk']
  by_cases h : (objGet k kvs).isSome
  · simp only [h, if_true, stepSet]
    rw [get?_obj hk', objGet_objReplace]
    simp [h]
  · simp [h, get?_obj hk']

/-! ### Finding by id -/

theorem getNodeWithId_eq (idOf : Json → Option Nat) (id : Nat) (j : Json) :
    getNodeWithId idOf id j =
      if idOf j = some id then some j else getNodeWithIdList idOf id j.children := by
  have hf : ∀ kvs, getNodeWithIdFields idOf id kvs = getNodeWithIdList idOf id (kvs.map Prod.snd) := by
    intro kvs
    induction kvs with
    | nil => rfl
    | cons kv rest ih => obtain ⟨k, v⟩ := kv; simp only [getNodeWithIdFields, List.map_cons, getNodeWithIdList, ih]
  cases j <;> simp only [getNodeWithId, children, getNodeWithIdList, hf]

theorem getNodeWithId_find (idOf : Json → Option Nat) (id : Nat) (j : Json) :
    getNodeWithId idOf id j = (preorder j).find? (fun n => idOf n = some id) := by
  induction j using induct with
  | h j ih =>
    rw [getNodeWithId_eq, preorder_eq, List.find?_cons]
    by_cases h : idOf j = some id
    · simp [h]
    · simp only [h, if_false, decide_false]
      have : ∀ xs : List Json, (∀ c ∈ xs, getNodeWithId idOf id c =
          (preorder c).find? (fun n => idOf n = some id)) →
          getNodeWithIdList idOf id xs = (preorderList xs).find? (fun n => idOf n = some id) := by
        intro xs
        induction xs with
        | nil => intro _; rfl
        | cons x xs ihx =>
          intro hx
          simp only [getNodeWithIdList, preorderList, List.find?_append]
          rw [hx x (by simp), ihx (fun c hc => hx c (by simp [hc]))]
          cases (preorder x).find? (fun n => idOf n = some id) <;> rfl
      rw [this _ ih]

theorem modifyNodeWithId_eq (idOf : Json → Option Nat) (id : Nat) (f : Json → Json) (j : Json) :
    modifyNodeWithId idOf id f j =
      if idOf j = some id then some (f j)
      else (modifyNodeWithIdList idOf id f j.children).map (setChildren j) := by
  have hf : ∀ kvs, (modifyNodeWithIdFields idOf id f kvs).map Json.obj =
      (modifyNodeWithIdList idOf id f (kvs.map Prod.snd)).map (setChildren (.obj kvs)) := by
    intro kvs
    have : modifyNodeWithIdFields idOf id f kvs = (modifyNodeWithIdList idOf id f (kvs.map Prod.snd)).map
        (fun cs => List.zipWith (fun kv c => (kv.1, c)) kvs cs) := by
      induction kvs with
      | nil => rfl
      | cons kv rest ih =>
        obtain ⟨k, v⟩ := kv
        simp only [modifyNodeWithIdFields, List.map_cons, modifyNodeWithIdList]
        cases modifyNodeWithId idOf id f v with
        | some r =>
          simp only [Option.map_some, List.zipWith_cons_cons, Option.some.injEq, List.cons.injEq, true_and]
          clear ih
          induction rest with
          | nil => rfl
          | cons a b ih => simp [ih.symm]
        | none =>
          simp only [ih, Option.map_map]
          congr 1
    rw [this, Option.map_map]
    rfl
  cases j with
  | arr xs => simp only [modifyNodeWithId, children]; rfl
  | obj kvs => simp only [modifyNodeWithId, children, hf]
  | _ => simp only [modifyNodeWithId, children, modifyNodeWithIdList, Option.map_none]

/-- Positions in document order up to the first that satisfies a predicate. -/
theorem modifyNodeWithId_spec (idOf : Json → Option Nat) (id : Nat) (f : Json → Json) (j : Json) :
    modifyNodeWithId idOf id f j =
      ((positions j).find? (fun p => (nodeAt p j).any (fun n => idOf n = some id))).bind
        (fun p => (nodeAt p j).map (fun n => replaceAt p (f n) j)) := by
  induction j using induct with
  | h j ih =>
    rw [modifyNodeWithId_eq, positions_eq, List.find?_cons]
    simp only [nodeAt, Option.any_some]
    by_cases h : idOf j = some id
    · simp [h, nodeAt, replaceAt]
    · simp only [h, if_false, decide_false]
      have key : ∀ (xs pre : List Json), j.children = pre ++ xs → (∀ c ∈ xs, modifyNodeWithId idOf id f c =
          ((positions c).find? (fun p => (nodeAt p c).any (fun n => idOf n = some id))).bind
            (fun p => (nodeAt p c).map (fun n => replaceAt p (f n) c))) →
          (modifyNodeWithIdList idOf id f xs).map (fun ys => setChildren j (pre ++ ys)) =
          ((positionsList pre.length xs).find? (fun p => (nodeAt p j).any (fun n => idOf n = some id))).bind
            (fun p => (nodeAt p j).map (fun n => replaceAt p (f n) j)) := by
        intro xs
        induction xs with
        | nil => intros; rfl
        | cons x xs ihx =>
          intro pre hj hx
          have hget : j.children[pre.length]? = some x := by simp [hj]
          simp only [modifyNodeWithIdList, positionsList, List.find?_append, List.find?_map]
          rw [hx x (by simp)]
          have hcomp : ((fun p => (nodeAt p j).any fun n => decide (idOf n = some id)) ∘ fun x => pre.length :: x)
              = (fun p => (nodeAt p x).any fun n => decide (idOf n = some id)) := by
            funext p; simp only [Function.comp, nodeAt, hget]
          rw [hcomp]
          cases hf : (positions x).find? (fun p => (nodeAt p x).any fun n => decide (idOf n = some id)) with
          | some p =>
            have hp := List.find?_some hf
            cases hn : nodeAt p x with
            | none => rw [hn] at hp; cases hp
            | some n =>
              simp only [Option.bind_some, hn, Option.map_some, Option.some_or]
              simp only [nodeAt, hget, hn, Option.map_some, replaceAt]
              rw [hj]
              simp
          | none =>
            simp only [Option.bind_none, Option.map_none, Option.none_or]
            have := ihx (pre ++ [x]) (by simp [hj]) (fun c hc => hx c (by simp [hc]))
            simp only [List.length_append, List.length_singleton, List.append_assoc, List.singleton_append] at this
            rw [← this, Option.map_map]
            rfl
      have := key j.children [] rfl ih
      simpa using this

end Json
end Mutagenyx
