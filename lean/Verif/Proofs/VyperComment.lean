import Verif.Proofs.VyperChange
import Verif.Spec.VyperMutation

/-!
# Comments in a tree and in the program that it stands for

A comment is added to a list of statements.  If the list is part of the program, the program has a new comment.  If it is in
a field that holds no part of the program, the program stays the same.
-/

namespace Mutagenyx
namespace VyPrint
open VyGrammar Json

/-! ### Changes that are not in the program -/

/-- The types of nodes with statements in them. -/
def holders : List String := ["Module", "FunctionDef", "For", "If"]

/-- The second tree is the first one with something else for a node with statements in it. -/
inductive Loose : Json → Json → Prop
  | hole {t n x} : t ∈ holders → IsA t n → IsA t x → Loose n x
  | arr {xs : List Json} {i : Nat} {v v'} : xs[i]? = some v → Loose v v' → Loose (.arr xs) (.arr (xs.set i v'))
  | obj {k v v' j j'} : Json.field? k j = some v → Loose v v' → Sets k v' j j' → Loose j j'
  | same {j j'} : IsObj j → IsObj j' → (∀ k, Json.field? k j' = Json.field? k j) → Loose j j'

/-- The second tree is the first one with something else for a node that is not part of the program. -/
inductive Like : Json → Json → Prop
  | refl {j} : Like j j
  | arr {xs : List Json} {i : Nat} {v v'} : xs[i]? = some v → Like v v' → Like (.arr xs) (.arr (xs.set i v'))
  | obj {k v v' j j'} : Json.field? k j = some v → Loose v v' → (∀ t, IsA t j → k ∈ partsOf t → Like v v') →
      Sets k v' j j' → Like j j'
  | same {j j'} : IsObj j → IsObj j' → (∀ k, Json.field? k j' = Json.field? k j) → Like j j'

theorem isA_isObj {t : String} {j : Json} (h : IsA t j) : IsObj j := by
  obtain ⟨kvs, rfl⟩ := isA_obj h
  exact isObj_iff.2 ⟨kvs, rfl⟩

/-- Objects and arrays. -/
def Cont : Json → Bool
  | .obj _ => true
  | .arr _ => true
  | _ => false

theorem cont_obj {j : Json} (h : IsObj j) : Cont j = true := by
  obtain ⟨kvs, rfl⟩ := isObj_iff.1 h
  rfl

theorem Loose.cont {v v' : Json} (h : Loose v v') : Cont v = true ∧ Cont v' = true := by
  cases h with
  | hole _ h1 h2 => exact ⟨cont_obj (isA_isObj h1), cont_obj (isA_isObj h2)⟩
  | arr => exact ⟨rfl, rfl⟩
  | obj _ _ h => exact ⟨cont_obj h.1, cont_obj h.2.1⟩
  | same h1 h2 => exact ⟨cont_obj h1, cont_obj h2⟩

theorem field?_of_str {k s : String} (hk : PlainKey k) {j : Json} (hj : IsObj j) :
    getStrForKey k j = some s ↔ Json.field? k j = some (.str s) := by
  unfold getStrForKey
  rw [get?_field? hk hj]
  cases Json.field? k j with
  | none => simp
  | some v => cases v <;> simp [asStr]

theorem Loose.str {j j' : Json} {t k s : String} (h : Loose j j') (hk : PlainKey k) (ht : IsA t j) (hnot : t ∉ holders)
    (hs : getStrForKey k j = some s) : getStrForKey k j' = some s := by
  cases h with
  | hole h1 h2 _ => rw [isA_unique ht h2] at hnot; exact absurd h1 hnot
  | arr => exact (isA_arr ht).elim
  | @obj k0 v v' _ _ h1 h2 h3 =>
    rw [field?_of_str hk h3.1] at hs
    rw [field?_of_str hk h3.2.1]
    by_cases hkk : k = k0
    · subst hkk
      rw [h1] at hs
      cases hs
      cases h2.cont.1
    · rw [h3.other hkk]; exact hs
  | same h1 h2 h3 =>
    rw [field?_of_str hk h1] at hs
    rw [field?_of_str hk h2, h3]
    exact hs

theorem Loose.isA {j j' : Json} {t : String} (h : Loose j j') (ht : IsA t j) : IsA t j' := by
  by_cases hnot : t ∈ holders
  · cases h with
    | hole h1 h2 h3 => rw [isA_unique ht h2]; exact h3
    | arr => exact (isA_arr ht).elim
    | @obj k0 v v' _ _ h1 h2 h3 =>
      refine h3.isA ?_ ht
      rintro rfl
      have := (field?_of_str (by decide) h3.1).1 ht
      rw [h1] at this
      cases this
      cases h2.cont.1
    | same h1 h2 h3 =>
      show getStrForKey _ _ = _
      rw [field?_of_str (by decide) h2, h3]
      exact (field?_of_str (by decide) h1).1 ht
  · exact h.str (by decide) ht hnot ht

section
variable {j j' : Json} {t : String}

theorem Like.isObj (h : Like j j') (hj : IsObj j) : IsObj j' := by
  cases h with
  | refl => exact hj
  | arr => obtain ⟨kvs, hk⟩ := isObj_iff.1 hj; cases hk
  | obj _ _ _ h => exact h.2.1
  | same _ h => exact h

/-- Fields that are no objects and no arrays stay. -/
theorem Like.scalar (h : Like j j') (hj : IsObj j) {k : String} {v : Json} (hf : Json.field? k j = some v) (hv : Cont v = false) :
    Json.field? k j' = some v := by
  cases h with
  | refl => exact hf
  | arr => obtain ⟨kvs, hk⟩ := isObj_iff.1 hj; cases hk
  | @obj k0 w w' _ _ h1 h2 _ h3 =>
    by_cases hkk : k = k0
    · subst hkk
      rw [h1] at hf
      cases hf
      rw [h2.cont.1] at hv
      cases hv
    · rw [h3.other hkk]; exact hf
  | same _ _ h => rw [h]; exact hf

/-- Fields that are missing stay missing. -/
theorem Like.missing (h : Like j j') (hj : IsObj j) {k : String} (hf : Json.field? k j = none) : Json.field? k j' = none := by
  cases h with
  | refl => exact hf
  | arr => obtain ⟨kvs, hk⟩ := isObj_iff.1 hj; cases hk
  | @obj k0 w w' _ _ h1 h2 _ h3 =>
    by_cases hkk : k = k0
    · subst hkk
      rw [h1] at hf
      cases hf
    · rw [h3.other hkk]; exact hf
  | same _ _ h => rw [h]; exact hf

/-- Objects and arrays stay objects and arrays. -/
theorem Like.loose (h : Like j j') (hj : IsObj j) {k : String} {v : Json} (hf : Json.field? k j = some v) :
    ∃ v', Json.field? k j' = some v' ∧ (v' = v ∨ Loose v v') := by
  cases h with
  | refl => exact ⟨v, hf, .inl rfl⟩
  | arr => obtain ⟨kvs, hk⟩ := isObj_iff.1 hj; cases hk
  | @obj k0 w w' _ _ h1 h2 _ h3 =>
    by_cases hkk : k = k0
    · subst hkk
      rw [h1] at hf
      cases hf
      exact ⟨_, h3.field, .inr h2⟩
    · exact ⟨v, by rw [h3.other hkk]; exact hf, .inl rfl⟩
  | same _ _ h => exact ⟨v, by rw [h]; exact hf, .inl rfl⟩

/-- Parts of the program are like before. -/
theorem Like.part (h : Like j j') (ht : IsA t j) {k : String} (hk : k ∈ partsOf t) {v : Json} (hf : Json.field? k j = some v) :
    ∃ v', Json.field? k j' = some v' ∧ Like v v' := by
  cases h with
  | refl => exact ⟨v, hf, .refl⟩
  | arr => exact (isA_arr ht).elim
  | @obj k0 w w' _ _ h1 h2 h4 h3 =>
    by_cases hkk : k = k0
    · subst hkk
      rw [h1] at hf
      cases hf
      exact ⟨_, h3.field, h4 t ht hk⟩
    · exact ⟨v, by rw [h3.other hkk]; exact hf, .refl⟩
  | same _ _ h => exact ⟨v, by rw [h]; exact hf, .refl⟩

theorem Like.str (h : Like j j') (hj : IsObj j) {k s : String} (hk : PlainKey k) (hs : getStrForKey k j = some s) :
    getStrForKey k j' = some s := by
  rw [field?_of_str hk hj] at hs
  rw [field?_of_str hk (h.isObj hj)]
  exact h.scalar hj hs rfl

theorem Like.isA (h : Like j j') (ht : IsA t j) : IsA t j' := h.str (isA_isObj ht) (by decide) ht

/-- What is read from a field that is no object or array. -/
theorem Like.read {α : Type} (h : Like j j') (hj : IsObj j) {k : String} (hk : PlainKey k) (f : Json → Option α)
    (hc : ∀ v, Cont v = true → f v = none) : (get? k j').bind f = (get? k j).bind f := by
  rw [get?_field? hk hj, get?_field? hk (h.isObj hj)]
  cases hf : Json.field? k j with
  | none => rw [h.missing hj hf]
  | some v =>
    cases hv : Cont v with
    | false => rw [h.scalar hj hf hv]
    | true =>
      obtain ⟨v', h1, h2⟩ := h.loose hj hf
      rw [h1]
      simp only [Option.bind_some]
      rcases h2 with rfl | h2
      · rfl
      · rw [hc _ h2.cont.1, hc _ h2.cont.2]

theorem Like.flag (h : Like j j') (hj : IsObj j) {k : String} (hk : PlainKey k) : VyGrammar.flag k j' = VyGrammar.flag k j := by
  unfold VyGrammar.flag getBoolForKey
  rw [h.read hj hk asBool]
  intro v hv
  cases v <;> first | rfl | cases hv

theorem Like.int (h : Like j j') (hj : IsObj j) {k : String} (hk : PlainKey k) : getIntForKey k j' = getIntForKey k j := by
  unfold getIntForKey
  rw [h.read hj hk asI64]
  intro v hv
  cases v <;> first | rfl | cases hv

theorem Like.strEq (h : Like j j') (hj : IsObj j) {k : String} (hk : PlainKey k) : getStrForKey k j' = getStrForKey k j := by
  unfold getStrForKey
  rw [h.read hj hk asStr]
  intro v hv
  cases v <;> first | rfl | cases hv

theorem Like.typed (h : Like j j') (hj : IsObj j) {k u : String} (hx : ∃ x, Json.field? k j = some x ∧ IsA u x) :
    ∃ x, Json.field? k j' = some x ∧ IsA u x := by
  obtain ⟨x, hf, hu⟩ := hx
  obtain ⟨x', h1, h2⟩ := h.loose hj hf
  rcases h2 with rfl | h2
  · exact ⟨_, h1, hu⟩
  · exact ⟨_, h1, h2.isA hu⟩

theorem Like.absent (h : Like j j') (hj : IsObj j) {k : String} (hx : Absent k j) : Absent k j' := by
  rcases hx with hx | hx
  · exact .inl (h.missing hj hx)
  · exact .inr (h.scalar hj hx rfl)

/-- Arrays stay arrays of the same length with elements like before. -/
theorem Like.elements {xs : List Json} {v : Json} (h : Like (.arr xs) v) : v = .arr xs ∨ ∃ i a a', xs[i]? = some a ∧ Like a a' ∧
    v = .arr (xs.set i a') := by
  cases h with
  | refl => exact .inl rfl
  | arr h1 h2 => exact .inr ⟨_, _, _, h1, h2, rfl⟩
  | obj _ _ _ h => obtain ⟨kvs, hk⟩ := isObj_iff.1 h.1; cases hk
  | same h => obtain ⟨kvs, hk⟩ := isObj_iff.1 h; cases hk
end

/-- The elements are like before, one by one. -/
inductive LikeAll : List Json → List Json → Prop
  | nil : LikeAll [] []
  | cons {x y xs ys} : Like x y → LikeAll xs ys → LikeAll (x :: xs) (y :: ys)

theorem LikeAll.refl : (xs : List Json) → LikeAll xs xs
  | [] => .nil
  | _ :: xs => .cons .refl (LikeAll.refl xs)

theorem LikeAll.set : {xs : List Json} → {i : Nat} → {a a' : Json} → xs[i]? = some a → Like a a' → LikeAll xs (xs.set i a')
  | [], _, _, _, h, _ => by simp at h
  | x :: xs, 0, _, _, h, h2 => by
    simp only [List.getElem?_cons_zero, Option.some.injEq] at h
    subst h
    exact .cons h2 (LikeAll.refl xs)
  | x :: xs, i + 1, _, _, h, h2 => .cons .refl (LikeAll.set (by simpa using h) h2)

theorem Like.all {xs : List Json} {v : Json} (h : Like (.arr xs) v) : ∃ ys, v = .arr ys ∧ LikeAll xs ys := by
  rcases h.elements with rfl | ⟨i, a, a', h1, h2, rfl⟩
  · exact ⟨xs, rfl, .refl xs⟩
  · exact ⟨_, rfl, .set h1 h2⟩

theorem LikeAll.append {a b c d : List Json} (h : LikeAll a c) (h2 : LikeAll b d) : LikeAll (a ++ b) (c ++ d) := by
  induction h with
  | nil => exact h2
  | cons hx _ ih => exact .cons hx ih

theorem LikeAll.length_eq {xs ys : List Json} (h : LikeAll xs ys) : ys.length = xs.length := by
  induction h with
  | nil => rfl
  | cons _ _ ih => simp [ih]

/-- The array in a field of the program. -/
theorem Like.array {j j' : Json} {t : String} (h : Like j j') (ht : IsA t j) {k : String} (hk : k ∈ partsOf t) {xs : List Json}
    (hf : Json.field? k j = some (.arr xs)) : ∃ ys, Json.field? k j' = some (.arr ys) ∧ LikeAll xs ys := by
  obtain ⟨v', h1, h2⟩ := h.part ht hk hf
  obtain ⟨ys, rfl, h3⟩ := h2.all
  exact ⟨ys, h1, h3⟩

/-! ### What such a tree stands for -/

mutual
theorem shows_like : (e : Expr) → {j j' : Json} → Like j j' → Shows e j → Shows e j'
  | .leaf t, j, j', hl, h => by
    simp only [Shows] at h ⊢
    rcases h with ⟨ht, h⟩ | ⟨ht, h⟩ | ⟨ht, m, h1, h2⟩ | ⟨ht, b, h1, h2⟩
    · exact .inl ⟨hl.isA ht, hl.str (isA_isObj ht) (by decide) h⟩
    · refine .inr (.inl ⟨ht.imp hl.isA hl.isA, ?_⟩)
      rcases ht with ht | ht
      · exact hl.str (isA_isObj ht) (by decide) h
      · exact hl.str (isA_isObj ht) (by decide) h
    · exact .inr (.inr (.inl ⟨hl.isA ht, m, by rw [hl.int (isA_isObj ht) (by decide)]; exact h1, h2⟩))
    · exact .inr (.inr (.inr ⟨hl.isA ht, b, hl.scalar (isA_isObj ht) h1 rfl, h2⟩))
  | .str t, j, j', hl, h => by
    simp only [Shows] at h ⊢
    exact ⟨hl.isA h.1, hl.str (isA_isObj h.1) (by decide) h.2⟩
  | .attr e id, j, j', hl, h => by
    simp only [Shows] at h ⊢
    obtain ⟨ht, hid, v, hv, he⟩ := h
    obtain ⟨v', h1, h2⟩ := hl.part ht (by decide) hv
    exact ⟨hl.isA ht, hl.str (isA_isObj ht) (by decide) hid, v', h1, shows_like e h2 he⟩
  | .index e is, j, j', hl, h => by
    simp only [Shows] at h ⊢
    obtain ⟨ht, ⟨v, hv, he⟩, x, hx, hix, y, hy, his⟩ := h
    obtain ⟨v', h1, h2⟩ := hl.part ht (by decide) hv
    obtain ⟨x', h3, h4⟩ := hl.part ht (by decide) hx
    obtain ⟨y', h5, h6⟩ := h4.part hix (by decide) hy
    refine ⟨hl.isA ht, ⟨v', h1, shows_like e h2 he⟩, x', h3, h4.isA hix, y', h5, ?_⟩
    rcases his with ⟨hty, vs, hvs, his⟩ | his
    · obtain ⟨ws, h7, h8⟩ := h6.array hty (by decide) hvs
      exact .inl ⟨h6.isA hty, ws, h7, showAll_like is h8 his⟩
    · exact .inr (showAll_like is (.cons h6 .nil) his)
  | .call f args, j, j', hl, h => by
    simp only [Shows] at h ⊢
    obtain ⟨ht, ⟨v, hv, he⟩, vs, ks, hvs, hks, hno, hall⟩ := h
    obtain ⟨v', h1, h2⟩ := hl.part ht (by decide) hv
    obtain ⟨vs', h3, h4⟩ := hl.array ht (by decide) hvs
    obtain ⟨ks', h5, h6⟩ := hl.array ht (by decide) hks
    refine ⟨hl.isA ht, ⟨v', h1, shows_like f h2 he⟩, vs', ks', h3, h5, ?_, showAll_like args (h4.append h6) hall⟩
    rcases hno with h | rfl
    · left
      rintro rfl
      exact h (List.length_eq_zero_iff.1 h4.length_eq.symm)
    · right
      exact List.length_eq_zero_iff.1 h6.length_eq
  | .list es, j, j', hl, h => by
    simp only [Shows] at h ⊢
    obtain ⟨ht, vs, hvs, hall⟩ := h
    obtain ⟨vs', h3, h4⟩ := hl.array ht (by decide) hvs
    exact ⟨hl.isA ht, vs', h3, showAll_like es h4 hall⟩
  | .dict es, j, j', hl, h => by
    simp only [Shows] at h ⊢
    obtain ⟨ht, ks, vs, hks, hvs, hall⟩ := h
    obtain ⟨ks', h1, h2⟩ := hl.array ht (by decide) hks
    obtain ⟨vs', h3, h4⟩ := hl.array ht (by decide) hvs
    exact ⟨hl.isA ht, ks', vs', h1, h3, showEntries_like es h2 h4 hall⟩
  | .named x e, j, j', hl, h => by
    simp only [Shows] at h ⊢
    obtain ⟨ht, hid, v, hv, he⟩ := h
    obtain ⟨v', h1, h2⟩ := hl.part ht (by decide) hv
    exact ⟨hl.isA ht, hl.str (isA_isObj ht) (by decide) hid, v', h1, shows_like e h2 he⟩
  | .entry _ _, j, j', hl, h => by simp only [Shows] at h
  | .bin l o r, j, j', hl, h => by
    simp only [Shows] at h ⊢
    obtain ⟨hop, h⟩ := h
    by_cases ho : o.isBool = true
    · simp only [ho, if_true] at h ⊢
      obtain ⟨ht, a, b, hab, ha, hb⟩ := h
      obtain ⟨vs', h3, h4⟩ := hl.array ht (by decide) hab
      cases h4 with
      | cons h5 h6 =>
        cases h6 with
        | cons h7 h8 =>
          cases h8
          exact ⟨hl.typed (isA_isObj ht) hop, hl.isA ht, _, _, h3, shows_like l h5 ha, shows_like r h7 hb⟩
    · simp only [ho] at h ⊢
      obtain ⟨ht, ⟨a, ha, hla⟩, b, hb, hrb⟩ := h
      have hobj : IsObj j := by rcases ht with ht | ht <;> exact isA_isObj ht
      have hpart : ∀ {k v}, k ∈ ["left", "right"] → Json.field? k j = some v → ∃ v', Json.field? k j' = some v' ∧ Like v v' := by
        intro k v hk hv
        rcases ht with ht | ht
        · exact hl.part ht (by rw [show partsOf "BinOp" = ["left", "right"] from by decide]; exact hk) hv
        · exact hl.part ht (by rw [show partsOf "Compare" = ["left", "right"] from by decide]; exact hk) hv
      obtain ⟨a', h1, h2⟩ := hpart (by decide) ha
      obtain ⟨b', h3, h4⟩ := hpart (by decide) hb
      exact ⟨hl.typed hobj hop, ht.imp hl.isA hl.isA, ⟨a', h1, shows_like l h2 hla⟩, b', h3, shows_like r h4 hrb⟩
  | .not e, j, j', hl, h => by
    simp only [Shows] at h ⊢
    obtain ⟨ht, hop, v, hv, he⟩ := h
    obtain ⟨v', h1, h2⟩ := hl.part ht (by decide) hv
    exact ⟨hl.isA ht, hl.typed (isA_isObj ht) hop, v', h1, shows_like e h2 he⟩
  | .inv e, j, j', hl, h => by
    simp only [Shows] at h ⊢
    obtain ⟨ht, hop, v, hv, he⟩ := h
    obtain ⟨v', h1, h2⟩ := hl.part ht (by decide) hv
    exact ⟨hl.isA ht, hl.typed (isA_isObj ht) hop, v', h1, shows_like e h2 he⟩
  | .neg e, j, j', hl, h => by
    simp only [Shows] at h ⊢
    rcases h with ⟨ht, n, h1, h2⟩ | ⟨ht, t, h1, h2⟩
    · exact .inl ⟨hl.isA ht, n, by rw [hl.int (isA_isObj ht) (by decide)]; exact h1, h2⟩
    · exact .inr ⟨hl.isA ht, t, hl.str (isA_isObj ht) (by decide) h1, h2⟩
theorem showAll_like : (es : List Expr) → {xs ys : List Json} → LikeAll xs ys → ShowAll es xs → ShowAll es ys
  | [], _, _, .nil, _ => by simp [ShowAll]
  | [], _, _, .cons _ _, h => by simp [ShowAll] at h
  | _ :: _, _, _, .nil, h => by simp [ShowAll] at h
  | e :: es, _, _, .cons h1 h2, h => by
    simp only [ShowAll] at h ⊢
    exact ⟨shows_like e h1 h.1, showAll_like es h2 h.2⟩
theorem showEntries_like : (es : List Expr) → {ks ks' vs vs' : List Json} → LikeAll ks ks' → LikeAll vs vs' →
    ShowEntries es ks vs → ShowEntries es ks' vs'
  | [], _, _, _, _, .nil, .nil, _ => by simp [ShowEntries]
  | [], _, _, _, _, .nil, .cons _ _, h => by simp [ShowEntries] at h
  | [], _, _, _, _, .cons _ _, _, h => by simp [ShowEntries] at h
  | .entry k v :: es, _, _, _, _, .cons h1 h2, .cons h3 h4, h => by
    simp only [ShowEntries] at h ⊢
    exact ⟨shows_like k h1 h.1, shows_like v h3 h.2.1, showEntries_like es h2 h4 h.2.2⟩
  | .entry _ _ :: _, _, _, _, _, .nil, .nil, h => by simp [ShowEntries] at h
  | .entry _ _ :: _, _, _, _, _, .nil, .cons _ _, h => by simp [ShowEntries] at h
  | .entry _ _ :: _, _, _, _, _, .cons _ _, .nil, h => by simp [ShowEntries] at h
  | .leaf _ :: _, _, _, _, _, _, _, h => by simp [ShowEntries] at h
  | .str _ :: _, _, _, _, _, _, _, h => by simp [ShowEntries] at h
  | .attr _ _ :: _, _, _, _, _, _, _, h => by simp [ShowEntries] at h
  | .index _ _ :: _, _, _, _, _, _, _, h => by simp [ShowEntries] at h
  | .call _ _ :: _, _, _, _, _, _, _, h => by simp [ShowEntries] at h
  | .list _ :: _, _, _, _, _, _, _, h => by simp [ShowEntries] at h
  | .dict _ :: _, _, _, _, _, _, _, h => by simp [ShowEntries] at h
  | .named _ _ :: _, _, _, _, _, _, _, h => by simp [ShowEntries] at h
  | .bin _ _ _ :: _, _, _, _, _, _, _, h => by simp [ShowEntries] at h
  | .not _ :: _, _, _, _, _, _, _, h => by simp [ShowEntries] at h
  | .inv _ :: _, _, _, _, _, _, _, h => by simp [ShowEntries] at h
  | .neg _ :: _, _, _, _, _, _, _, h => by simp [ShowEntries] at h
end

section
variable {j j' : Json} {t k : String} {e : Expr} {es : List Expr} {o : Option Expr}

theorem row_like (hl : Like j j') (h : ShowRow es j) : ShowRow es j' := by
  rcases h with ⟨e, rfl, he⟩ | ⟨h1, ht, vs, hvs, hall⟩
  · exact .inl ⟨e, rfl, shows_like e hl he⟩
  · obtain ⟨vs', h3, h4⟩ := hl.array ht (by decide) hvs
    exact .inr ⟨h1, hl.isA ht, vs', h3, showAll_like es h4 hall⟩

theorem field_like (hl : Like j j') (ht : IsA t j) (hk : k ∈ partsOf t) (h : ShowField k e j) : ShowField k e j' := by
  obtain ⟨v, hv, he⟩ := h
  obtain ⟨v', h1, h2⟩ := hl.part ht hk hv
  exact ⟨v', h1, shows_like e h2 he⟩

theorem rowField_like (hl : Like j j') (ht : IsA t j) (hk : k ∈ partsOf t) (h : ShowRowField k es j) : ShowRowField k es j' := by
  obtain ⟨v, hv, he⟩ := h
  obtain ⟨v', h1, h2⟩ := hl.part ht hk hv
  exact ⟨v', h1, row_like h2 he⟩

theorem option_like (hl : Like j j') (ht : IsA t j) (hk : k ∈ partsOf t) (h : ShowOption k o j) : ShowOption k o j' := by
  cases o with
  | none => exact hl.absent (isA_isObj ht) h
  | some e => exact field_like hl ht hk h

theorem simple_like (s : Simple) (hl : Like j j') (h : ShowsSimple s j) : ShowsSimple s j' := by
  cases s with
  | expr e => exact ⟨hl.isA h.1, field_like hl h.1 (by decide) h.2⟩
  | assign ts vs =>
    exact ⟨hl.isA h.1, rowField_like hl h.1 (by decide) h.2.1, rowField_like hl h.1 (by decide) h.2.2⟩
  | aug a b d =>
    exact ⟨hl.isA h.1, field_like hl h.1 (by decide) h.2.1, hl.typed (isA_isObj h.1) h.2.2.1,
      field_like hl h.1 (by decide) h.2.2.2⟩
  | ann a b d =>
    obtain ⟨h1, h2, h3⟩ := h
    rcases h3 with ⟨ht, h3⟩ | ⟨ht, h3, u, h4, h5⟩
    · exact ⟨field_like hl ht (by decide) h1, option_like hl ht (by decide) h2, .inl ⟨hl.isA ht, field_like hl ht (by decide) h3⟩⟩
    · refine ⟨field_like hl ht (by decide) h1, option_like hl ht (by decide) h2, .inr ⟨hl.isA ht, ?_, u,
        field_like hl ht (by decide) h4, ?_⟩⟩
      · rw [hl.flag (isA_isObj ht) (by decide)]; exact h3
      · rw [hl.flag (isA_isObj ht) (by decide), hl.flag (isA_isObj ht) (by decide), hl.flag (isA_isObj ht) (by decide)]
        exact h5
  | ret vs =>
    refine ⟨hl.isA h.1, ?_⟩
    rcases h.2 with ⟨h1, h2⟩ | h1
    · exact .inl ⟨h1, hl.absent (isA_isObj h.1) h2⟩
    · exact .inr (rowField_like hl h.1 (by decide) h1)
  | raise e => exact ⟨hl.isA h.1, option_like hl h.1 (by decide) h.2⟩
  | assert e m => exact ⟨hl.isA h.1, field_like hl h.1 (by decide) h.2.1, option_like hl h.1 (by decide) h.2.2⟩
  | pass => exact hl.isA h
  | «break» => exact hl.isA h
  | «continue» => exact hl.isA h
  | log e => exact ⟨hl.isA h.1, field_like hl h.1 (by decide) h.2⟩
  | import_ p a =>
    exact ⟨hl.isA h.1, hl.str (isA_isObj h.1) (by decide) h.2.1, by rw [hl.strEq (isA_isObj h.1) (by decide)]; exact h.2.2⟩
  | from_ l p m a =>
    obtain ⟨ht, h1, h2, h3, h4⟩ := h
    refine ⟨hl.isA ht, by rw [hl.int (isA_isObj ht) (by decide)]; exact h1, hl.str (isA_isObj ht) (by decide) h2, ?_, ?_⟩
    · have := hl.strEq (isA_isObj ht) (k := "alias") (by decide)
      unfold getStrForKey at this
      rw [get?_field? (by decide) (isA_isObj ht), get?_field? (by decide) (isA_isObj (hl.isA ht))] at this
      rw [this]; exact h3
    · refine hl.scalar (isA_isObj ht) h4 ?_
      split <;> rfl

theorem note_like {t : String} (hl : Like j j') (h : ShowsNote t j) : ShowsNote t j' :=
  ⟨hl.isA h.1, hl.scalar (isA_isObj h.1) h.2 rfl⟩

mutual
theorem stmt_like : (s : Stmt) → {j j' : Json} → Like j j' → ShowsStmt s j → ShowsStmt s j'
  | .simple s, _, _, hl, h => by
    simp only [ShowsStmt] at h ⊢
    exact simple_like s hl h
  | .for_ x ty it body, _, _, hl, h => by
    simp only [ShowsStmt] at h ⊢
    obtain ⟨ht, h1, ⟨a, ha, h2⟩, bs, hbs, h3⟩ := h
    obtain ⟨a', h4, h5⟩ := hl.part ht (by decide) ha
    obtain ⟨bs', h6, h7⟩ := hl.array ht (by decide) hbs
    refine ⟨hl.isA ht, field_like hl ht (by decide) h1, ⟨a', h4, ?_⟩, bs', h6, stmts_like body h7 h3⟩
    cases ty with
    | none => exact shows_like _ h5 h2
    | some ty =>
      obtain ⟨h8, h9, h10, h11⟩ := h2
      exact ⟨h5.isA h8, field_like h5 h8 (by decide) h9, field_like h5 h8 (by decide) h10, h5.absent (isA_isObj h8) h11⟩
  | .if_ e body els, _, _, hl, h => by
    simp only [ShowsStmt] at h ⊢
    obtain ⟨ht, h1, ⟨bs, hbs, h3⟩, cs, hcs, h4⟩ := h
    obtain ⟨bs', h6, h7⟩ := hl.array ht (by decide) hbs
    obtain ⟨cs', h8, h9⟩ := hl.array ht (by decide) hcs
    exact ⟨hl.isA ht, field_like hl ht (by decide) h1, ⟨bs', h6, stmts_like body h7 h3⟩, cs', h8, stmts_like els h9 h4⟩
  | .comment t, _, _, hl, h => by
    simp only [ShowsStmt] at h ⊢
    exact note_like hl h
  | .quote s, _, _, hl, h => by
    simp only [ShowsStmt] at h ⊢
    obtain ⟨h1, v, h2, h3⟩ := h
    obtain ⟨v', h4, h5⟩ := hl.part h1 (by decide) h2
    exact ⟨hl.isA h1, v', h4, stmt_like s h5 h3⟩
theorem stmts_like : (ss : List Stmt) → {xs ys : List Json} → LikeAll xs ys → ShowStmts ss xs → ShowStmts ss ys
  | [], _, _, .nil, _ => by simp [ShowStmts]
  | [], _, _, .cons _ _, h => by simp [ShowStmts] at h
  | _ :: _, _, _, .nil, h => by simp [ShowStmts] at h
  | e :: es, _, _, .cons h1 h2, h => by
    simp only [ShowStmts] at h ⊢
    exact ⟨stmt_like e h1 h.1, stmts_like es h2 h.2⟩
end

theorem param_like {a : Param} (hl : Like j j') (h : ShowsParam a j) : ShowsParam a j' :=
  ⟨hl.isA h.1, hl.str (isA_isObj h.1) (by decide) h.2.1, field_like hl h.1 (by decide) h.2.2⟩

theorem plain_like : (ps : List Param) → {xs ys : List Json} → LikeAll xs ys → ShowPlain ps xs → ShowPlain ps ys
  | [], _, _, .nil, _ => by simp [ShowPlain]
  | [], _, _, .cons _ _, h => by simp [ShowPlain] at h
  | _ :: _, _, _, .nil, h => by simp [ShowPlain] at h
  | e :: es, _, _, .cons h1 h2, h => by
    simp only [ShowPlain] at h ⊢
    exact ⟨param_like h1 h.1, h.2.1, plain_like es h2 h.2.2⟩

theorem defaults_like : (ps : List Param) → {xs : List (Json × Json)} → {ys zs : List Json} → LikeAll (xs.map (·.1)) ys →
    LikeAll (xs.map (·.2)) zs → ShowDefaults ps xs → ∃ ws : List (Json × Json), ws.map (·.1) = ys ∧ ws.map (·.2) = zs ∧ ShowDefaults ps ws
  | [], [], _, _, .nil, .nil, _ => ⟨[], rfl, rfl, by simp [ShowDefaults]⟩
  | [], _ :: _, _, _, _, _, h => by simp [ShowDefaults] at h
  | _ :: _, [], _, _, _, _, h => by simp [ShowDefaults] at h
  | p :: ps, (a, d) :: xs, _, _, .cons h1 h2, .cons h3 h4, h => by
    simp only [ShowDefaults] at h
    obtain ⟨h5, ⟨e, he, hd⟩, h6⟩ := h
    obtain ⟨ws, rfl, rfl, h7⟩ := defaults_like ps h2 h4 h6
    refine ⟨(_, _) :: ws, rfl, rfl, ?_⟩
    simp only [ShowDefaults]
    exact ⟨param_like h1 h5, ⟨e, he, shows_like e h3 hd⟩, h7⟩

theorem likeAll_append_inv : {a b ys : List Json} → LikeAll (a ++ b) ys → ∃ c d, ys = c ++ d ∧ LikeAll a c ∧ LikeAll b d
  | [], _, ys, h => ⟨[], ys, rfl, .nil, h⟩
  | _ :: a, b, _, .cons h1 h2 => by
    obtain ⟨c, d, rfl, h3, h4⟩ := likeAll_append_inv h2
    exact ⟨_ :: c, d, rfl, .cons h1 h3, h4⟩

theorem params_like {ps : List Param} (hl : Like j j') (h : ShowParams ps j) : ShowParams ps j' := by
  obtain ⟨ht, qs, rs, as, ds, hps, h1, h2, h3, h4⟩ := h
  obtain ⟨xs, h5, h6⟩ := hl.array ht (by decide) h3
  obtain ⟨ys, h7, h8⟩ := hl.array ht (by decide) h4
  obtain ⟨c, d, rfl, h9, h10⟩ := likeAll_append_inv h6
  obtain ⟨ws, rfl, rfl, h11⟩ := defaults_like rs h10 h8 h2
  exact ⟨hl.isA ht, qs, rs, c, ws, hps, plain_like qs h9 h1, h11, h5, h7⟩

theorem sig_like {g : Sig} (hl : Like j j') (h : ShowsSig g j) : ShowsSig g j' := by
  obtain ⟨ht, h1, ⟨a, ha, h2⟩, h3⟩ := h
  obtain ⟨a', h4, h5⟩ := hl.part ht (by decide) ha
  refine ⟨hl.isA ht, hl.str (isA_isObj ht) (by decide) h1, ⟨a', h4, params_like h5 h2⟩, ?_⟩
  rcases h3 with ⟨h6, h7⟩ | h6
  · exact .inl ⟨h6, hl.absent (isA_isObj ht) h7⟩
  · exact .inr (rowField_like hl ht (by decide) h6)

theorem doc_like {doc : Option String} (hl : Like j j') (hj : IsObj j) (h : ShowDoc doc j) : ShowDoc doc j' := by
  cases doc with
  | none => exact hl.absent hj h
  | some t =>
    obtain ⟨x, hx, h1, h2⟩ := h
    obtain ⟨x', h3, h4⟩ := hl.loose hj hx
    rcases h4 with rfl | h4
    · exact ⟨_, h3, h1, h2⟩
    · exact ⟨x', h3, h4.isA h1, h4.str (by decide) h1 (by decide) h2⟩

theorem simples_like : (ss : List Simple) → {xs ys : List Json} → LikeAll xs ys → ShowSimples ss xs → ShowSimples ss ys
  | [], _, _, .nil, _ => by simp [ShowSimples]
  | [], _, _, .cons _ _, h => by simp [ShowSimples] at h
  | _ :: _, _, _, .nil, h => by simp [ShowSimples] at h
  | e :: es, _, _, .cons h1 h2, h => by
    simp only [ShowSimples] at h ⊢
    exact ⟨simple_like e h1 h.1, simples_like es h2 h.2⟩

theorem functions_like : (fs : List (Sig × String)) → {xs ys : List Json} → LikeAll xs ys → ShowFunctions fs xs → ShowFunctions fs ys
  | [], _, _, .nil, _ => by simp [ShowFunctions]
  | [], _, _, .cons _ _, h => by simp [ShowFunctions] at h
  | _ :: _, _, _, .nil, h => by simp [ShowFunctions] at h
  | (g, m) :: es, _, _, .cons h1 h2, h => by
    simp only [ShowFunctions] at h ⊢
    obtain ⟨⟨hg, hd, hdoc, b, hb, hbe, hbm⟩, h3⟩ := h
    obtain ⟨d', h4, h5⟩ := h1.array hg.1 (by decide) hd
    obtain ⟨b', h6, h7⟩ := h1.array hg.1 (by decide) hb
    cases h5
    cases h7 with
    | cons h8 h9 =>
      cases h9
      exact ⟨⟨sig_like h1 hg, h4, doc_like h1 (isA_isObj hg.1) hdoc, _, h6, h8.isA hbe, field_like h8 hbe (by decide) hbm⟩,
        functions_like es h2 h3⟩

theorem decl_like (d : Decl) (hl : Like j j') (h : ShowsDecl d j) : ShowsDecl d j' := by
  induction d generalizing j j' with
  | simple s => exact simple_like s hl h
  | block kw m fs =>
    obtain ⟨ht, h1, bs, hbs, h2⟩ := h
    obtain ⟨bs', h6, h7⟩ := hl.array ht (by rw [(blockType_parts kw).1]; exact List.mem_cons_self) hbs
    exact ⟨hl.isA ht, hl.str (isA_isObj ht) (by decide) h1, bs', h6, simples_like fs h7 h2⟩
  | interface m fs =>
    obtain ⟨ht, h1, bs, hbs, h2⟩ := h
    obtain ⟨bs', h6, h7⟩ := hl.array ht (by decide) hbs
    exact ⟨hl.isA ht, hl.str (isA_isObj ht) (by decide) h1, bs', h6, functions_like fs h7 h2⟩
  | fn ds g doc body =>
    obtain ⟨hg, ⟨vs, hvs, h1⟩, hdoc, bs, hbs, h2⟩ := h
    obtain ⟨vs', h4, h5⟩ := hl.array hg.1 (by decide) hvs
    obtain ⟨bs', h6, h7⟩ := hl.array hg.1 (by decide) hbs
    exact ⟨sig_like hl hg, ⟨vs', h4, showAll_like ds h5 h1⟩, doc_like hl (isA_isObj hg.1) hdoc, bs', h6, stmts_like body h7 h2⟩
  | comment t => exact note_like hl h
  | quote d ih =>
    obtain ⟨h1, v, h2, h3⟩ := h
    obtain ⟨v', h4, h5⟩ := hl.part h1 (by decide) h2
    exact ⟨hl.isA h1, v', h4, ih h5 h3⟩

theorem decls_like : (ds : List Decl) → {xs ys : List Json} → LikeAll xs ys → ShowDecls ds xs → ShowDecls ds ys
  | [], _, _, .nil, _ => by simp [ShowDecls]
  | [], _, _, .cons _ _, h => by simp [ShowDecls] at h
  | _ :: _, _, _, .nil, h => by simp [ShowDecls] at h
  | e :: es, _, _, .cons h1 h2, h => by
    simp only [ShowDecls] at h ⊢
    exact ⟨decl_like e h1 h.1, decls_like es h2 h.2⟩

theorem program_like {a : Program} (hl : Like j j') (h : ShowsProgram a j) : ShowsProgram a j' := by
  obtain ⟨ht, h1, bs, hbs, h2⟩ := h
  obtain ⟨bs', h6, h7⟩ := hl.array ht (by decide) hbs
  exact ⟨hl.isA ht, doc_like hl (isA_isObj ht) h1, bs', h6, decls_like _ h7 h2⟩
end

/-! ### Positions that are not in the program -/

theorem objGet_keep {kvs : List (String × Json)} {i : Nat} {k : String} {v w : Json} (h : kvs[i]? = some (k, v))
    (hf : (kvs.map Prod.fst).findIdx? (· == k) ≠ some i) (k' : String) :
    objGet k' (List.zipWith (fun (kv : String × Json) c => (kv.1, c)) kvs ((kvs.map Prod.snd).set i w)) = objGet k' kvs := by
  induction kvs generalizing i with
  | nil => simp at h
  | cons x xs ih =>
    obtain ⟨l, u⟩ := x
    cases i with
    | zero =>
      simp only [List.getElem?_cons_zero, Option.some.injEq, Prod.mk.injEq] at h
      obtain ⟨rfl, rfl⟩ := h
      simp [List.findIdx?_cons] at hf
    | succ i =>
      simp only [List.getElem?_cons_succ] at h
      simp only [List.map_cons, List.findIdx?_cons] at hf
      simp only [List.map_cons, List.set_cons_succ, List.zipWith_cons_cons, objGet]
      by_cases hlk : l = k
      · subst hlk
        by_cases hkk : l = k'
        · simp [hkk]
        · have other : ∀ (ys : List (String × Json)) (i : Nat), ys[i]? = some (l, v) →
              objGet k' (List.zipWith (fun (kv : String × Json) c => (kv.1, c)) ys ((ys.map Prod.snd).set i w)) = objGet k' ys := by
            intro ys
            induction ys with
            | nil => intro i h; simp at h
            | cons y ys ihy =>
              intro i h
              cases i with
              | zero =>
                simp only [List.getElem?_cons_zero, Option.some.injEq] at h
                subst h
                have same : ∀ (zs : List (String × Json)),
                    objGet k' (List.zipWith (fun (kv : String × Json) c => (kv.1, c)) zs (zs.map Prod.snd)) = objGet k' zs := by
                  intro zs
                  induction zs with
                  | nil => rfl
                  | cons x xs ih => simp [objGet, ih]
                simp [objGet, hkk, same]
              | succ i =>
                simp only [List.getElem?_cons_succ] at h
                simp only [List.map_cons, List.set_cons_succ, List.zipWith_cons_cons, objGet]
                rw [ihy i h]
          rw [other xs i h]
      · have hf' : (xs.map Prod.fst).findIdx? (· == k) ≠ some i := by
          simpa [hlk] using hf
        rw [ih h hf']

/-- A step down, anywhere. -/
theorem step_any {i : Nat} {p : Pos} {j n : Json} (hn : nodeAt (i :: p) j = some n) :
    (∃ xs v, j = .arr xs ∧ xs[i]? = some v ∧ nodeAt p v = some n ∧ visible (i :: p) j = visible p v ∧
      ∀ x, replaceAt (i :: p) x j = .arr (xs.set i (replaceAt p x v))) ∨
    (∃ k v, nodeAt p v = some n ∧ Json.field? k j = some v ∧ (∀ x, Sets k (replaceAt p x v) j (replaceAt (i :: p) x j)) ∧
      ∀ t, IsA t j → k ∈ partsOf t → visible (i :: p) j = visible p v) ∨
    (IsObj j ∧ ∀ x, IsObj (replaceAt (i :: p) x j) ∧ ∀ k, Json.field? k (replaceAt (i :: p) x j) = Json.field? k j) := by
  cases j with
  | null => simp [nodeAt, children] at hn
  | bool => simp [nodeAt, children] at hn
  | num => simp [nodeAt, children] at hn
  | str => simp [nodeAt, children] at hn
  | arr xs =>
    left
    simp only [nodeAt, children] at hn
    cases hx : xs[i]? with
    | none => rw [hx] at hn; cases hn
    | some v =>
      rw [hx] at hn
      exact ⟨xs, v, rfl, hx, hn, by simp only [visible, hx], fun x => by simp only [replaceAt, children, hx, setChildren]⟩
  | obj kvs =>
    right
    simp only [nodeAt, children] at hn
    cases hx : kvs[i]? with
    | none => simp [hx] at hn
    | some kv =>
      obtain ⟨k, v⟩ := kv
      have hc : (kvs.map Prod.snd)[i]? = some v := by simp [hx]
      rw [hc] at hn
      by_cases h1 : (kvs.map Prod.fst).findIdx? (· == k) = some i
      · left
        refine ⟨k, v, hn, (objGet_set (w := .null) hx h1).1, fun x => ?_, fun t ht hk => ?_⟩
        · have := objGet_set (w := replaceAt p x v) hx h1
          simp only [replaceAt, children, hc, setChildren]
          exact ⟨trivial, trivial, this.2.1, this.2.2⟩
        · simp only [visible]
          rw [show getStrForKey "ast_type" (.obj kvs) = some t from ht, hx]
          simp [h1, hk]
      · right
        refine ⟨trivial, fun x => ?_⟩
        simp only [replaceAt, children, hc, setChildren]
        exact ⟨trivial, fun k' => objGet_keep hx h1 k'⟩

theorem loose_at {t : String} {n x : Json} (ht : t ∈ holders) (hn : IsA t n) (hx : IsA t x) : (p : Pos) → {j : Json} →
    nodeAt p j = some n → Loose j (replaceAt p x j)
  | [], j, h => by
    simp only [nodeAt, Option.some.injEq] at h
    subst h
    exact .hole ht hn hx
  | i :: p, j, h => by
    rcases step_any h with ⟨xs, v, rfl, h1, h2, _, h3⟩ | ⟨k, v, h1, h2, h3, _⟩ | ⟨h1, h2⟩
    · rw [h3 x]
      exact .arr h1 (loose_at ht hn hx p h2)
    · exact .obj h2 (loose_at ht hn hx p h1) (h3 x)
    · exact .same h1 (h2 x).1 (h2 x).2

theorem like_at {t : String} {n x : Json} (ht : t ∈ holders) (hn : IsA t n) (hx : IsA t x) : (p : Pos) → {j : Json} →
    nodeAt p j = some n → visible p j = false → Like j (replaceAt p x j)
  | [], j, _, hv => by simp [visible] at hv
  | i :: p, j, h, hv => by
    rcases step_any h with ⟨xs, v, rfl, h1, h2, h4, h3⟩ | ⟨k, v, h1, h2, h3, h4⟩ | ⟨h1, h2⟩
    · rw [h3 x]
      exact .arr h1 (like_at ht hn hx p h2 (by rw [← h4]; exact hv))
    · exact .obj h2 (loose_at ht hn hx p h1) (fun u hu hk => like_at ht hn hx p h1 (by rw [← h4 u hu hk]; exact hv)) (h3 x)
    · exact .same h1 (h2 x).1 (h2 x).2

/-! ### A comment in a program -/

theorem bareAll_comment (a b : List Stmt) (t : String) : bareAll (a ++ .comment t :: b) = bareAll (a ++ b) := by
  rw [bareAll_append, bareAll_append, bareAll, bare, List.nil_append]

theorem stmts_insert {c : Json} {t : String} (hc : ShowsStmt (.comment t) c) : (pre : List Json) → {post : List Json} →
    {ss : List Stmt} → ShowStmts ss (pre ++ post) → ∃ a b, ss = a ++ b ∧ ShowStmts (a ++ .comment t :: b) (pre ++ c :: post)
  | [], post, ss, h => ⟨[], ss, rfl, by simp only [List.nil_append, ShowStmts]; exact ⟨hc, h⟩⟩
  | x :: pre, post, [], h => by simp [ShowStmts] at h
  | x :: pre, post, s :: ss, h => by
    simp only [List.cons_append, ShowStmts] at h
    obtain ⟨a, b, rfl, h1⟩ := stmts_insert hc pre h.2
    exact ⟨s :: a, b, rfl, by simp only [List.cons_append, ShowStmts]; exact ⟨h.1, h1⟩⟩

theorem decls_insert {c : Json} {t : String} (hc : ShowsDecl (.comment t) c) : (pre : List Json) → {post : List Json} →
    {ss : List Decl} → ShowDecls ss (pre ++ post) → ∃ a b, ss = a ++ b ∧ ShowDecls (a ++ .comment t :: b) (pre ++ c :: post)
  | [], post, ss, h => ⟨[], ss, rfl, by simp only [List.nil_append, ShowDecls]; exact ⟨hc, h⟩⟩
  | x :: pre, post, [], h => by simp [ShowDecls] at h
  | x :: pre, post, s :: ss, h => by
    simp only [List.cons_append, ShowDecls] at h
    obtain ⟨a, b, rfl, h1⟩ := decls_insert hc pre h.2
    exact ⟨s :: a, b, rfl, by simp only [List.cons_append, ShowDecls]; exact ⟨h.1, h1⟩⟩

theorem inExpr_none {c : Change} (hc : ∀ e e', ¬ c.expr e e') {e e' : Expr} (h : InExpr c e e') : False := by
  induction h with
  | here h => exact hc _ _ h
  | _ => assumption

theorem inRow_none {c : Change} (hc : ∀ e e', ¬ c.expr e e') {e e' : List Expr} (h : InRow c e e') : False := by
  cases h with
  | mk h => exact inExpr_none hc h

theorem inOption_none {c : Change} (hc : ∀ e e', ¬ c.expr e e') {e e' : Option Expr} (h : InOption c e e') : False := by
  cases h with
  | mk h => exact inExpr_none hc h

theorem inSimple_none {c : Change} (hc : ∀ e e', ¬ c.expr e e') (hs : ∀ e e', ¬ c.simple e e') {e e' : Simple}
    (h : InSimple c e e') : False := by
  cases h <;> first
    | (rename_i h; exact hs _ _ h)
    | (rename_i h; exact inExpr_none hc h)
    | (rename_i h; exact inRow_none hc h)
    | (rename_i h; exact inOption_none hc h)

theorem inSig_none {c : Change} (hc : ∀ e e', ¬ c.expr e e') {g g' : Sig} (h : InSig c g g') : False := by
  cases h with
  | params h =>
    cases h with
    | type h => exact inExpr_none hc h
    | value h => exact inOption_none hc h
  | results h => exact inRow_none hc h

theorem inStmt_bare {text : String} {s s' : Stmt} (h : InStmt (commentIn text) s s') : bare s' = bare s := by
  have he : ∀ e e', ¬ (commentIn text).expr e e' := fun _ _ h => h
  have hs : ∀ e e', ¬ (commentIn text).simple e e' := fun _ _ h => h
  induction h with
  | here h =>
    rcases h with ⟨x, ty, it, a, b, rfl, rfl⟩ | ⟨c, a, b, els, rfl, rfl⟩ | ⟨c, body, a, b, rfl, rfl⟩ <;>
      simp only [bare, bareAll_comment]
  | simple h => exact (inSimple_none he hs h).elim
  | quote _ _ => simp only [bare]
  | forType h => exact (inOption_none he h).elim
  | forOver h => exact (inExpr_none he h).elim
  | forBody _ ih => simp only [bare, bareAll_append, bareAll, ih]
  | ifTest h => exact (inExpr_none he h).elim
  | ifBody _ ih => simp only [bare, bareAll_append, bareAll, ih]
  | ifElse _ ih => simp only [bare, bareAll_append, bareAll, ih]

theorem inDecl_bare {text : String} {s s' : Decl} (h : InDecl (commentIn text) s s') : s'.bare = s.bare := by
  have he : ∀ e e', ¬ (commentIn text).expr e e' := fun _ _ h => h
  have hs : ∀ e e', ¬ (commentIn text).simple e e' := fun _ _ h => h
  cases h with
  | here h =>
    obtain ⟨ds, g, doc, a, b, rfl, rfl⟩ := h
    simp only [Decl.bare, bareAll_comment]
  | simple h => exact (inSimple_none he hs h).elim
  | quote _ => simp only [Decl.bare]
  | field h => exact (inSimple_none he hs h).elim
  | function h => exact (inSig_none he h).elim
  | decorator h => exact (inRow_none he h).elim
  | sig h => exact (inSig_none he h).elim
  | body h => simp only [Decl.bare, bareAll_append, bareAll, inStmt_bare h]

theorem inProgram_bare {text : String} {s s' : Program} (h : InProgram (commentIn text) s s') : s'.bare = s.bare := by
  cases h with
  | mk h => simp only [Program.bare, List.flatMap_append, List.flatMap_cons, inDecl_bare h]

theorem newComment_bare {text : String} {p p' : Program} (h : NewComment text p p') : p'.bare = p.bare := by
  cases h with
  | between => simp [Program.bare, Decl.bare]
  | inside h => exact inProgram_bare h

/-! ### Types of nodes -/

/-- The types of nodes that stand for expressions. -/
def exprTypes : List String :=
  ["Name", "Hex", "Decimal", "Int", "NameConstant", "Attribute", "Str", "Subscript", "Call", "List", "Dict", "keyword", "BoolOp",
   "BinOp", "Compare", "UnaryOp"]

/-- The types of nodes that stand for statements on one line. -/
def simpleTypes : List String :=
  ["Expr", "Assign", "AugAssign", "AnnAssign", "VariableDecl", "Return", "Raise", "Assert", "Pass", "Break", "Continue", "Log",
   "Import", "ImportFrom"]

theorem shows_type {e : Expr} {j : Json} (h : Shows e j) : ∃ t ∈ exprTypes, IsA t j := by
  cases e with
  | leaf t =>
    simp only [Shows] at h
    rcases h with ⟨h, _⟩ | ⟨h | h, _⟩ | ⟨h, _⟩ | ⟨h, _⟩ <;> exact ⟨_, by decide, h⟩
  | bin l o r =>
    simp only [Shows] at h
    obtain ⟨_, h⟩ := h
    by_cases ho : o.isBool = true
    · simp only [ho, if_true] at h
      exact ⟨_, by decide, h.1⟩
    · simp only [ho] at h
      rcases h.1 with h | h <;> exact ⟨_, by decide, h⟩
  | entry => simp only [Shows] at h
  | neg e =>
    simp only [Shows] at h
    rcases h with ⟨h, _⟩ | ⟨h, _⟩ <;> exact ⟨_, by decide, h⟩
  | _ =>
    simp only [Shows] at h
    exact ⟨_, by decide, h.1⟩

theorem showsSimple_type {s : Simple} {j : Json} (h : ShowsSimple s j) : ∃ t ∈ simpleTypes, IsA t j := by
  cases s with
  | ann => rcases h.2.2 with h | h <;> exact ⟨_, by decide, h.1⟩
  | pass => exact ⟨"Pass", by decide, h⟩
  | «break» => exact ⟨"Break", by decide, h⟩
  | «continue» => exact ⟨"Continue", by decide, h⟩
  | _ => exact ⟨_, by decide, h.1⟩

theorem shows_not {e : Expr} {j : Json} {t : String} (h : Shows e j) (ht : IsA t j) (hn : t ∉ exprTypes) : False := by
  obtain ⟨u, h1, h2⟩ := shows_type h
  rw [isA_unique ht h2] at hn
  exact hn h1

theorem showsSimple_not {e : Simple} {j : Json} {t : String} (h : ShowsSimple e j) (ht : IsA t j) (hn : t ∉ simpleTypes) : False := by
  obtain ⟨u, h1, h2⟩ := showsSimple_type h
  rw [isA_unique ht h2] at hn
  exact hn h1

/-! ### Where the comment goes -/

theorem carries_comment {b b' c : Json} {t k text : String} {pre post : List Json} (hc : IsA "Comment" c)
    (hv : Json.field? "value" c = some (.str text)) (hb : IsA t b) (hk : (t, k) ∈ statementLists .vyper)
    (hf : Json.field? k b = some (.arr (pre ++ post))) (hs : Sets k (.arr (pre ++ c :: post)) b b') :
    Carries (commentIn text) b b' := by
  have hcs : ShowsStmt (.comment text) c := by simp only [ShowsStmt]; exact ⟨hc, hv⟩
  have hne : k ≠ "ast_type" := by
    rintro rfl
    revert hk
    show ¬ (t, "ast_type") ∈ [("Module", "body"), ("FunctionDef", "body"), ("For", "body"), ("If", "body"), ("If", "orelse")]
    simp
  have hb' := hs.isA hne hb
  have hk' : (t, k) ∈ [("Module", "body"), ("FunctionDef", "body"), ("For", "body"), ("If", "body"), ("If", "orelse")] := hk
  simp only [List.mem_cons, Prod.mk.injEq, List.not_mem_nil, or_false] at hk'
  have hte : t ∉ exprTypes := by
    rcases hk' with ⟨rfl, rfl⟩ | ⟨rfl, rfl⟩ | ⟨rfl, rfl⟩ | ⟨rfl, rfl⟩ | ⟨rfl, rfl⟩ <;> decide
  have hts : t ∉ simpleTypes := by
    rcases hk' with ⟨rfl, rfl⟩ | ⟨rfl, rfl⟩ | ⟨rfl, rfl⟩ | ⟨rfl, rfl⟩ | ⟨rfl, rfl⟩ <;> decide
  refine ⟨⟨t, ?_, hb⟩, fun f h => (shows_not h hb hte).elim, fun s h => (showsSimple_not h hb hts).elim, fun s hx h => ?_,
    fun ds g doc body h => ?_⟩
  · rcases hk' with ⟨rfl, rfl⟩ | ⟨rfl, rfl⟩ | ⟨rfl, rfl⟩ | ⟨rfl, rfl⟩ | ⟨rfl, rfl⟩ <;> decide
  · cases s with
    | simple x => exact absurd rfl (hx x)
    | comment u =>
      simp only [ShowsStmt] at h
      have := isA_unique hb h.1
      subst this
      simp at hk'
    | quote u =>
      simp only [ShowsStmt] at h
      have := isA_unique hb h.1
      subst this
      simp at hk'
    | for_ x ty it body =>
      simp only [ShowsStmt] at h
      obtain ⟨ht, h1, ⟨a, ha, h2⟩, bs, hbs, h3⟩ := h
      have := isA_unique hb ht
      subst this
      simp only [reduceCtorEq, String.reduceEq, false_and, true_and, false_or, or_false] at hk'
      subst hk'
      rw [hbs] at hf
      cases hf
      obtain ⟨a1, b1, rfl, h4⟩ := stmts_insert hcs pre h3
      refine ⟨.for_ x ty it (a1 ++ .comment text :: b1), ?_, ?_⟩
      · simp only [ShowsStmt]
        exact ⟨hb', field_keep h1 hs (by decide), ⟨a, by rw [hs.other (by decide)]; exact ha, h2⟩, _, hs.field, h4⟩
      · exact .inl ⟨x, ty, it, a1, b1, rfl, rfl⟩
    | if_ e body els =>
      simp only [ShowsStmt] at h
      obtain ⟨ht, h1, ⟨bs, hbs, h3⟩, cs, hcs', h5⟩ := h
      have := isA_unique hb ht
      subst this
      simp only [reduceCtorEq, String.reduceEq, false_and, true_and, false_or, or_false] at hk'
      rcases hk' with rfl | rfl
      · rw [hbs] at hf
        cases hf
        obtain ⟨a1, b1, rfl, h4⟩ := stmts_insert hcs pre h3
        refine ⟨.if_ e (a1 ++ .comment text :: b1) els, ?_, ?_⟩
        · simp only [ShowsStmt]
          exact ⟨hb', field_keep h1 hs (by decide), ⟨_, hs.field, h4⟩, cs, by rw [hs.other (by decide)]; exact hcs', h5⟩
        · exact .inr (.inl ⟨e, a1, b1, els, rfl, rfl⟩)
      · rw [hcs'] at hf
        cases hf
        obtain ⟨a1, b1, rfl, h4⟩ := stmts_insert hcs pre h5
        refine ⟨.if_ e body (a1 ++ .comment text :: b1), ?_, ?_⟩
        · simp only [ShowsStmt]
          exact ⟨hb', field_keep h1 hs (by decide), ⟨bs, by rw [hs.other (by decide)]; exact hbs, h3⟩, _, hs.field, h4⟩
        · exact .inr (.inr ⟨e, body, a1, b1, rfl, rfl⟩)
  · obtain ⟨hg, ⟨vs, hvs, hds⟩, hdoc, bs, hbs, hall⟩ := h
    have := isA_unique hb hg.1
    subst this
    simp only [reduceCtorEq, String.reduceEq, false_and, true_and, false_or, or_false] at hk'
    subst hk'
    rw [hbs] at hf
    cases hf
    obtain ⟨a1, b1, rfl, h4⟩ := stmts_insert hcs pre hall
    exact ⟨.fn ds g doc (a1 ++ .comment text :: b1), ⟨sig_keep hg hs (by decide) (by decide) (by decide) (by decide),
      ⟨vs, by rw [hs.other (by decide)]; exact hvs, hds⟩, doc_keep hdoc hs (by decide), _, hs.field, h4⟩,
      ⟨ds, g, doc, a1, b1, rfl, rfl⟩⟩

/-- The program with a comment added stands for the same program with a comment, unless the comment is in a function of an
interface. -/
theorem program_comment {a : Program} {j j' c : Json} {id : Nat} {text : String} (h : ShowsProgram a j) (hc : IsA "Comment" c)
    (hv : Json.field? "value" c = some (.str text)) (hadd : CommentAdded .vyper id c j j') :
    (∃ a', ShowsProgram a' j' ∧ (a' = a ∨ NewComment text a a')) ∨ InInterface id j := by
  cases hadd with
  | atTop _ _ _ _ h => cases h
  | inBlock _ _ _ _ _ h => cases h
  | inList p i b pre post s hb hold hx hid _ =>
    obtain ⟨kvs, t, k, rfl, ht, hk, hki, hfirst⟩ := hold
    have ht : IsA t (.obj kvs) := ht
    rw [← replaceAt_append hb]
    rw [nodeAt_append, hb] at hx
    simp only [Option.bind_some] at hx
    -- the list is the value of its field
    have hki' : ∃ v, kvs[i]? = some (k, v) := by
      obtain ⟨kv, h1, h2⟩ := map_getElem?_inv hki
      exact ⟨kv.2, by rw [h1, ← h2]⟩
    obtain ⟨v, hkv⟩ := hki'
    have hidx : (kvs.map Prod.fst).findIdx? (· == k) = some i := by
      rw [List.findIdx?_eq_some_iff_getElem]
      obtain ⟨hl, hg⟩ := List.getElem?_eq_some_iff.1 hki
      refine ⟨hl, by simp [hg], fun i' hi' => ?_⟩
      have := hfirst i' hi'
      rw [List.getElem?_eq_getElem (by omega)] at this
      simpa using this
    have hcv : (kvs.map Prod.snd)[i]? = some v := by simp [hkv]
    simp only [nodeAt, children, hcv] at hx
    cases hx
    have hsets : Sets k (.arr (pre ++ c :: s :: post)) (.obj kvs) (replaceAt [i] (.arr (pre ++ c :: s :: post)) (.obj kvs)) := by
      have := objGet_set (w := .arr (pre ++ c :: s :: post)) hkv hidx
      simp only [replaceAt, children, hcv, setChildren]
      exact ⟨trivial, trivial, this.2.1, this.2.2⟩
    have hfield : Json.field? k (.obj kvs) = some (.arr (pre ++ s :: post)) := (objGet_set (w := .null) hkv hidx).1
    have hcar := carries_comment hc hv ht hk hfield hsets
    have hhold : t ∈ holders := by
      have hk' : (t, k) ∈ [("Module", "body"), ("FunctionDef", "body"), ("For", "body"), ("If", "body"), ("If", "orelse")] := hk
      simp only [List.mem_cons, Prod.mk.injEq, List.not_mem_nil, or_false] at hk'
      rcases hk' with ⟨rfl, rfl⟩ | ⟨rfl, rfl⟩ | ⟨rfl, rfl⟩ | ⟨rfl, rfl⟩ | ⟨rfl, rfl⟩ <;> decide
    have hne : k ≠ "ast_type" := by
      rintro rfl
      unfold IsA at ht
      rw [field?_of_str (by decide) hsets.1, hfield] at ht
      cases ht
    have ht' := hsets.isA hne ht
    cases hvis : visible p j with
    | false => exact .inl ⟨a, program_like (like_at hhold ht ht' p hb hvis) h, .inl rfl⟩
    | true =>
      by_cases hp : p = []
      · subst hp
        simp only [nodeAt, Option.some.injEq] at hb
        subst hb
        obtain ⟨hm, hdoc, bs, hbs, hall⟩ := h
        have := isA_unique ht hm
        subst this
        have hk' : ("Module", k) ∈ [("Module", "body"), ("FunctionDef", "body"), ("For", "body"), ("If", "body"), ("If", "orelse")] := hk
        simp at hk'
        subst hk'
        rw [hbs] at hfield
        cases hfield
        obtain ⟨a1, b1, hab, h4⟩ := decls_insert (t := text) ⟨hc, hv⟩ pre hall
        refine .inl ⟨⟨a.doc, a1 ++ .comment text :: b1⟩, ⟨ht', doc_keep hdoc hsets (by decide), _, hsets.field, h4⟩, ?_⟩
        obtain ⟨doc, decls⟩ := a
        subst hab
        exact .inr .between
      · have hok : IsA "Int" (.obj kvs) → a.Ok := fun hi => by
          have := isA_unique ht hi
          subst this
          exact absurd hhold (by decide)
        rcases program_edit hcar h hok ⟨hb, hvis⟩ hp with ⟨a', h1, h2⟩ | ⟨bs, d0, h1, h2, d, h0, h3, fs, h4, h5, g, m, h6⟩
        · exact .inl ⟨a', h1, .inr (.inside h2)⟩
        · right
          refine ⟨bs, d0, d, fs, _, pre ++ s :: post, s, h1, h2, h0, h3, h4, h5, ?_, List.mem_append_right _ List.mem_cons_self, hid⟩
          simp only [ShowFunctions, and_true] at h6
          have := isA_unique ht h6.1.1
          subst this
          have hk' : ("FunctionDef", k) ∈ [("Module", "body"), ("FunctionDef", "body"), ("For", "body"), ("If", "body"), ("If", "orelse")] := hk
          simp at hk'
          subst hk'
          exact hfield

end VyPrint
end Mutagenyx
