import Verif.Spec.SolidityChange
import Verif.Proofs.Comments
import Verif.Proofs.SolidityProgram

/-!
# Replacing a node of a Solidity tree, one step at a time
-/

namespace Mutagenyx
namespace SolPrint
open SolGrammar Json

/-! ### Fields -/

/-- The fields with another value at a place. -/
def setField (i : Nat) (w : Json) (kvs : List (String × Json)) : List (String × Json) :=
  List.zipWith (fun (kv : String × Json) c => (kv.1, c)) kvs ((kvs.map Prod.snd).set i w)

theorem setField_cons_zero (x : String × Json) (xs : List (String × Json)) (w : Json) :
    setField 0 w (x :: xs) = (x.1, w) :: xs := by
  have : ∀ kvs : List (String × Json), List.zipWith (fun (kv : String × Json) c => (kv.1, c)) kvs (kvs.map Prod.snd) = kvs := by
    intro kvs
    induction kvs with
    | nil => rfl
    | cons y ys ih => simp [ih]
  simp [setField, this]

theorem setField_cons_succ (x : String × Json) (xs : List (String × Json)) (i : Nat) (w : Json) :
    setField (i + 1) w (x :: xs) = x :: setField i w xs := by
  simp [setField]

theorem setField_split : {kvs : List (String × Json)} → {i : Nat} → {k : String} → {v : Json} → kvs[i]? = some (k, v) →
    ∃ pre post, kvs = pre ++ (k, v) :: post ∧ pre.length = i ∧ ∀ w, setField i w kvs = pre ++ (k, w) :: post
  | [], _, _, _, h => by simp at h
  | x :: xs, 0, k, v, h => by
    simp only [List.getElem?_cons_zero, Option.some.injEq] at h
    subst h
    exact ⟨[], xs, rfl, rfl, fun w => setField_cons_zero _ _ _⟩
  | x :: xs, i + 1, k, v, h => by
    obtain ⟨pre, post, h1, h2, h3⟩ := setField_split (kvs := xs) (i := i) (k := k) (v := v) (by simpa using h)
    exact ⟨x :: pre, post, by rw [h1]; rfl, by simp [h2], fun w => by rw [setField_cons_succ, h3 w]; rfl⟩

theorem setField_middle (k : String) (v w : Json) (pre post : List (String × Json)) :
    setField pre.length w (pre ++ (k, v) :: post) = pre ++ (k, w) :: post := by
  induction pre with
  | nil => exact setField_cons_zero _ _ _
  | cons y ys ih => rw [List.cons_append, List.length_cons, setField_cons_succ, ih]; rfl

theorem objGet_append (k : String) (pre post : List (String × Json)) :
    objGet k (pre ++ post) = (objGet k pre).or (objGet k post) := by
  induction pre with
  | nil => simp [objGet]
  | cons x xs ih =>
    obtain ⟨l, u⟩ := x
    simp only [List.cons_append, objGet]
    split
    · rfl
    · exact ih

theorem objGet_none_iff (k : String) (kvs : List (String × Json)) : objGet k kvs = none ↔ ∀ kv ∈ kvs, kv.1 ≠ k := by
  induction kvs with
  | nil => simp [objGet]
  | cons x xs ih =>
    obtain ⟨l, u⟩ := x
    simp only [objGet, List.mem_cons, forall_eq_or_imp]
    by_cases h : l = k
    · simp [h]
    · simp [h, ih]

/-- What a changed field does to the fields. -/
theorem objGet_setField {kvs : List (String × Json)} {i : Nat} {k : String} {v : Json} (h : kvs[i]? = some (k, v)) (w : Json) :
    (∀ k', k' ≠ k → objGet k' (setField i w kvs) = objGet k' kvs) ∧
    ((objGet k kvs = some v ∧ objGet k (setField i w kvs) = some w ∧ (kvs.map Prod.fst).findIdx? (· == k) = some i) ∨
      (objGet k (setField i w kvs) = objGet k kvs ∧ (kvs.map Prod.fst).findIdx? (· == k) ≠ some i)) := by
  obtain ⟨pre, post, rfl, hl, hs⟩ := setField_split h
  rw [hs w]
  refine ⟨fun k' hk' => ?_, ?_⟩
  · rw [objGet_append, objGet_append]
    simp [objGet, Ne.symm hk']
  · rw [objGet_append, objGet_append]
    cases hp : objGet k pre with
    | none =>
      left
      refine ⟨by simp [objGet], by simp [objGet], ?_⟩
      have hp' := (objGet_none_iff k pre).1 hp
      rw [List.map_append, List.findIdx?_append]
      have : (pre.map Prod.fst).findIdx? (· == k) = none := by
        rw [List.findIdx?_eq_none_iff]
        intro x hx
        obtain ⟨kv, hkv, rfl⟩ := List.mem_map.1 hx
        simpa using hp' kv hkv
      simp [this, hl, List.findIdx?_cons]
    | some u =>
      right
      refine ⟨by simp, ?_⟩
      have hm : ∃ kv ∈ pre, kv.1 = k := by
        refine Classical.byContradiction fun hn => ?_
        rw [(objGet_none_iff k pre).2 fun kv hkv e => hn ⟨kv, hkv, e⟩] at hp
        cases hp
      obtain ⟨kv, hkv, rfl⟩ := hm
      rw [List.map_append, List.findIdx?_append]
      cases hf : (pre.map Prod.fst).findIdx? (· == kv.1) with
      | none =>
        have := List.findIdx?_eq_none_iff.1 hf kv.1 (List.mem_map_of_mem hkv)
        simp at this
      | some m =>
        have := (List.findIdx?_eq_some_iff_getElem.1 hf).1
        simp only [List.length_map] at this
        simp only [Option.some_or]
        intro e
        cases e
        omega

/-! ### Edits -/

/-- One node is replaced; `vis` tells whether it was part of the program. -/
def Edit (n n' : Json) (vis : Bool) (j j' : Json) : Prop :=
  ∃ p, nodeAt p j = some n ∧ j' = replaceAt p n' j ∧ vis = visible p j

/-- Changed, or else the same. -/
def Chg {α : Type} (r : α → α → Prop) (vis : Bool) (a a' : α) : Prop := r a a' ∨ a' = a ∧ vis = false

theorem Chg.map {α β : Type} {r : α → α → Prop} {q : β → β → Prop} {vis : Bool} {a a' : α} (f : α → β) (h : Chg r vis a a')
    (hf : r a a' → q (f a) (f a')) : Chg q vis (f a) (f a') := by
  rcases h with h | ⟨rfl, h⟩
  · exact .inl (hf h)
  · exact .inr ⟨rfl, h⟩

/-- The node is replaced below the field. -/
structure Step (n n' : Json) (vis : Bool) (ps : List String) (k : String) (j j' : Json) : Prop where
  obj : IsObj j
  obj' : IsObj j'
  str : ∀ k', PlainKey k' → getStrForKey k' j' = getStrForKey k' j
  bool : ∀ k', PlainKey k' → getBoolForKey k' j' = getBoolForKey k' j
  other : ∀ k', k' ≠ k → Json.field? k' j' = Json.field? k' j
  below : (∃ v v' vis', Json.field? k j = some v ∧ Json.field? k j' = some v' ∧ Edit n n' vis' v v' ∧
      vis = (ps.contains k && vis')) ∨ (Json.field? k j' = Json.field? k j ∧ vis = false)

variable {n n' : Json}

/-- Neither a text nor a truth value. -/
def Container : Json → Prop
  | .obj _ => True
  | .arr _ => True
  | _ => False

theorem edit_container (ho : IsObj n) (ho' : IsObj n') {vis : Bool} {j j' : Json} (h : Edit n n' vis j j') :
    Container j ∧ Container j' := by
  obtain ⟨p, h1, rfl, _⟩ := h
  cases p with
  | nil =>
    simp only [nodeAt, Option.some.injEq] at h1
    subst h1
    obtain ⟨kvs, rfl⟩ := isObj_iff.1 ho
    obtain ⟨kvs', rfl⟩ := isObj_iff.1 ho'
    exact ⟨trivial, trivial⟩
  | cons i p =>
    simp only [nodeAt] at h1
    cases hc : j.children[i]? with
    | none => rw [hc] at h1; cases h1
    | some c =>
      simp only [replaceAt, hc]
      cases j with
      | obj kvs => exact ⟨trivial, trivial⟩
      | arr xs => exact ⟨trivial, trivial⟩
      | _ => simp [children] at hc

theorem edit_obj (ho : IsObj n) (ho' : IsObj n') {vis : Bool} {kvs : List (String × Json)} {j' : Json}
    (h : Edit n n' vis (.obj kvs) j') :
    (.obj kvs = n ∧ j' = n' ∧ vis = true) ∨
    ∃ k, Step n n' vis (((getStrForKey "nodeType" (.obj kvs)).map partsOf).getD []) k (.obj kvs) j' := by
  obtain ⟨p, h1, rfl, rfl⟩ := h
  cases p with
  | nil =>
    simp only [nodeAt, Option.some.injEq] at h1
    exact .inl ⟨h1, rfl, rfl⟩
  | cons i p =>
    right
    simp only [nodeAt, children] at h1
    cases hx : kvs[i]? with
    | none => simp [hx] at h1
    | some kv =>
      obtain ⟨k, v⟩ := kv
      have hc : (kvs.map Prod.snd)[i]? = some v := by simp [hx]
      simp only [hc] at h1
      have hrep : replaceAt (i :: p) n' (.obj kvs) = .obj (setField i (replaceAt p n' v) kvs) := by
        simp only [replaceAt, children, hc, setChildren, setField]
      have hE : Edit n n' (visible p v) v (replaceAt p n' v) := ⟨p, h1, rfl, rfl⟩
      obtain ⟨g1, g2⟩ := objGet_setField hx (replaceAt p n' v)
      have hcont := edit_container ho ho' hE
      rw [hrep]
      have hget : ∀ {α : Type} (f : Json → Option α), (∀ x, Container x → f x = none) → ∀ k', PlainKey k' →
          (get? k' (.obj (setField i (replaceAt p n' v) kvs))).bind f = (get? k' (.obj kvs)).bind f := by
        intro α f hf k' hk'
        rw [get?_obj hk', get?_obj hk']
        by_cases e : k' = k
        · subst e
          rcases g2 with ⟨h3, h4, _⟩ | ⟨h3, _⟩
          · rw [h3, h4]
            simp [hf _ hcont.1, hf _ hcont.2]
          · rw [h3]
        · rw [g1 k' e]
      refine ⟨k, trivial, trivial, fun k' hk' => hget asStr ?_ k' hk', fun k' hk' => hget asBool ?_ k' hk', fun k' hk' => g1 k' hk', ?_⟩
      · intro x hx; cases x <;> first | rfl | cases hx
      · intro x hx; cases x <;> first | rfl | cases hx
      · rcases g2 with ⟨h3, h4, h5⟩ | ⟨h3, h5⟩
        · refine .inl ⟨v, _, _, h3, h4, hE, ?_⟩
          simp only [visible, hx]
          cases getStrForKey "nodeType" (.obj kvs) with
          | none => simp
          | some t => simp [h5]
        · refine .inr ⟨h3, ?_⟩
          simp only [visible, hx]
          cases getStrForKey "nodeType" (.obj kvs) with
          | none => rfl
          | some t =>
            have : ((kvs.map Prod.fst).findIdx? (· == k) == some i) = false := by
              cases hb : ((kvs.map Prod.fst).findIdx? (· == k) == some i) with
              | false => rfl
              | true => exact absurd (by simpa using hb) h5
            simp only [this, Bool.false_and]

theorem edit_step (ho : IsObj n) (ho' : IsObj n') {t : String} {vis : Bool} {j j' : Json} (h : Edit n n' vis j j') (ht : IsA t j) :
    (j = n ∧ j' = n' ∧ vis = true) ∨ ∃ k, Step n n' vis (partsOf t) k j j' := by
  obtain ⟨kvs, rfl⟩ := isObj_of_isA ht
  have := edit_obj ho ho' h
  rw [show getStrForKey "nodeType" (.obj kvs) = some t from ht] at this
  exact this

/-- One of the elements of an array is edited. -/
theorem edit_arr (ho : IsObj n) {vis : Bool} {xs : List Json} {j' : Json} (h : Edit n n' vis (.arr xs) j') :
    ∃ pre x x' post, xs = pre ++ x :: post ∧ j' = .arr (pre ++ x' :: post) ∧ Edit n n' vis x x' := by
  obtain ⟨p, h1, rfl, rfl⟩ := h
  cases p with
  | nil =>
    simp only [nodeAt, Option.some.injEq] at h1
    subst h1
    exact ho.elim
  | cons i p =>
    simp only [nodeAt, children] at h1
    cases hx : xs[i]? with
    | none => rw [hx] at h1; cases h1
    | some v =>
      rw [hx] at h1
      have hlt := (List.getElem?_eq_some_iff.1 hx).1
      have hv := (List.getElem?_eq_some_iff.1 hx).2
      refine ⟨xs.take i, v, replaceAt p n' v, xs.drop (i + 1), ?_, ?_, p, h1, rfl, ?_⟩
      · rw [← hv, List.getElem_cons_drop, List.take_append_drop]
      · simp only [replaceAt, children, hx, setChildren]
        rw [List.set_eq_take_append_cons_drop, if_pos hlt]
      · simp only [visible, hx]

theorem no_edit (ho : IsObj n) (ho' : IsObj n') {vis : Bool} {j j' : Json} (hj : ¬ Container j) : ¬ Edit n n' vis j j' :=
  fun h => hj (edit_container ho ho' h).1

/-! ### The children of a node -/

variable {vis : Bool} {ps : List String} {k : String} {j j' : Json}

/-- What became of the child in the field `key`, if the edit is below the field `k`. -/
def Kid {α : Type} (vis : Bool) (k key : String) (r : α → α → Prop) (a a' : α) : Prop :=
  k = key ∧ Chg r vis a a' ∨ k ≠ key ∧ a' = a

theorem Step.isA (S : Step n n' vis ps k j j') {t : String} (h : IsA t j) : IsA t j' := by
  unfold IsA at *
  rw [S.str _ (by decide)]; exact h

theorem Step.hidden (S : Step n n' vis ps k j j') (h : k ∉ ps) : vis = false := by
  rcases S.below with ⟨_, _, vis', _, _, _, e⟩ | ⟨_, e⟩
  · rw [e]
    have : ps.contains k = false := by
      cases hb : ps.contains k with
      | false => rfl
      | true => exact absurd (List.contains_iff_mem.1 hb) h
    rw [this]; rfl
  · exact e

theorem Step.arr (S : Step n n' vis ps k j j') {key : String} (hk : PlainKey key) {xs : List Json} :
    getArrayForKey key j = some xs ↔ Json.field? key j = some (.arr xs) := by
  obtain ⟨kvs, rfl⟩ := isObj_iff.1 S.obj
  unfold getArrayForKey
  rw [get?_obj hk]
  show (objGet key kvs).bind asArray = _ ↔ objGet key kvs = _
  cases objGet key kvs with
  | none => simp
  | some v => cases v <;> simp [asArray]

theorem Step.arr' (S : Step n n' vis ps k j j') {key : String} (hk : PlainKey key) {xs : List Json} :
    getArrayForKey key j' = some xs ↔ Json.field? key j' = some (.arr xs) := by
  obtain ⟨kvs, rfl⟩ := isObj_iff.1 S.obj'
  unfold getArrayForKey
  rw [get?_obj hk]
  show (objGet key kvs).bind asArray = _ ↔ objGet key kvs = _
  cases objGet key kvs with
  | none => simp
  | some v => cases v <;> simp [asArray]

/-- A field that is not there. -/
theorem Step.gone (S : Step n n' vis ps k j j') {key : String} (h : Json.field? key j = none) : Json.field? key j' = none := by
  by_cases e : key = k
  · subst e
    rcases S.below with ⟨v, _, _, h1, _⟩ | ⟨h1, _⟩
    · rw [h] at h1; cases h1
    · rw [h1]; exact h
  · rw [S.other key e]; exact h

theorem Step.goneKid (S : Step n n' vis ps k j j') {key : String} (h : Json.field? key j = none) :
    Kid vis k key (fun _ _ : Unit => False) () () := by
  by_cases e : k = key
  · subst e
    rcases S.below with ⟨v, _, _, h1, _⟩ | ⟨_, h1⟩
    · rw [h] at h1; cases h1
    · exact .inl ⟨rfl, .inr ⟨rfl, h1⟩⟩
  · exact .inr ⟨e, rfl⟩

/-- A field with a value that is no container. -/
theorem Step.plain (ho : IsObj n) (ho' : IsObj n') (S : Step n n' vis ps k j j') {key : String} {v : Json}
    (h : Json.field? key j = some v) (hv : ∀ vis' v', ¬ Edit n n' vis' v v') : Json.field? key j' = some v := by
  by_cases e : key = k
  · subst e
    rcases S.below with ⟨v1, v', vis', h1, _, h2, _⟩ | ⟨h1, _⟩
    · rw [h] at h1; cases h1
      exact absurd h2 (hv _ _)
    · rw [h1]; exact h
  · rw [S.other key e]; exact h

/-- A field that holds a part of the program. -/
theorem Step.kid {α : Type} {P : α → Json → Prop} {r : α → α → Prop} {a : α} {v : Json} (S : Step n n' vis ps k j j')
    {key : String} (hv : Json.field? key j = some v) (hP : P a v)
    (ih : ∀ vis' v', Edit n n' vis' v v' → ∃ a', P a' v' ∧ Chg r vis' a a') (hps : ps.contains key = true) :
    ∃ v' a', Json.field? key j' = some v' ∧ P a' v' ∧ Kid vis k key r a a' := by
  by_cases e : k = key
  · subst e
    rcases S.below with ⟨w, w', vis', h1, h2, h3, h4⟩ | ⟨h1, h2⟩
    · rw [hv] at h1; cases h1
      obtain ⟨a', g1, g2⟩ := ih _ _ h3
      rw [hps, Bool.true_and] at h4
      subst h4
      exact ⟨w', a', h2, g1, .inl ⟨rfl, g2⟩⟩
    · exact ⟨v, a, by rw [h1, hv], hP, .inl ⟨rfl, .inr ⟨rfl, h2⟩⟩⟩
  · exact ⟨v, a, by rw [S.other _ (Ne.symm e), hv], hP, .inr ⟨e, rfl⟩⟩

/-- A field that holds something else, which survives. -/
theorem Step.keep {P : Json → Prop} {v : Json} (S : Step n n' vis ps k j j') {key : String}
    (hv : Json.field? key j = some v) (hP : P v) (ih : ∀ vis' v', Edit n n' vis' v v' → P v') :
    ∃ v', Json.field? key j' = some v' ∧ P v' := by
  by_cases e : k = key
  · subst e
    rcases S.below with ⟨w, w', vis', h1, h2, h3, _⟩ | ⟨h1, h2⟩
    · rw [hv] at h1; cases h1
      exact ⟨w', h2, ih _ _ h3⟩
    · exact ⟨v, by rw [h1, hv], hP⟩
  · exact ⟨v, by rw [S.other _ (Ne.symm e), hv], hP⟩

/-- A field that holds a list of parts of the program. -/
theorem Step.kids {α : Type} {r' : α → α → Prop} {as : α} {xs : List Json}
    (ho : IsObj n) (S : Step n n' vis ps k j j') {key : String} (hv : Json.field? key j = some (.arr xs))
    {Q : α → List Json → Prop} (hP : Q as xs)
    (ih : ∀ vis' pre x x' post, xs = pre ++ x :: post → Edit n n' vis' x x' →
      ∃ as', Q as' (pre ++ x' :: post) ∧ Chg r' vis' as as') (hps : ps.contains key = true) :
    ∃ xs' as', Json.field? key j' = some (.arr xs') ∧ Q as' xs' ∧ Kid vis k key r' as as' := by
  obtain ⟨v', as', h1, ⟨xs', h2, h3⟩, h4⟩ := S.kid (P := fun as v => ∃ xs, v = .arr xs ∧ Q as xs) (r := r') hv ⟨xs, rfl, hP⟩
    (fun vis' v' hE => by
      obtain ⟨pre, x, x', post, h1, h2, h3⟩ := edit_arr ho hE
      obtain ⟨as', g1, g2⟩ := ih _ pre x x' post h1 h3
      exact ⟨as', ⟨_, h2, g1⟩, g2⟩) hps
  subst h2
  exact ⟨xs', as', h1, h3, h4⟩

/-! ### Putting the children together -/

variable {β : Type} (q : β → β → Prop)

theorem Kid.same {α : Type} {key : String} {r : α → α → Prop} {a a' : α} (h : Kid vis k key r a a') (hk : k ≠ key) : a' = a := by
  rcases h with ⟨e, _⟩ | ⟨_, e⟩
  · exact absurd e hk
  · exact e

theorem Kid.chg {α : Type} {key : String} {r : α → α → Prop} {a a' : α} (h : Kid vis k key r a a') (hk : k = key) : Chg r vis a a' := by
  rcases h with ⟨_, e⟩ | ⟨e, _⟩
  · exact e
  · exact absurd hk e

theorem Step.nothing (S : Step n n' vis ps k j j') {b : β} (hps : ps = []) : Chg q vis b b :=
  .inr ⟨rfl, S.hidden (by rw [hps]; simp)⟩

theorem Step.one {α : Type} {r : α → α → Prop} {a a' : α} {k₁ : String} (S : Step n n' vis ps k j j') (f : α → β)
    (h₁ : Kid vis k k₁ r a a') (hps : ∀ x ∈ ps, x = k₁) (f₁ : r a a' → q (f a) (f a')) : Chg q vis (f a) (f a') := by
  by_cases e : k = k₁
  · exact (h₁.chg e).map f f₁
  · rw [h₁.same e]
    exact .inr ⟨rfl, S.hidden fun h => e (hps k h)⟩

theorem Step.two {α₁ α₂ : Type} {r₁ : α₁ → α₁ → Prop} {r₂ : α₂ → α₂ → Prop} {a a' : α₁} {b b' : α₂} {k₁ k₂ : String}
    (S : Step n n' vis ps k j j') (f : α₁ → α₂ → β) (h₁ : Kid vis k k₁ r₁ a a') (h₂ : Kid vis k k₂ r₂ b b')
    (hps : ∀ x ∈ ps, x = k₁ ∨ x = k₂) (hne : k₁ ≠ k₂) (f₁ : r₁ a a' → q (f a b) (f a' b)) (f₂ : r₂ b b' → q (f a b) (f a b')) :
    Chg q vis (f a b) (f a' b') := by
  by_cases e₁ : k = k₁
  · rw [h₂.same (by rw [e₁]; exact hne)]
    exact (h₁.chg e₁).map (f · b) f₁
  · rw [h₁.same e₁]
    by_cases e₂ : k = k₂
    · exact (h₂.chg e₂).map (f a ·) f₂
    · rw [h₂.same e₂]
      exact .inr ⟨rfl, S.hidden fun h => (hps k h).elim e₁ e₂⟩

theorem Step.three {α₁ α₂ α₃ : Type} {r₁ : α₁ → α₁ → Prop} {r₂ : α₂ → α₂ → Prop} {r₃ : α₃ → α₃ → Prop} {a a' : α₁} {b b' : α₂}
    {c c' : α₃} {k₁ k₂ k₃ : String} (S : Step n n' vis ps k j j') (f : α₁ → α₂ → α₃ → β) (h₁ : Kid vis k k₁ r₁ a a')
    (h₂ : Kid vis k k₂ r₂ b b') (h₃ : Kid vis k k₃ r₃ c c') (hps : ∀ x ∈ ps, x = k₁ ∨ x = k₂ ∨ x = k₃)
    (hne : k₁ ≠ k₂ ∧ k₁ ≠ k₃ ∧ k₂ ≠ k₃) (f₁ : r₁ a a' → q (f a b c) (f a' b c)) (f₂ : r₂ b b' → q (f a b c) (f a b' c))
    (f₃ : r₃ c c' → q (f a b c) (f a b c')) : Chg q vis (f a b c) (f a' b' c') := by
  by_cases e₁ : k = k₁
  · rw [h₂.same (by rw [e₁]; exact hne.1), h₃.same (by rw [e₁]; exact hne.2.1)]
    exact (h₁.chg e₁).map (f · b c) f₁
  · rw [h₁.same e₁]
    by_cases e₂ : k = k₂
    · rw [h₃.same (by rw [e₂]; exact hne.2.2)]
      exact (h₂.chg e₂).map (f a · c) f₂
    · rw [h₂.same e₂]
      by_cases e₃ : k = k₃
      · exact (h₃.chg e₃).map (f a b ·) f₃
      · rw [h₃.same e₃]
        exact .inr ⟨rfl, S.hidden fun h => (hps k h).elim e₁ (·.elim e₂ e₃)⟩

theorem Step.four {α₁ α₂ α₃ α₄ : Type} {r₁ : α₁ → α₁ → Prop} {r₂ : α₂ → α₂ → Prop} {r₃ : α₃ → α₃ → Prop} {r₄ : α₄ → α₄ → Prop}
    {a a' : α₁} {b b' : α₂} {c c' : α₃} {d d' : α₄} {k₁ k₂ k₃ k₄ : String} (S : Step n n' vis ps k j j')
    (f : α₁ → α₂ → α₃ → α₄ → β) (h₁ : Kid vis k k₁ r₁ a a') (h₂ : Kid vis k k₂ r₂ b b') (h₃ : Kid vis k k₃ r₃ c c')
    (h₄ : Kid vis k k₄ r₄ d d') (hps : ∀ x ∈ ps, x = k₁ ∨ x = k₂ ∨ x = k₃ ∨ x = k₄)
    (hne : k₁ ≠ k₂ ∧ k₁ ≠ k₃ ∧ k₁ ≠ k₄ ∧ k₂ ≠ k₃ ∧ k₂ ≠ k₄ ∧ k₃ ≠ k₄) (f₁ : r₁ a a' → q (f a b c d) (f a' b c d))
    (f₂ : r₂ b b' → q (f a b c d) (f a b' c d)) (f₃ : r₃ c c' → q (f a b c d) (f a b c' d))
    (f₄ : r₄ d d' → q (f a b c d) (f a b c d')) : Chg q vis (f a b c d) (f a' b' c' d') := by
  by_cases e₁ : k = k₁
  · rw [h₂.same (by rw [e₁]; exact hne.1), h₃.same (by rw [e₁]; exact hne.2.1), h₄.same (by rw [e₁]; exact hne.2.2.1)]
    exact (h₁.chg e₁).map (f · b c d) f₁
  · rw [h₁.same e₁]
    by_cases e₂ : k = k₂
    · rw [h₃.same (by rw [e₂]; exact hne.2.2.2.1), h₄.same (by rw [e₂]; exact hne.2.2.2.2.1)]
      exact (h₂.chg e₂).map (f a · c d) f₂
    · rw [h₂.same e₂]
      by_cases e₃ : k = k₃
      · rw [h₄.same (by rw [e₃]; exact hne.2.2.2.2.2)]
        exact (h₃.chg e₃).map (f a b · d) f₃
      · rw [h₃.same e₃]
        by_cases e₄ : k = k₄
        · exact (h₄.chg e₄).map (f a b c ·) f₄
        · rw [h₄.same e₄]
          exact .inr ⟨rfl, S.hidden fun h => (hps k h).elim e₁ (·.elim e₂ (·.elim e₃ e₄))⟩

end SolPrint
end Mutagenyx
