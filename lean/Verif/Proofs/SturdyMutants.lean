import Verif.Proofs.Sturdy
import Verif.Proofs.MutatorNodes
import Verif.Proofs.Comments
import Verif.Props.SolidityMutators

/-!
# Mutations of trees that can be printed
-/

namespace Mutagenyx
open Json

namespace Json

variable {c : Json → Bool}

theorem nest_goList_le {a : Nat} : {xs : List Json} → (∀ x ∈ xs, nest c x ≤ a) → nest.goList c xs ≤ a
  | [], _ => Nat.zero_le _
  | x :: xs, h => by
    simp only [nest.goList]
    exact Nat.max_le.2 ⟨h x (by simp), nest_goList_le fun y hy => h y (by simp [hy])⟩

theorem nest_goFields_le {a : Nat} : {kvs : List (String × Json)} → (∀ x ∈ kvs.map Prod.snd, nest c x ≤ a) →
    nest.goFields c kvs ≤ a
  | [], _ => Nat.zero_le _
  | (k, x) :: kvs, h => by
    simp only [nest.goFields]
    exact Nat.max_le.2 ⟨h x (by simp), nest_goFields_le fun y hy => h y (by rw [List.map_cons]; exact List.mem_cons_of_mem _ hy)⟩

theorem nest_of_children {n : Json} {a : Nat} (h : ∀ x ∈ n.children, nest c x ≤ a) :
    nest c n ≤ (if c n then 1 else 0) + a := by
  cases n with
  | arr xs =>
    show (if c (.arr xs) then 1 else 0) + nest.goList c xs ≤ _
    have := nest_goList_le (c := c) (xs := xs) h
    omega
  | obj kvs =>
    show (if c (.obj kvs) then 1 else 0) + nest.goFields c kvs ≤ _
    have := nest_goFields_le (c := c) (kvs := kvs) h
    omega
  | _ => exact Nat.zero_le _

theorem nest_self {n : Json} (h : n.IsObj) : (if c n then 1 else 0) ≤ nest c n := by
  obtain ⟨kvs, rfl⟩ := isObj_iff.1 h
  exact Nat.le_add_right _ _

/-! ### What the printer looks at -/

/-- The text of a value, and the texts of its elements. -/
def sig (v : Json) : Option String × Option (List (Option String)) := (v.asStr, v.asArray.map (·.map asStr))

theorem objGet_sig : {kvs kvs' : List (String × Json)} → (kvs.map fun kv => (kv.1, sig kv.2)) = (kvs'.map fun kv => (kv.1, sig kv.2)) →
    (k : String) → (objGet k kvs).map sig = (objGet k kvs').map sig
  | [], [], _, _ => rfl
  | [], _ :: _, h, _ => by cases h
  | _ :: _, [], h, _ => by cases h
  | (a, x) :: kvs, (b, y) :: kvs', h, k => by
    simp only [List.map_cons, List.cons.injEq, Prod.mk.injEq] at h
    obtain ⟨⟨rfl, hs⟩, ht⟩ := h
    simp only [objGet]
    split
    · simp [hs]
    · exact objGet_sig ht k

theorem sig_zip : (kvs : List (String × Json)) → (i : Nat) → {v v' : Json} → (kvs.map Prod.snd)[i]? = some v → sig v' = sig v →
    ((List.zipWith (fun kv c => (kv.1, c)) kvs ((kvs.map Prod.snd).set i v')).map fun kv => (kv.1, sig kv.2)) =
      (kvs.map fun kv => (kv.1, sig kv.2))
  | [], _, _, _, h, _ => by simp at h
  | (k, x) :: kvs, 0, v, v', h, hs => by
    simp only [List.map_cons, List.getElem?_cons_zero, Option.some.injEq] at h
    subst h
    simp only [List.map_cons, List.set_cons_zero, List.zipWith_cons_cons, hs, List.cons.injEq, true_and]
    clear hs
    induction kvs with
    | nil => rfl
    | cons kv kvs ih => simp [ih]
  | (k, x) :: kvs, i + 1, v, v', h, hs => by
    simp only [List.map_cons, List.getElem?_cons_succ] at h
    simp only [List.map_cons, List.set_cons_succ, List.zipWith_cons_cons, List.cons.injEq, true_and]
    exact sig_zip kvs i h hs

theorem objGet_zip_ne : (kvs : List (String × Json)) → (i : Nat) → {k k' : String} → (v' : Json) → (kvs.map Prod.fst)[i]? = some k →
    k ≠ k' → objGet k' (List.zipWith (fun kv c => (kv.1, c)) kvs ((kvs.map Prod.snd).set i v')) = objGet k' kvs
  | [], _, _, _, _, h, _ => by simp at h
  | (l, x) :: kvs, 0, k, k', v', h, hne => by
    simp only [List.map_cons, List.getElem?_cons_zero, Option.some.injEq] at h
    subst h
    simp only [List.map_cons, List.set_cons_zero, List.zipWith_cons_cons, objGet, hne, if_false]
    congr 1
    induction kvs with
    | nil => rfl
    | cons kv kvs ih => simp [ih]
  | (l, x) :: kvs, i + 1, k, k', v', h, hne => by
    simp only [List.map_cons, List.getElem?_cons_succ] at h
    simp only [List.map_cons, List.set_cons_succ, List.zipWith_cons_cons, objGet]
    split
    · rfl
    · exact objGet_zip_ne kvs i v' h hne

/-- Replacing an object somewhere by an object does not change what the printer looks at. -/
theorem sig_replace {x x' : Json} (hx : x.IsObj) (hx' : x'.IsObj) : {p : Pos} → {v : Json} → nodeAt p v = some x →
    sig (replaceAt p x' v) = sig v
  | [], v, h => by
    cases h
    obtain ⟨a, rfl⟩ := isObj_iff.1 hx
    obtain ⟨b, rfl⟩ := isObj_iff.1 hx'
    rfl
  | i :: p, v, h => by
    simp only [nodeAt, replaceAt] at h ⊢
    cases hc : v.children[i]? with
    | none => simp [hc] at h
    | some d =>
      rw [hc] at h
      have ih := sig_replace hx hx' h
      cases v with
      | arr xs =>
        simp only [setChildren, sig, asStr, asArray, Option.map_some, Prod.mk.injEq, Option.some.injEq, true_and]
        simp only [children] at hc ⊢
        rw [List.map_set, show asStr (replaceAt p x' d) = asStr d from congrArg Prod.fst ih]
        apply List.ext_getElem?
        intro m
        rw [List.getElem?_set]
        split
        · rename_i he
          subst he
          rw [if_pos (by rw [List.length_map]; exact (List.getElem?_eq_some_iff.1 hc).1), List.getElem?_map, hc]
          rfl
        · rfl
      | obj kvs => rfl
      | _ => cases hc

end Json

namespace SolPrint

/-- The kinds of nodes that are of one of these types are looked at more closely by the printer. -/
def picky : List String := ["FunctionCall", "FunctionCallOptions", "Comment", "StructuredDocumentation", "InlineAssembly"]

theorem sturdy_of_type {w : Option Nat} {n : Json} {t : String} (h : n.getStrForKey "nodeType" = some t) (ht : t ∉ picky) :
    Sturdy w n := by
  simp only [picky, List.mem_cons, List.not_mem_nil, or_false, not_or] at ht
  obtain ⟨h1, h2, h3, h4, h5⟩ := ht
  refine ⟨fun h' => ?_, fun h' => ?_, fun h' => ?_, fun h' => ?_, fun h' => ?_⟩ <;>
    (rw [h] at h'; cases h'; contradiction)

theorem sturdy_of_none {w : Option Nat} {n : Json} (h : n.getStrForKey "nodeType" = none) : Sturdy w n := by
  refine ⟨fun h' => ?_, fun h' => ?_, fun h' => ?_, fun h' => ?_, fun h' => ?_⟩ <;> (rw [h] at h'; cases h')

theorem getStr_sig {k : String} (hk : PlainKey k) {a b : List (String × Json)}
    (h : (objGet k a).map sig = (objGet k b).map sig) : getStrForKey k (.obj a) = getStrForKey k (.obj b) := by
  unfold getStrForKey
  rw [get?_obj hk, get?_obj hk]
  cases ha : objGet k a <;> cases hb : objGet k b <;> rw [ha, hb] at h <;> simp [sig] at h ⊢
  exact h.1

theorem getArray_sig {k : String} (hk : PlainKey k) {a b : List (String × Json)}
    (h : (objGet k a).map sig = (objGet k b).map sig) :
    (getArrayForKey k (.obj a)).map (·.map asStr) = (getArrayForKey k (.obj b)).map (·.map asStr) := by
  unfold getArrayForKey
  rw [get?_obj hk, get?_obj hk]
  cases ha : objGet k a <;> cases hb : objGet k b <;> rw [ha, hb] at h <;> simp [sig] at h ⊢
  exact h.2

/-- Two lists with the same texts. -/
theorem named_sig {w : Option Nat} {a b : List (String × Json)} (h : ∀ k, (objGet k a).map sig = (objGet k b).map sig) (hs : Sturdy w (.obj a)) :
    Sturdy w (.obj b) := by
  have hstr : ∀ k, PlainKey k → getStrForKey k (.obj b) = getStrForKey k (.obj a) := fun k hk => (getStr_sig hk (h k)).symm
  have harr : ∀ k, PlainKey k → ∀ ys, getArrayForKey k (.obj b) = some ys →
      ∃ xs, getArrayForKey k (.obj a) = some xs ∧ xs.map asStr = ys.map asStr := by
    intro k hk ys hy
    have := getArray_sig hk (h k)
    rw [hy] at this
    cases hx : getArrayForKey k (.obj a) with
    | none => rw [hx] at this; cases this
    | some xs => rw [hx] at this; exact ⟨xs, rfl, by simpa using this⟩
  have hlen : ∀ {xs ys : List Json}, xs.map asStr = ys.map asStr → xs.length = ys.length := fun h => by
    simpa using congrArg List.length h
  have hall : ∀ {xs ys : List Json}, xs.map asStr = ys.map asStr → (∀ x ∈ xs, x.asStr.isSome) → ∀ y ∈ ys, y.asStr.isSome := by
    intro xs ys he hx y hy
    have : y.asStr ∈ xs.map asStr := by rw [he]; exact List.mem_map_of_mem hy
    obtain ⟨x, hx1, hx2⟩ := List.mem_map.1 this
    rw [← hx2]; exact hx x hx1
  have ht := hstr "nodeType" (by decide)
  refine ⟨?_, ?_, ?_, ?_, ?_⟩
  · intro h1 k ks vs h2 h3
    obtain ⟨xs, hx, ex⟩ := harr "names" (by decide) _ h2
    obtain ⟨zs, hz, ez⟩ := harr "arguments" (by decide) _ h3
    cases xs with
    | nil => cases ex
    | cons x xs =>
      obtain ⟨e1, e2⟩ := hs.call (ht ▸ h1) x xs zs hx hz
      exact ⟨by rw [← hlen ex, ← hlen ez]; exact e1, hall ex e2⟩
  · intro h1 ks vs h2 h3
    obtain ⟨xs, hx, ex⟩ := harr "names" (by decide) _ h2
    obtain ⟨zs, hz, ez⟩ := harr "options" (by decide) _ h3
    obtain ⟨e1, e2⟩ := hs.options (ht ▸ h1) xs zs hx hz
    exact ⟨by rw [← hlen ex, ← hlen ez]; exact e1, hall ex e2⟩
  · exact fun h1 t h2 => hs.comment (ht ▸ h1) t (hstr "text" (by decide) ▸ h2)
  · exact fun h1 t h2 => hs.doc (ht ▸ h1) t (hstr "text" (by decide) ▸ h2)
  · exact fun h1 t h2 => hs.assembly (ht ▸ h1) t (hstr "documentation" (by decide) ▸ h2)

/-! ### Trees of sturdy nodes -/

/-- All nodes of the tree are sturdy, and there are at most so many levels of indentation. -/
structure Safe (w : Option Nat) (b : Nat) (n : Json) : Prop where
  sturdy : ∀ m, Within m n → Sturdy w m
  levels : nest indents n ≤ b

theorem Safe.mono {w : Option Nat} {a b : Nat} {n : Json} (h : Safe w a n) (hab : a ≤ b) : Safe w b n :=
  ⟨h.sturdy, Nat.le_trans h.levels hab⟩

theorem Safe.part {w : Option Nat} {b : Nat} {m n : Json} (h : Safe w b n) (hm : Within m n) : Safe w b m :=
  ⟨fun _ hx => h.sturdy _ (hx.trans hm), Nat.le_trans (nest_within hm) h.levels⟩

/-- The levels below a node. -/
def below (b : Nat) (n : Json) : Nat := b - (if indents n then 1 else 0)

theorem Safe.child {w : Option Nat} {b : Nat} {x n : Json} (h : Safe w b n) (hx : x ∈ n.children) : Safe w (below b n) x := by
  refine ⟨fun _ hm => h.sturdy _ (.step hx hm), ?_⟩
  have h1 := nest_child (c := indents) hx
  have h2 := h.levels
  unfold below
  omega

theorem Safe.inside {w : Option Nat} {b : Nat} {x n : Json} (h : Safe w b n) (hx : Inside x n) : Safe w (below b n) x :=
  (h.child hx.choose_spec.1).part hx.choose_spec.2

theorem safe_node {w : Option Nat} {b : Nat} {n : Json} (hs : Sturdy w n) (hb : (if indents n then 1 else 0) ≤ b)
    (hc : ∀ x ∈ n.children, Safe w (below b n) x) : Safe w b n := by
  refine ⟨fun m hm => ?_, ?_⟩
  · cases hm with
    | refl => exact hs
    | step h1 h2 => exact (hc _ h1).sturdy _ h2
  · have := nest_of_children (c := indents) (n := n) fun x hx => (hc x hx).levels
    unfold below at this
    omega

theorem safe_leaf {w : Option Nat} {b : Nat} {n : Json} (h : n.children = []) : Safe w b n := by
  refine safe_node (sturdy_of_none ?_) ?_ fun x hx => by rw [h] at hx; cases hx
  · cases n with
    | arr xs => rfl
    | obj kvs =>
      have : kvs = [] := List.map_eq_nil_iff.1 h
      subst this
      rfl
    | _ => rfl
  · cases n with
    | obj kvs =>
      have : kvs = [] := List.map_eq_nil_iff.1 h
      subst this
      exact Nat.zero_le _
    | _ => exact Nat.zero_le _

theorem indents_arr (xs : List Json) : indents (.arr xs) = false := rfl

theorem safe_arr {w : Option Nat} {b : Nat} {xs : List Json} (h : ∀ x ∈ xs, Safe w b x) : Safe w b (.arr xs) := by
  refine safe_node (sturdy_of_none rfl) (by simp [indents_arr]) fun x hx => ?_
  simp only [below, indents_arr]
  exact h x hx

theorem indents_congr {n n' : Json} (h : n'.getStrForKey "nodeType" = n.getStrForKey "nodeType") : indents n' = indents n := by
  unfold indents
  rw [h]

/-- Replacing an object somewhere in the tree by another one. -/
theorem safe_replace {w : Option Nat} {x x' : Json} (hx : x.IsObj) (hx' : x'.IsObj) (hsafe : ∀ b, Safe w b x → Safe w (b + 1) x') :
    {p : Pos} → {v : Json} → {b : Nat} → nodeAt p v = some x → Safe w b v → Safe w (b + 1) (replaceAt p x' v)
  | [], v, b, h, hs => by cases h; exact hsafe b hs
  | i :: p, v, b, h, hs => by
    have hsig := sig_replace hx hx' h
    simp only [nodeAt, replaceAt] at h hsig ⊢
    cases hc : v.children[i]? with
    | none => rw [hc] at h; cases h
    | some d =>
      rw [hc] at h hsig
      simp only at h ⊢
      have hd := List.mem_of_getElem? hc
      have ih := safe_replace hx hx' hsafe h (hs.child hd)
      have kids : ∀ y ∈ (setChildren v (v.children.set i (replaceAt p x' d))).children, Safe w (below b v + 1) y := by
        intro y hy
        rw [children_setChildren _ _ (by simp)] at hy
        rcases List.mem_or_eq_of_mem_set hy with hy | rfl
        · exact (hs.child hy).mono (by omega)
        · exact ih
      cases v with
      | arr xs =>
        refine safe_arr fun y hy => ?_
        have := kids y hy
        simpa [below, indents_arr] using this
      | obj kvs =>
        have hget := objGet_sig (sig_zip kvs i (v' := replaceAt p x' d) hc (sig_replace hx hx' h))
        have ht : getStrForKey "nodeType" (setChildren (.obj kvs) ((children (.obj kvs)).set i (replaceAt p x' d))) =
            getStrForKey "nodeType" (.obj kvs) := getStr_sig (by decide) (hget "nodeType")
        have hi := indents_congr ht
        have hb := Nat.le_trans (nest_self (c := indents) (n := .obj kvs) trivial) hs.levels
        refine safe_node (named_sig (fun k => (hget k).symm) (hs.sturdy _ (.refl _))) (by rw [hi]; omega) fun y hy => ?_
        refine (kids y hy).mono ?_
        unfold below
        rw [hi]
        omega
      | _ => cases hc

/-! ### Fields -/

theorem set_children {k : String} (hk : PlainKey k) {v j x : Json} (hj : j.IsObj) (hx : x ∈ (setNodeForKey k v j).children) :
    x = v ∨ x ∈ j.children := by
  obtain ⟨kvs, rfl⟩ := isObj_iff.1 hj
  unfold setNodeForKey at hx
  rw [pointerSet_plain hk] at hx
  by_cases h : (get? k (.obj kvs)).isSome
  · simp only [h, if_true, stepSet, children, List.mem_map] at hx
    obtain ⟨kv, hkv, rfl⟩ := hx
    rcases mem_objReplace hkv with rfl | hkv
    · exact Or.inl rfl
    · exact Or.inr (List.mem_map_of_mem hkv)
  · simp only [h, Bool.false_eq_true, if_false, children, List.mem_map] at hx
    obtain ⟨kv, hkv, rfl⟩ := hx
    rcases mem_objInsert hkv with rfl | hkv
    · exact Or.inl rfl
    · exact Or.inr (List.mem_map_of_mem hkv)

theorem take_children {k : String} (hk : PlainKey k) {j j1 x : Json} {o : Option Json} (hj : j.IsObj)
    (h : takeValueForKey k j = (o, j1)) (hx : x ∈ j1.children) : x = .null ∨ x ∈ j.children := by
  obtain ⟨kvs, rfl⟩ := isObj_iff.1 hj
  have h2 := takeValueForKey_snd hk (.obj kvs)
  rw [h] at h2
  simp only at h2
  subst h2
  by_cases h : (get? k (.obj kvs)).isSome
  · simp only [h, if_true, stepSet, children, List.mem_map] at hx
    obtain ⟨kv, hkv, rfl⟩ := hx
    rcases mem_objReplace hkv with rfl | hkv
    · exact Or.inl rfl
    · exact Or.inr (List.mem_map_of_mem hkv)
  · simp only [h, Bool.false_eq_true, if_false] at hx
    exact Or.inr hx

theorem type_set {k : String} (hk : PlainKey k) (hne : k ≠ "nodeType") {v j : Json} (hj : j.IsObj) :
    getStrForKey "nodeType" (setNodeForKey k v j) = getStrForKey "nodeType" j := by
  unfold getStrForKey
  rw [get?_setNodeForKey hk (by decide) v hj, if_neg hne]

theorem type_take {k : String} (hk : PlainKey k) (hne : k ≠ "nodeType") {j j1 : Json} {o : Option Json} (hj : j.IsObj)
    (h : takeValueForKey k j = (o, j1)) : getStrForKey "nodeType" j1 = getStrForKey "nodeType" j := by
  have := get?_take hk (show PlainKey "nodeType" by decide) hj
  rw [h] at this
  unfold getStrForKey
  rw [this, if_neg fun h => hne h.1]

theorem safe_like {w : Option Nat} {b : Nat} {j j' : Json} (hj : j.IsObj) (hs : Safe w b j)
    (ht : getStrForKey "nodeType" j' = getStrForKey "nodeType" j) (hst : Sturdy w j')
    (hc : ∀ x ∈ j'.children, x ∈ j.children ∨ Safe w (below b j + 1) x) : Safe w (b + 1) j' := by
  have hi := indents_congr ht
  have hb := Nat.le_trans (nest_self (c := indents) hj) hs.levels
  refine safe_node hst (by rw [hi]; omega) fun x hx => ?_
  have : Safe w (below b j + 1) x := (hc x hx).elim (fun h => (hs.child h).mono (by omega)) id
  refine this.mono ?_
  unfold below
  rw [hi]
  omega

/-- Setting a field of a node that the printer does not look at closely. -/
theorem safe_set {w : Option Nat} {b : Nat} {j v : Json} {k t : String} (hj : j.IsObj) (hs : Safe w b j) (hk : PlainKey k)
    (hne : k ≠ "nodeType") (ht : getStrForKey "nodeType" j = some t) (hp : t ∉ picky) (hv : Safe w (below b j + 1) v) :
    Safe w (b + 1) (setNodeForKey k v j) := by
  have h1 := type_set hk hne (v := v) hj
  refine safe_like hj hs h1 (sturdy_of_type (h1.trans ht) hp) fun x hx => ?_
  rcases set_children hk hj hx with rfl | hx
  · exact Or.inr hv
  · exact Or.inl hx

/-- The same for a field that was taken before. -/
theorem safe_take_set {w : Option Nat} {b : Nat} {j j1 v : Json} {o : Option Json} {k t : String} (hj : j.IsObj) (hs : Safe w b j)
    (hk : PlainKey k) (hne : k ≠ "nodeType") (hty : getStrForKey "nodeType" j = some t) (hp : t ∉ picky)
    (htk : takeValueForKey k j = (o, j1)) (hv : Safe w (below b j + 1) v) : Safe w (b + 1) (setNodeForKey k v j1) := by
  have hj1 := (take_eq hk hj htk).2.1
  have h1 := (type_set hk hne (v := v) hj1).trans (type_take hk hne hj htk)
  refine safe_like hj hs h1 (sturdy_of_type (h1.trans hty) hp) fun x hx => ?_
  rcases set_children hk hj1 hx with rfl | hx
  · exact Or.inr hv
  · rcases take_children hk hj htk hx with rfl | hx
    · exact Or.inr (safe_leaf rfl)
    · exact Or.inl hx

/-! ### New nodes -/

theorem ofFields_children {l : List (String × Json)} {x : Json} (h : x ∈ (Json.ofFields l).children) : x ∈ l.map Prod.snd := by
  have key : ∀ (l acc : List (String × Json)) (kv : String × Json), kv ∈ l.foldl (fun acc kv => objInsert kv.1 kv.2 acc) acc →
      kv ∈ acc ∨ kv ∈ l := by
    intro l
    induction l with
    | nil => exact fun _ _ h => Or.inl h
    | cons a l ih =>
      intro acc kv h
      rcases ih _ _ h with h | h
      · rcases mem_objInsert h with rfl | h
        · exact Or.inr (by simp)
        · exact Or.inl h
      · exact Or.inr (List.mem_cons_of_mem _ h)
  obtain ⟨kv, hkv, rfl⟩ := List.mem_map.1 h
  rcases key l [] kv hkv with h | h
  · cases h
  · exact List.mem_map_of_mem h

/-- A node of a type that is neither indented nor looked at closely. -/
theorem safe_plain {w : Option Nat} {b : Nat} {n : Json} {t : String} (ht : getStrForKey "nodeType" n = some t)
    (hp : t ∈ ["Literal", "TupleExpression", "UnaryOperation"]) (hc : ∀ x ∈ n.children, Safe w b x) : Safe w b n := by
  have hi : indents n = false ∧ t ∉ picky := by
    unfold indents
    rw [ht]
    simp only [List.mem_cons, List.not_mem_nil, or_false] at hp
    rcases hp with rfl | rfl | rfl <;> decide
  exact safe_node (sturdy_of_type ht hi.2) (by simp [hi.1]) fun x hx => by simpa [below, hi.1] using hc x hx

theorem safe_untyped {w : Option Nat} {b : Nat} {n : Json} (ht : getStrForKey "nodeType" n = none)
    (hc : ∀ x ∈ n.children, Safe w b x) : Safe w b n := by
  have hi : indents n = false := by unfold indents; rw [ht]
  exact safe_node (sturdy_of_none ht) (by simp [hi]) fun x hx => by simpa [below, hi] using hc x hx

theorem type_fields {l : List (String × Json)} {t : String} (ht : lastField "nodeType" l none = some (.str t)) :
    getStrForKey "nodeType" (Json.ofFields l) = some t :=
  getStr_of_text (by decide) (by unfold TextField; rw [field_ofFields, ht])

theorem safe_fields {w : Option Nat} {b : Nat} {l : List (String × Json)} {t : String}
    (ht : lastField "nodeType" l none = some (.str t)) (hp : t ∈ ["Literal", "TupleExpression", "UnaryOperation"])
    (hc : ∀ kv ∈ l, Safe w b kv.2) : Safe w b (Json.ofFields l) :=
  safe_plain (type_fields ht) hp fun x hx => by
    obtain ⟨kv, h, rfl⟩ := List.mem_map.1 (ofFields_children hx)
    exact hc kv h

theorem safe_typeDescriptions {w : Option Nat} {b : Nat} (s t : String) :
    Safe w b (Json.ofFields [("typeIdentifier", .str s), ("typeString", .str t)]) :=
  safe_untyped (by
    unfold getStrForKey
    rw [get?_field (by decide) (ofFields_isObj _), field_ofFields]
    simp [lastField]) fun x hx => by
    have := ofFields_children hx
    simp only [List.map_cons, List.map_nil, List.mem_cons, List.not_mem_nil, or_false] at this
    rcases this with rfl | rfl <;> exact safe_leaf rfl

theorem safe_integer {w : Option Nat} {b : Nat} (i : Int) : Safe w b (Solidity.integerConstantNode i) := by
  refine safe_fields (t := "Literal") (by simp [lastField]) (by decide) fun kv hkv => ?_
  simp only [List.mem_cons, List.not_mem_nil, or_false] at hkv
  rcases hkv with rfl | rfl | rfl | rfl | rfl | rfl | rfl | rfl | rfl | rfl <;>
    first | exact safe_leaf rfl | exact safe_typeDescriptions _ _

theorem safe_boolean {w : Option Nat} {b : Nat} (v : Bool) : Safe w b (Solidity.booleanLiteralNode v) := by
  refine safe_fields (t := "Literal") (by simp [lastField]) (by decide) fun kv hkv => ?_
  simp only [List.mem_cons, List.not_mem_nil, or_false] at hkv
  rcases hkv with rfl | rfl | rfl | rfl | rfl | rfl | rfl | rfl | rfl | rfl <;>
    first | exact safe_leaf rfl | exact safe_typeDescriptions _ _

theorem safe_tuple {w : Option Nat} {b : Nat} {vs : List Json} (h : ∀ v ∈ vs, Safe w b v) :
    Safe w b (Solidity.tupleExpressionNode vs) := by
  refine safe_plain (t := "TupleExpression") (getStr_of_text (by decide) (show IsKind _ _ from rfl)) (by decide) fun x hx => ?_
  rcases set_children (by decide) (ofFields_isObj _) hx with rfl | hx
  · exact safe_arr h
  · have := ofFields_children hx
    simp only [List.map_cons, List.map_nil, List.mem_cons, List.not_mem_nil, or_false] at this
    rcases this with rfl | rfl | rfl | rfl | rfl | rfl | rfl | rfl <;> exact safe_leaf rfl

theorem safe_unary {w : Option Nat} {b : Nat} {op : String} {pre : Bool} {v : Json} (h : Safe w b v) :
    Safe w b (Solidity.unaryOpNode op pre v) := by
  refine safe_plain (t := "UnaryOperation") ?_ (by decide) fun x hx => ?_
  · unfold Solidity.unaryOpNode
    rw [type_set (by decide) (by decide) (ofFields_isObj _)]
    exact type_fields (by simp [lastField])
  rcases set_children (by decide) (ofFields_isObj _) hx with rfl | hx
  · exact h
  · have := ofFields_children hx
    simp only [List.map_cons, List.map_nil, List.mem_cons, List.not_mem_nil, or_false] at this
    rcases this with rfl | rfl | rfl | rfl | rfl | rfl | rfl | rfl | rfl <;> exact safe_leaf rfl

theorem safe_bracketed {w : Option Nat} {b : Nat} {v td : Json} (h : Safe w b v) (htd : Safe w b td) : Safe w b (Json.ofFields
    [("id", Solidity.jint 99996), ("isConstant", .bool false), ("isInlineArray", .bool false),
     ("isLValue", .bool false), ("isPure", .bool false), ("lValueRequested", .bool false),
     ("nodeType", .str "TupleExpression"), ("typeDescriptions", td), ("components", .arr [v])]) := by
  refine safe_fields (t := "TupleExpression") (by simp [lastField]) (by decide) fun kv hkv => ?_
  simp only [List.mem_cons, List.not_mem_nil, or_false] at hkv
  rcases hkv with rfl | rfl | rfl | rfl | rfl | rfl | rfl | rfl | rfl
  iterate 7 exact safe_leaf rfl
  · exact htd
  · refine safe_arr fun x hx => ?_
    rw [List.mem_singleton.1 hx]
    exact h

theorem safe_not {w : Option Nat} {b : Nat} {v td : Json} (h : Safe w b v) (htd : Safe w b td) : Safe w b (Json.ofFields
    [("id", Solidity.jint 99999), ("isConstant", .bool false), ("isLValue", .bool false), ("isPure", .bool true),
     ("lValueRequested", .bool false), ("nodeType", .str "UnaryOperation"), ("operator", .str "!"),
     ("prefix", .bool true), ("typeDescriptions", td), ("subExpression", v)]) := by
  refine safe_fields (t := "UnaryOperation") (by simp [lastField]) (by decide) fun kv hkv => ?_
  simp only [List.mem_cons, List.not_mem_nil, or_false] at hkv
  rcases hkv with rfl | rfl | rfl | rfl | rfl | rfl | rfl | rfl | rfl | rfl
  iterate 8 exact safe_leaf rfl
  · exact htd
  · exact h

theorem safe_requireNegation {w : Option Nat} {b : Nat} {v : Json} (h : Safe w b v) : Safe w b (Solidity.requireNegation v) :=
  safe_not (safe_bracketed h (safe_typeDescriptions _ _)) (safe_typeDescriptions _ _)

theorem safe_unchecked {w : Option Nat} {b i : Nat} {v : Json} (h : Safe w b v) :
    Safe w (b + 1) (Solidity.uncheckedBlockNode [v] i) := by
  have ht : getStrForKey "nodeType" (Solidity.uncheckedBlockNode [v] i) = some "UncheckedBlock" :=
    getStr_of_text (by decide) (uncheckedBlockNode_spec v i).1
  have hi : indents (Solidity.uncheckedBlockNode [v] i) = true := by unfold indents; rw [ht]; decide
  refine safe_node (sturdy_of_type (t := "UncheckedBlock") ht (by decide)) ?_ fun x hx => ?_
  · rw [hi]
    simp
  · have : below (b + 1) (Solidity.uncheckedBlockNode [v] i) = b := by
      unfold below
      rw [hi]
      simp
    rw [this]
    rcases set_children (by decide) (setNodeForKey_isObj (by decide) _ (ofFields_isObj _)) hx with rfl | hx
    · exact safe_leaf rfl
    · rcases set_children (by decide) (ofFields_isObj _) hx with rfl | hx
      · refine safe_arr fun x hx => ?_
        rw [List.mem_singleton.1 hx]
        exact h
      · have := ofFields_children hx
        simp only [List.map_cons, List.map_nil, List.mem_cons, List.not_mem_nil, or_false] at this
        rcases this with rfl | rfl | rfl <;> exact safe_leaf rfl

/-- A deleted statement. -/
theorem safe_deleted {w : Option Nat} {b : Nat} {v : Json} (h : Safe w b v) : Safe w b (Solidity.commentNodeFromNode v) := by
  have ht : getStrForKey "nodeType" (Solidity.commentNodeFromNode v) = some "Comment" :=
    getStr_of_text (by decide) (commentNodeFromNode_spec v).1
  have hn : getStrForKey "text" (Solidity.commentNodeFromNode v) = none := by
    unfold getStrForKey Solidity.commentNodeFromNode
    rw [get?_setNodeForKey (by decide) (by decide) _ (setNodeForKey_isObj (by decide) _ (ofFields_isObj _)), if_neg (by decide),
      get?_setNodeForKey (by decide) (by decide) _ (ofFields_isObj _), if_neg (by decide),
      get?_field (by decide) (ofFields_isObj _), field_ofFields]
    simp [lastField]
  have hi : indents (Solidity.commentNodeFromNode v) = false := by unfold indents; rw [ht]; decide
  refine safe_node ?_ (by simp [hi]) fun x hx => ?_
  · refine ⟨fun h' => ?_, fun h' => ?_, fun _ t h' => ?_, fun h' => ?_, fun h' => ?_⟩
    · rw [ht] at h'; exact absurd h' (by decide)
    · rw [ht] at h'; exact absurd h' (by decide)
    · rw [hn] at h'; cases h'
    · rw [ht] at h'; exact absurd h' (by decide)
    · rw [ht] at h'; exact absurd h' (by decide)
  · simp only [below, hi, Bool.false_eq_true, if_false, Nat.sub_zero]
    rcases set_children (by decide) (setNodeForKey_isObj (by decide) _ (ofFields_isObj _)) hx with rfl | hx
    · exact safe_leaf rfl
    · rcases set_children (by decide) (ofFields_isObj _) hx with rfl | hx
      · exact h
      · have := ofFields_children hx
        simp only [List.map_cons, List.map_nil, List.mem_cons, List.not_mem_nil, or_false] at this
        rcases this with rfl | rfl | rfl | rfl | rfl | rfl | rfl <;> exact safe_leaf rfl

/-- A comment with short words. -/
theorem safe_comment {w : Option Nat} {b : Nat} {text : String} (h : ShortWords w text.toList) :
    Safe w b (Solidity.commentNode text) := by
  have ht : getStrForKey "nodeType" (Solidity.commentNode text) = some "Comment" := by
    unfold Solidity.commentNode
    rw [type_set (by decide) (by decide) (ofFields_isObj _)]
    exact type_fields (by simp [lastField])
  have hn : getStrForKey "text" (Solidity.commentNode text) = some text := by
    unfold getStrForKey Solidity.commentNode
    rw [get?_setNodeForKey (by decide) (by decide) _ (ofFields_isObj _), if_pos rfl]
    rfl
  have hi : indents (Solidity.commentNode text) = false := by unfold indents; rw [ht]; decide
  refine safe_node ?_ (by simp [hi]) fun x hx => ?_
  · refine ⟨fun h' => ?_, fun h' => ?_, fun _ t h' _ => ?_, fun h' => ?_, fun h' => ?_⟩
    · rw [ht] at h'; exact absurd h' (by decide)
    · rw [ht] at h'; exact absurd h' (by decide)
    · rw [hn] at h'; cases h'; exact h
    · rw [ht] at h'; exact absurd h' (by decide)
    · rw [ht] at h'; exact absurd h' (by decide)
  · rcases set_children (by decide) (ofFields_isObj _) hx with rfl | hx
    · exact safe_leaf rfl
    · have := ofFields_children hx
      simp only [List.map_cons, List.map_nil, List.mem_cons, List.not_mem_nil, or_false] at this
      rcases this with rfl | rfl | rfl | rfl | rfl | rfl | rfl <;> exact safe_leaf rfl

/-! ### The mutators -/

theorem kind_type {t : String} {j : Json} (h : IsKind t j) : getStrForKey "nodeType" j = some t := getStr_of_text (by decide) h

theorem sturdy_call {w : Option Nat} {j j' : Json} {xs ys : List Json} (hof : OnlyField "arguments" j j')
    (h1 : j.field "arguments" = some (.arr xs)) (h2 : j'.field "arguments" = some (.arr ys)) (hl : ys.length = xs.length)
    (hk : IsKind "FunctionCall" j) (hs : Sturdy w j) : Sturdy w j' := by
  have ht : getStrForKey "nodeType" j' = some "FunctionCall" := kind_type (by
    unfold IsKind TextField
    rw [hof.2.2 _ (by decide)]
    exact hk)
  have harr : ∀ {n : Json} (k : String), n.IsObj → PlainKey k → getArrayForKey k n = (field k n).bind asArray := fun k hn hp => by
    unfold getArrayForKey
    rw [get?_field hp hn]
  refine ⟨fun _ k ks vs h3 h4 => ?_, fun h' => ?_, fun h' => ?_, fun h' => ?_, fun h' => ?_⟩
  · rw [harr _ hof.2.1 (by decide), h2] at h4
    cases h4
    rw [harr _ hof.2.1 (by decide), hof.2.2 _ (by decide), ← harr _ hof.1 (by decide)] at h3
    have := hs.call (kind_type hk) k ks xs h3 (by rw [harr _ hof.1 (by decide), h1]; rfl)
    exact ⟨this.1.trans hl.symm, this.2⟩
  all_goals (rw [ht] at h'; exact absurd h' (by decide))

theorem setAt_children {k : String} (hk : PlainKey k) {v j x : Json} {i : Nat} (hj : j.IsObj)
    (hx : x ∈ (setNodeForKeyAtIndex k i v j).children) :
    x ∈ j.children ∨ ∃ xs, field k j = some (.arr xs) ∧ x = .arr (xs.set i v) := by
  obtain ⟨kvs, rfl⟩ := isObj_iff.1 hj
  unfold setNodeForKeyAtIndex at hx
  split at hx
  · rename_i xs hg
    split at hx
    · rw [pointerSet_plain hk, hg] at hx
      simp only [Option.isSome_some, if_true, Option.getD_some, stepSet, children, List.mem_map] at hx
      obtain ⟨kv, hkv, rfl⟩ := hx
      rcases mem_objReplace hkv with rfl | hkv
      · exact Or.inr ⟨xs, by rw [← get?_field hk hj]; exact hg, rfl⟩
      · exact Or.inl (List.mem_map_of_mem hkv)
    · exact Or.inl hx
  · exact Or.inl hx

variable {R : Type} [Rand R]

/-- The elements of a list in a field of a node. -/
theorem safe_elem {w : Option Nat} {b : Nat} {j x : Json} {k : String} {xs : List Json} (hs : Safe w b j)
    (hf : field k j = some (.arr xs)) (hx : x ∈ xs) : Safe w (below b j) x :=
  hs.inside ((inside_elem hx).trans (inside_field (k := k) (by rw [field?_eq_field]; exact hf)))

theorem safe_field {w : Option Nat} {b : Nat} {j x : Json} {k : String} (hs : Safe w b j)
    (hf : field k j = some x) : Safe w (below b j) x := hs.inside (inside_field (k := k) (by rw [field?_eq_field]; exact hf))

section
variable {w : Option Nat} {b : Nat} {env : MutEnv} {j j' : Json} {r r' : R} {res : MutatorResult} {c : Option Json}

theorem safe_binary {ops : List String} {t : MutationType} (hs : Safe w b j) (hmut : Solidity.binaryOpMutable ops j = true)
    (h : Solidity.binaryOpMutate env ops t j r = .ok (j', res, c, r')) : Safe w (b + 1) j' := by
  simp only [Solidity.binaryOpMutable, Bool.and_eq_true] at hmut
  have hk := solidity_hasType.1 hmut.1
  have hj := isKind_isObj hk
  simp only [Solidity.binaryOpMutate] at h
  split at h
  · split at h
    · cases h
      exact safe_set hj hs (by decide) (by decide) (kind_type hk) (by decide) (safe_leaf rfl)
    all_goals cases h
  · cases h
    exact hs.mono (by omega)

theorem safe_unaryOp (hs : Safe w b j) (hmut : Solidity.unaryOpMutable j = true)
    (h : Solidity.unaryOpMutate env j r = .ok (j', res, c, r')) : Safe w (b + 1) j' := by
  simp only [Solidity.unaryOpMutable, Bool.and_eq_true] at hmut
  have hk := solidity_hasType.1 hmut.1
  have hj := isKind_isObj hk
  simp only [Solidity.unaryOpMutate] at h
  split at h
  · cases h
  · split at h
    · cases h
      exact safe_set hj hs (by decide) (by decide) (kind_type hk) (by decide) (safe_leaf rfl)
    all_goals cases h

theorem safe_integerOp (hs : Safe w b j) (hmut : Solidity.integerMutable j = true)
    (h : Solidity.integerMutate env j r = .ok (j', res, c, r')) : Safe w (b + 1) j' := by
  simp only [Solidity.integerMutable, Bool.and_eq_true] at hmut
  have hk := solidity_hasType.1 hmut.1.1
  have hj := isKind_isObj hk
  simp only [Solidity.integerMutate] at h
  split at h
  · cases h
    exact safe_set hj hs (by decide) (by decide) (kind_type hk) (by decide) (safe_leaf rfl)
  · split at h
    · split at h
      · cases h
        exact safe_set hj hs (by decide) (by decide) (kind_type hk) (by decide) (safe_leaf rfl)
      · cases h
    · cases h
      exact hs.mono (by omega)

omit [Rand R] in
theorem safe_delegate (hs : Safe w b j) (hmut : Solidity.delegateCallMutable j = true)
    (h : Solidity.delegateCallMutate j r = .ok (j', res, c, r')) : Safe w (b + 1) j' := by
  simp only [Solidity.delegateCallMutable, Bool.and_eq_true] at hmut
  have hk := solidity_hasType.1 hmut.1
  cases h
  exact safe_set (isKind_isObj hk) hs (by decide) (by decide) (kind_type hk) (by decide) (safe_leaf rfl)

theorem value_made {s : String} {v : Json} {parts : List HashPart} (h : Solidity.assignmentValue s r = .ok (some v, parts, r')) :
    (∃ i, Solidity.integerConstantNode i = v) ∨ ∃ x, Solidity.booleanLiteralNode x = v := by
  unfold Solidity.assignmentValue at h
  split at h
  · cases h
  · split at h
    · split at h
      · cases h
      · rename_i n0 _
        generalize (if n0 > 128 then 128 else n0) = n at h
        simp only at h
        by_cases hn : n = 0 ∨ n = 128
        · rw [if_pos hn] at h
          cases h
        · rw [if_neg hn] at h
          generalize genRange (-(2 ^ (n - 1) : Int)) (2 ^ (n - 1)) r = o at h
          cases o with
          | ok vr =>
            simp only [Outcome.ok.injEq, Prod.mk.injEq, Option.some.injEq] at h
            exact Or.inl ⟨_, h.1⟩
          | err e => exact absurd h (by simp)
          | panic => exact absurd h (by simp)
          | outOfFuel => exact absurd h (by simp)
    · split at h
      · split at h
        · cases h
        · rename_i n0 _
          generalize (if n0 > 128 then 128 else n0) = n at h
          simp only at h
          generalize (if n < 128 then 2 ^ n - 1 else 340282366920938463463374607431768211455 : Int) = u at h
          generalize genRange 0 u r = o at h
          cases o with
          | ok vr =>
            simp only [Outcome.ok.injEq, Prod.mk.injEq, Option.some.injEq] at h
            exact Or.inl ⟨_, h.1⟩
          | err e => exact absurd h (by simp)
          | panic => exact absurd h (by simp)
          | outOfFuel => exact absurd h (by simp)
      · split at h
        · split at h
          · generalize genRange 0 1 r = o at h
            cases o with
            | ok vr =>
              simp only [Outcome.ok.injEq, Prod.mk.injEq, Option.some.injEq] at h
              exact Or.inr ⟨_, h.1⟩
            | err e => exact absurd h (by simp)
            | panic => exact absurd h (by simp)
            | outOfFuel => exact absurd h (by simp)
          · cases h
        · cases h

theorem safe_value {s : String} {v : Json} {parts : List HashPart} (h : Solidity.assignmentValue s r = .ok (some v, parts, r')) :
    Safe w b v := by
  rcases value_made h with ⟨i, rfl⟩ | ⟨x, rfl⟩
  · exact safe_integer _
  · exact safe_boolean _

theorem safe_assignment (hs : Safe w b j) (hmut : Solidity.assignmentMutable j = true)
    (h : Solidity.assignmentMutate env j r = .ok (j', res, c, r')) : Safe w (b + 1) j' := by
  simp only [Solidity.assignmentMutable, Bool.and_eq_true] at hmut
  have hk := solidity_hasType.1 hmut.1
  have hj := isKind_isObj hk
  simp only [Solidity.assignmentMutate] at h
  split at h
  · cases h
  · split at h
    · cases h
    · split at h
      · cases h
      · split at h
        · rename_i new parts r1 hv
          split at h
          · cases h
          · cases h
            cases new with
            | none => exact hs.mono (by omega)
            | some v => exact safe_set hj hs (by decide) (by decide) (kind_type hk) (by decide) (safe_value hv)
        all_goals cases h

theorem safe_deleteStatement (hs : Safe w b j) (hmut : Solidity.deleteStatementMutable j = true)
    (h : Solidity.deleteStatementMutate env j r = .ok (j', res, c, r')) : Safe w (b + 1) j' := by
  simp only [Solidity.deleteStatementMutable, Bool.and_eq_true] at hmut
  have hk := solidity_hasType.1 hmut.1
  have hj := isKind_isObj hk
  simp only [Solidity.deleteStatementMutate] at h
  cases htk : takeValueForKey "statements" j with
  | mk o j1 =>
    obtain ⟨ho, _, _⟩ := take_eq (by decide) hj htk
    rw [htk] at h
    split at h
    · rename_i ss j2 heq
      obtain ⟨rfl, rfl⟩ := Prod.mk.inj heq
      split at h
      · split at h
        · cases h
        · rename_i i _
          split at h
          · cases h
          · rename_i v hv
            cases h
            have hlt : i < ss.length := (List.getElem?_eq_some_iff.1 hv).1
            refine safe_take_set hj hs (by decide) (by decide) (kind_type hk) (by decide) htk (safe_arr fun x hx => ?_)
            rw [eraseIdx_insertIdx_self _ _ _ hlt] at hx
            rcases List.mem_or_eq_of_mem_set hx with hx | rfl
            · exact (safe_elem hs ho.symm hx).mono (by omega)
            · exact (safe_deleted (safe_elem hs ho.symm (List.mem_of_getElem? hv))).mono (by omega)
      all_goals cases h
    · cases h

theorem safe_functionCall (hs : Safe w b j) (h : Solidity.functionCallMutate env j r = .ok (j', res, c, r')) :
    Safe w (b + 1) j' := by
  simp only [Solidity.functionCallMutate] at h
  split at h
  · rename_i args ha
    split at h
    · split at h
      · cases h
      · rename_i hv
        cases h
        refine (safe_elem hs (arrayField_iff.1 ha) (List.mem_of_getElem? hv)).mono ?_
        unfold below
        omega
    all_goals cases h
  · cases h

theorem exchanged_mem {i k : Nat} {xs ys : List Json} (h : Exchanged i k xs ys) {x : Json} (hx : x ∈ ys) : x ∈ xs := by
  obtain ⟨_, _, _, _, h4, h5, h6⟩ := h
  obtain ⟨n, hn⟩ := List.mem_iff_getElem?.1 hx
  by_cases h1 : n = i
  · subst h1; rw [h4] at hn; exact List.mem_of_getElem? hn
  · by_cases h2 : n = k
    · subst h2; rw [h5] at hn; exact List.mem_of_getElem? hn
    · rw [h6 n h1 h2] at hn; exact List.mem_of_getElem? hn

theorem safe_swapLines (hs : Safe w b j) (hmut : Solidity.swapLinesMutable j = true)
    (h : Solidity.swapLinesMutate env j r = .ok (j', res, c, r')) : Safe w (b + 1) j' := by
  simp only [Solidity.swapLinesMutable, Bool.and_eq_true] at hmut
  have hk := solidity_hasType.1 hmut.1
  have hj := isKind_isObj hk
  simp only [Solidity.swapLinesMutate] at h
  cases htk : takeValueForKey "statements" j with
  | mk o j1 =>
    obtain ⟨ho, _, _⟩ := take_eq (by decide) hj htk
    rw [htk] at h
    split at h
    · rename_i ss j2 heq
      obtain ⟨rfl, rfl⟩ := Prod.mk.inj heq
      split at h
      · split at h
        · rename_i hd2
          split at h
          · cases h
          · rename_i hex
            cases h
            have hg2 := (drawUntil_ok hd2).2
            simp only [Bool.and_eq_true, bne_iff_ne, ne_eq] at hg2
            refine safe_take_set hj hs (by decide) (by decide) (kind_type hk) (by decide) htk (safe_arr fun x hx => ?_)
            exact (safe_elem hs ho.symm (exchanged_mem (exchange_eq (fun e => hg2.1 e.symm) hex).1 hx)).mono (by omega)
        all_goals cases h
      all_goals cases h
    · cases h

theorem safe_uncheckedBlock (hs : Safe w b j) (hmut : Solidity.uncheckedBlockMutable j = true)
    (h : Solidity.uncheckedBlockMutate env j r = .ok (j', res, c, r')) : Safe w (b + 1) j' := by
  simp only [Solidity.uncheckedBlockMutable, Bool.and_eq_true] at hmut
  have hk := solidity_hasType.1 hmut.1
  have hj := isKind_isObj hk
  simp only [Solidity.uncheckedBlockMutate] at h
  cases htk : takeValueForKey "statements" j with
  | mk o j1 =>
    obtain ⟨ho, _, _⟩ := take_eq (by decide) hj htk
    rw [htk] at h
    split at h
    · rename_i ss j2 heq
      obtain ⟨rfl, rfl⟩ := Prod.mk.inj heq
      split at h
      · rename_i i v rest r1 hd
        cases h
        obtain ⟨hv, hrest, _, _⟩ := uncheckedDraw_ok hd
        have hlt : i < ss.length := (List.getElem?_eq_some_iff.1 hv).1
        refine safe_take_set hj hs (by decide) (by decide) (kind_type hk) (by decide) htk (safe_arr fun x hx => ?_)
        rw [hrest, eraseIdx_insertIdx_self _ _ _ hlt] at hx
        rcases List.mem_or_eq_of_mem_set hx with hx | rfl
        · exact (safe_elem hs ho.symm hx).mono (by omega)
        · exact safe_unchecked (safe_elem hs ho.symm (List.mem_of_getElem? hv))
      all_goals cases h
    · cases h

theorem safe_if (hs : Safe w b j) (hmut : Solidity.ifMutable j = true)
    (h : Solidity.ifMutate env j r = .ok (j', res, c, r')) : Safe w (b + 1) j' := by
  simp only [Solidity.ifMutable, Bool.and_eq_true] at hmut
  have hk := solidity_hasType.1 hmut.1
  have hj := isKind_isObj hk
  simp only [Solidity.ifMutate] at h
  split at h
  · cases h
  · split at h
    · cases h
    · cases h
      unfold Solidity.ifChange
      split
      · exact safe_set hj hs (by decide) (by decide) (kind_type hk) (by decide) (safe_boolean _)
      · split
        · exact safe_set hj hs (by decide) (by decide) (kind_type hk) (by decide) (safe_boolean _)
        · split
          · rename_i v j1 htk
            obtain ⟨ho, _, _⟩ := take_eq (by decide) hj htk
            refine safe_take_set hj hs (by decide) (by decide) (kind_type hk) (by decide) htk (safe_unary (safe_tuple fun x hx => ?_))
            rw [List.mem_singleton.1 hx]
            exact (safe_field hs ho.symm).mono (by omega)
          · rename_i j1 htk
            have h1 := type_take (k := "condition") (by decide) (by decide) hj htk
            refine safe_like hj hs h1 (sturdy_of_type (h1.trans (kind_type hk)) (by decide)) fun x hx => ?_
            rcases take_children (by decide) hj htk hx with rfl | hx
            · exact Or.inr (safe_leaf rfl)
            · exact Or.inl hx

omit [Rand R] in
theorem safe_swapOperands (hs : Safe w b j) (hmut : Solidity.swapOperandsMutable j = true)
    (h : Solidity.swapOperandsMutate env j r = .ok (j', res, c, r')) : Safe w (b + 1) j' := by
  simp only [Solidity.swapOperandsMutable, Bool.and_eq_true] at hmut
  have hk := solidity_hasType.1 hmut.1
  have hj := isKind_isObj hk
  simp only [Solidity.swapOperandsMutate] at h
  split at h
  · rename_i left j1 ht1
    obtain ⟨ho1, hj1, hf1⟩ := take_eq (by decide) hj ht1
    split at h
    · rename_i right j2 ht2
      obtain ⟨ho2, hj2, _⟩ := take_eq (by decide) hj1 ht2
      cases h
      rw [hf1, if_neg (fun h => absurd h.1 (by decide))] at ho2
      have hj3 := setNodeForKey_isObj (k := "leftExpression") (by decide) right hj2
      have ht : getStrForKey "nodeType" (setNodeForKey "rightExpression" left (setNodeForKey "leftExpression" right j2)) =
          getStrForKey "nodeType" j := by
        rw [type_set (by decide) (by decide) hj3, type_set (by decide) (by decide) hj2, type_take (by decide) (by decide) hj1 ht2,
          type_take (by decide) (by decide) hj ht1]
      refine safe_like hj hs ht (sturdy_of_type (ht.trans (kind_type hk)) (by decide)) fun x hx => ?_
      rcases set_children (by decide) hj3 hx with rfl | hx
      · exact Or.inr ((safe_field hs ho1.symm).mono (by omega))
      · rcases set_children (by decide) hj2 hx with rfl | hx
        · exact Or.inr ((safe_field hs ho2.symm).mono (by omega))
        · rcases take_children (by decide) hj1 ht2 hx with rfl | hx
          · exact Or.inr (safe_leaf rfl)
          · rcases take_children (by decide) hj ht1 hx with rfl | hx
            · exact Or.inr (safe_leaf rfl)
            · exact Or.inl hx
    · cases h
  · cases h

theorem type_only {k : String} (hk : k ≠ "nodeType") (h : OnlyField k j j') :
    getStrForKey "nodeType" j' = getStrForKey "nodeType" j := by
  unfold getStrForKey
  rw [get?_field (by decide) h.2.1, get?_field (by decide) h.1, h.2.2 _ (Ne.symm hk)]

theorem safe_swapArguments (hs : Safe w b j) (hmut : Solidity.swapArgumentsMutable j = true)
    (h : Solidity.swapArgumentsMutate env j r = .ok (j', res, c, r')) : Safe w (b + 1) j' := by
  obtain ⟨hk, ⟨args, args', i, k, _, _, _, ha, ha', hex, _⟩, hof, _⟩ := C32_solidity (env := env) rfl hmut h
  have hj := isKind_isObj hk
  refine safe_like hj hs (type_only (by decide) hof)
    (sturdy_call hof ha ha' hex.2.2.2.1 hk (hs.sturdy _ (.refl _))) fun x hx => ?_
  simp only [Solidity.swapArgumentsMutate] at h
  cases htk : takeValueForKey "arguments" j with
  | mk o j1 =>
    obtain ⟨ho, hj1, _⟩ := take_eq (by decide) hj htk
    rw [htk] at h
    split at h
    · rename_i args2 j2 heq
      obtain ⟨rfl, rfl⟩ := Prod.mk.inj heq
      split at h
      · split at h
        · cases h
          rcases set_children (by decide) hj1 hx with rfl | hx
          · rw [field_setNodeForKey (by decide) _ _ hj1, if_pos rfl] at ha'
            cases ha'
            exact Or.inr (safe_arr fun y hy => (safe_elem hs ha (exchanged_mem hex hy)).mono (by omega))
          · rcases take_children (by decide) hj htk hx with rfl | hx
            · exact Or.inr (safe_leaf rfl)
            · exact Or.inl hx
        · cases h
      all_goals cases h
    · cases h

theorem safe_require (hs : Safe w b j) (hmut : Solidity.requireMutable j = true)
    (h : Solidity.requireMutate env j r = .ok (j', res, c, r')) : Safe w (b + 1) j' := by
  obtain ⟨hk, _, ⟨cond, neg, rest, ha, ha', _⟩, hof, _⟩ := C39_solidity (env := env) rfl hmut h
  have hj := isKind_isObj hk
  refine safe_like hj hs (type_only (by decide) hof) (sturdy_call hof ha ha' rfl hk (hs.sturdy _ (.refl _))) fun x hx => ?_
  have hrest : ∀ y ∈ rest, Safe w (below b j + 1) y := fun y hy => (safe_elem hs ha (by simp [hy])).mono (by omega)
  have hnull : Safe w (below b j + 1) (.arr (.null :: rest)) := safe_arr fun y hy => by
    rcases List.mem_cons.1 hy with rfl | hy
    · exact safe_leaf rfl
    · exact hrest y hy
  have hga : getArrayForKey "arguments" j = some (cond :: rest) := by
    rw [getArray_field (by decide) hj, ha]; rfl
  simp only [Solidity.requireMutate, arrayField_iff.2 ha, Solidity.takeArgument, hga, List.getElem?_cons_zero, List.set_cons_zero,
    Outcome.ok.injEq, Prod.mk.injEq] at h
  obtain ⟨rfl, _⟩ := h
  rcases setAt_children (by decide) (setNodeForKey_isObj (by decide) _ hj) hx with hx | ⟨xs, hxs, rfl⟩
  · rcases set_children (by decide) hj hx with rfl | hx
    · exact Or.inr hnull
    · exact Or.inl hx
  · rw [field_setNodeForKey (by decide) _ _ hj, if_pos rfl] at hxs
    cases hxs
    refine Or.inr (safe_arr fun y hy => ?_)
    rcases List.mem_cons.1 hy with rfl | hy
    · exact safe_requireNegation ((safe_elem hs ha (by simp)).mono (by omega))
    · exact hrest y hy

/-- Mutations of trees of sturdy nodes are trees of sturdy nodes. -/
theorem safe_mutate {t : MutationType} {m : Mutator R} (hm : Solidity.mutatorFor env t = some m) (hmut : m.isMutable j = true)
    (h : m.mutate j r = .ok (j', res, c, r')) (hs : Safe w b j) : Safe w (b + 1) j' := by
  cases t <;> cases hm
  all_goals first
    | exact safe_binary hs hmut h
    | exact safe_unaryOp hs hmut h
    | exact safe_integerOp hs hmut h
    | exact safe_delegate hs hmut h
    | exact safe_assignment hs hmut h
    | exact safe_deleteStatement hs hmut h
    | exact safe_functionCall hs h
    | exact safe_swapLines hs hmut h
    | exact safe_uncheckedBlock hs hmut h
    | exact safe_if hs hmut h
    | exact safe_swapOperands hs hmut h
    | exact safe_swapArguments hs hmut h
    | exact safe_require hs hmut h

end

/-! ### Comments beside mutations -/

theorem isObj_obj (kvs : List (String × Json)) : IsObj (.obj kvs) := trivial

theorem put_isObj (kvs : List (String × Json)) (i : Nat) (v : Json) : IsObj (replaceAt [i] v (.obj kvs)) := by
  simp only [replaceAt]
  split <;> trivial

theorem inside_put {n x : Json} {i : Nat} (h : (some n).bind (nodeAt [i]) = some x) : Inside x n := by
  simp only [Option.bind_some, nodeAt] at h
  split at h
  · cases h
    exact inside_child (List.mem_of_getElem? (by assumption))
  · cases h

theorem type_put {kvs : List (String × Json)} {i : Nat} {k : String} {v' : Json} (hk : (kvs.map Prod.fst)[i]? = some k)
    (hne : k ≠ "nodeType") : getStrForKey "nodeType" (replaceAt [i] v' (.obj kvs)) = getStrForKey "nodeType" (.obj kvs) := by
  have hi : ∃ d, (kvs.map Prod.snd)[i]? = some d := by
    obtain ⟨hlt, _⟩ := List.getElem?_eq_some_iff.1 hk
    exact ⟨_, List.getElem?_eq_getElem (by simpa using hlt)⟩
  obtain ⟨d, hd⟩ := hi
  unfold getStrForKey
  rw [get?_plain (by decide), get?_plain (by decide)]
  simp only [replaceAt, children, hd, setChildren]
  simp only [step]
  rw [objGet_zip_ne kvs i _ hk hne]

theorem safe_put {w : Option Nat} {b : Nat} {kvs : List (String × Json)} {i : Nat} {k t : String} {v' : Json}
    (hs : Safe w b (.obj kvs)) (hk : (kvs.map Prod.fst)[i]? = some k) (hne : k ≠ "nodeType")
    (ht : getStrForKey "nodeType" (.obj kvs) = some t) (hp : t ∉ picky) (hv : Safe w (below b (.obj kvs) + 1) v') :
    Safe w (b + 1) (replaceAt [i] v' (.obj kvs)) := by
  have h1 := type_put (v' := v') hk hne
  refine safe_like (isObj_obj kvs) hs h1 (sturdy_of_type (h1.trans ht) hp) fun x hx => ?_
  simp only [replaceAt] at hx
  split at hx
  · rw [children_setChildren _ _ (by simp)] at hx
    rcases List.mem_or_eq_of_mem_set hx with hx | rfl
    · exact Or.inl hx
    · exact Or.inr hv
  · exact Or.inl hx

/-- Trees with a comment are trees of sturdy nodes. -/
theorem safe_commented {w : Option Nat} {b id : Nat} {c ast out : Json} (hc : ∀ b, Safe w b c) (hs : Safe w b ast)
    (h : CommentAdded .solidity id c ast out) : Safe w (b + 1) out := by
  cases h with
  | inList p i n pre post s hp hn hx _ _ =>
    obtain ⟨kvs, t, k, rfl, ht, hm, hk, _⟩ := hn
    rw [← replaceAt_append hp]
    rw [nodeAt_append, hp] at hx
    refine safe_replace (isObj_obj kvs) (put_isObj kvs i _) (fun b hb => ?_) hp hs
    have hmem := inside_put hx
    refine safe_put hb hk ?_ ht ?_ (safe_arr fun x hxs => ?_)
    · simp only [statementLists, List.mem_cons, Prod.mk.injEq, List.not_mem_nil, or_false] at hm
      rcases hm with ⟨_, rfl⟩ | ⟨_, rfl⟩ | ⟨_, rfl⟩ <;> decide
    · simp only [statementLists, List.mem_cons, Prod.mk.injEq, List.not_mem_nil, or_false] at hm
      rcases hm with ⟨rfl, _⟩ | ⟨rfl, _⟩ | ⟨rfl, _⟩ <;> decide
    · by_cases hxc : x = c
      · rw [hxc]; exact hc _
      · exact (hb.inside ((inside_elem (xs := pre ++ s :: post) (by simp at hxs ⊢; simpa [hxc] using hxs)).trans hmem)).mono (by omega)
  | atTop p i n xs _ hp _ hn hx =>
    obtain ⟨kvs, t, k, rfl, ht, hm, hk, _⟩ := hn
    rw [← replaceAt_append hp]
    rw [nodeAt_append, hp] at hx
    refine safe_replace (isObj_obj kvs) (put_isObj kvs i _) (fun b hb => ?_) hp hs
    have hmem := inside_put hx
    refine safe_put hb hk ?_ ht ?_ (safe_arr fun x hxs => ?_)
    · simp only [statementLists, List.mem_cons, Prod.mk.injEq, List.not_mem_nil, or_false] at hm
      rcases hm with ⟨_, rfl⟩ | ⟨_, rfl⟩ | ⟨_, rfl⟩ <;> decide
    · simp only [statementLists, List.mem_cons, Prod.mk.injEq, List.not_mem_nil, or_false] at hm
      rcases hm with ⟨rfl, _⟩ | ⟨rfl, _⟩ | ⟨rfl, _⟩ <;> decide
    · rcases List.mem_cons.1 hxs with rfl | hxs
      · exact hc _
      · exact (hb.inside ((inside_elem hxs).trans hmem)).mono (by omega)
  | inBlock p i n s t _ hp hn hx _ _ _ =>
    obtain ⟨kvs, t, k, rfl, ht, hm, hk, _⟩ := hn
    rw [← replaceAt_append hp]
    rw [nodeAt_append, hp] at hx
    refine safe_replace (isObj_obj kvs) (put_isObj kvs i _) (fun b hb => ?_) hp hs
    have hmem := inside_put hx
    refine safe_put hb hk ?_ ht ?_ ?_
    · simp only [statementFields, List.mem_cons, Prod.mk.injEq, List.not_mem_nil, or_false] at hm
      rcases hm with ⟨_, rfl⟩ | ⟨_, rfl⟩ | ⟨_, rfl⟩ | ⟨_, rfl⟩ | ⟨_, rfl⟩ | ⟨_, rfl⟩ | ⟨_, rfl⟩ | ⟨_, rfl⟩ <;> decide
    · simp only [statementFields, List.mem_cons, Prod.mk.injEq, List.not_mem_nil, or_false] at hm
      rcases hm with ⟨rfl, _⟩ | ⟨rfl, _⟩ | ⟨rfl, _⟩ | ⟨rfl, _⟩ | ⟨rfl, _⟩ | ⟨rfl, _⟩ | ⟨rfl, _⟩ | ⟨rfl, _⟩ <;> decide
    · refine safe_node (sturdy_of_type (t := "Block") rfl (by decide)) (by split <;> omega) fun x hx => ?_
      have hbl : below (below b (.obj kvs) + 1) (.obj [("id", .num (.int 9999994)), ("nodeType", .str "Block"),
          ("statements", .arr [c, s])]) ≥ below b (.obj kvs) := by unfold below; split <;> split <;> omega
      simp only [children, List.map_cons, List.map_nil, List.mem_cons, List.not_mem_nil, or_false] at hx
      rcases hx with rfl | rfl | rfl
      · exact safe_leaf rfl
      · exact safe_leaf rfl
      · refine safe_arr fun x hxs => ?_
        simp only [List.mem_cons, List.not_mem_nil, or_false] at hxs
        rcases hxs with rfl | rfl
        · exact hc _
        · exact (hb.inside hmem).mono hbl

end SolPrint
end Mutagenyx
