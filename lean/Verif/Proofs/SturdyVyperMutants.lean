import Verif.Proofs.SturdyMutants
import Verif.Props.VyperMutators

/-!
# Mutations of Vyper trees that can be printed
-/

namespace Mutagenyx
namespace VyPrint
namespace Firmly
open Json
open SolPrint (set_children take_children ofFields_children exchanged_mem put_isObj inside_put getStr_sig isObj_obj)

/-- What the printer looks at in a node, without the text of nodes in comments; documentation is in nodes of the type `DocStr`.  If `q`
then there are no nodes in comments. -/
structure Firm (q : Prop) (w : Option Nat) (n : Json) : Prop where
  dict : n.getStrForKey "ast_type" = some "Dict" → ∀ ks vs, Json.field? "keys" n = some (.arr ks) →
    Json.field? "values" n = some (.arr vs) → ks.length = vs.length
  bytes : n.getStrForKey "ast_type" = some "Bytes" → ∀ v, n.getStrForKey "value" = some v →
    (∀ c ∈ v.toList, c.utf8Size = 1) ∧ v.toList.length % 2 = 0
  arguments : n.getStrForKey "ast_type" = some "arguments" → ∀ ds as, Json.field? "defaults" n = some (.arr ds) →
    Json.field? "args" n = some (.arr as) → ds.length ≤ as.length
  comment : n.getStrForKey "ast_type" = some "Comment" → ∀ t, Json.field? "value" n = some (.str t) →
    ShortWords w t.toList
  plain : q → n.getStrForKey "ast_type" = some "Comment" → ∀ kvs, Json.field? "value" n ≠ some (.obj kvs)
  doc : n.getStrForKey "ast_type" = some "FunctionDef" ∨ n.getStrForKey "ast_type" = some "Module" →
    ∀ d v, Json.field? "doc_string" n = some d → d.getStrForKey "value" = some v → '\n' ∉ v.toList →
    ShortWords w v.toList
  docs : n.getStrForKey "ast_type" = some "FunctionDef" ∨ n.getStrForKey "ast_type" = some "Module" →
    ∀ d, Json.field? "doc_string" n = some d → d.IsObj → d.getStrForKey "ast_type" = some "DocStr"

/-- The nodes of these types are looked at more closely by the printer. -/
def picky : List String := ["Dict", "Bytes", "arguments", "Comment", "FunctionDef", "Module"]

variable {q : Prop} {w : Option Nat}

theorem firm_of_type {n : Json} {t : String} (h : n.getStrForKey "ast_type" = some t) (ht : t ∉ picky) : Firm q w n := by
  simp only [picky, List.mem_cons, List.not_mem_nil, or_false, not_or] at ht
  obtain ⟨h1, h2, h3, h4, h5, h6⟩ := ht
  refine ⟨fun h' => ?_, fun h' => ?_, fun h' => ?_, fun h' => ?_, fun _ h' => ?_, fun h' => ?_, fun h' => ?_⟩
  iterate 5 (rw [h] at h'; cases h'; contradiction)
  all_goals (rw [h] at h'; rcases h' with h' | h' <;> cases h' <;> contradiction)

theorem firm_of_none {n : Json} (h : n.getStrForKey "ast_type" = none) : Firm q w n := by
  refine ⟨fun h' => ?_, fun h' => ?_, fun h' => ?_, fun h' => ?_, fun _ h' => ?_, fun h' => ?_, fun h' => ?_⟩
  iterate 5 (rw [h] at h'; cases h')
  all_goals (rw [h] at h'; rcases h' with h' | h' <;> cases h')

/-- The keys that the printer looks at for this. -/
def looked : List String := ["ast_type", "keys", "values", "value", "defaults", "args", "doc_string"]

theorem firm_only {n n' : Json} (hn : n.IsObj) (hn' : n'.IsObj) (h : ∀ k ∈ looked, field k n' = field k n) (hs : Firm q w n) : Firm q w n' := by
  have hstr : ∀ k ∈ looked, PlainKey k → getStrForKey k n' = getStrForKey k n := fun k hk hp => by
    unfold getStrForKey
    rw [get?_field hp hn', get?_field hp hn, h k hk]
  have hf : ∀ k ∈ looked, field? k n' = field? k n := fun k hk => by rw [field?_eq_field, field?_eq_field, h k hk]
  have e1 := hstr "ast_type" (by decide) (by decide)
  have e2 := hstr "value" (by decide) (by decide)
  constructor
  · rw [e1, hf "keys" (by decide), hf "values" (by decide)]; exact hs.dict
  · rw [e1, e2]; exact hs.bytes
  · rw [e1, hf "defaults" (by decide), hf "args" (by decide)]; exact hs.arguments
  · rw [e1, hf "value" (by decide)]; exact hs.comment
  · rw [e1, hf "value" (by decide)]; exact hs.plain
  · rw [e1, hf "doc_string" (by decide)]; exact hs.doc
  · rw [e1, hf "doc_string" (by decide)]; exact hs.docs

theorem objGet_zip : (kvs : List (String × Json)) → (i : Nat) → {v v' d' : Json} → (k : String) → (kvs.map Prod.snd)[i]? = some v →
    objGet k (List.zipWith (fun kv c => (kv.1, c)) kvs ((kvs.map Prod.snd).set i v')) = some d' →
    ∃ d, objGet k kvs = some d ∧ (d' = d ∨ (d = v ∧ d' = v'))
  | [], _, _, _, _, _, h, _ => by simp at h
  | (l, x) :: kvs, 0, v, v', d', k, h, hg => by
    simp only [List.map_cons, List.getElem?_cons_zero, Option.some.injEq] at h
    subst h
    simp only [List.map_cons, List.set_cons_zero, List.zipWith_cons_cons, objGet] at hg ⊢
    split at hg
    · rename_i he
      cases hg
      exact ⟨x, by rw [if_pos he], Or.inr ⟨rfl, rfl⟩⟩
    · rename_i he
      refine ⟨d', ?_, Or.inl rfl⟩
      rw [if_neg he, ← hg]
      congr 1
      clear hg
      induction kvs with
      | nil => rfl
      | cons kv kvs ih => simp [← ih]
  | (l, x) :: kvs, i + 1, v, v', d', k, h, hg => by
    simp only [List.map_cons, List.getElem?_cons_succ] at h
    simp only [List.map_cons, List.set_cons_succ, List.zipWith_cons_cons, objGet] at hg ⊢
    split at hg
    · rename_i he
      cases hg
      exact ⟨_, by rw [if_pos he], Or.inl rfl⟩
    · rename_i he
      rw [if_neg he]
      exact objGet_zip kvs i k h hg

theorem replace_isObj {x x' : Json} (hx : x.IsObj) : {p : Pos} → {v : Json} → nodeAt p v = some x → (replaceAt p x' v).IsObj → v.IsObj
  | [], v, h, _ => by cases h; exact hx
  | i :: p, v, h, ho => by
    simp only [nodeAt, replaceAt] at h ho
    cases hc : v.children[i]? with
    | none => rw [hc] at h; cases h
    | some d =>
      rw [hc] at ho
      cases v with
      | obj kvs => trivial
      | _ => exact ho

theorem getStr_replace {x x' : Json} (hx : x.IsObj) (hx' : x'.IsObj) {k : String} (hk : PlainKey k) (hi : parseIndex k = none) {i : Nat} {p : Pos} {v : Json}
    (h : nodeAt (i :: p) v = some x) : getStrForKey k (replaceAt (i :: p) x' v) = getStrForKey k v := by
  simp only [nodeAt, replaceAt] at h ⊢
  cases hc : v.children[i]? with
  | none => rfl
  | some d =>
    rw [hc] at h
    simp only at h ⊢
    cases v with
    | obj kvs => exact getStr_sig hk (objGet_sig (sig_zip kvs i (v' := replaceAt p x' d) hc (sig_replace hx hx' h)) k)
    | arr xs =>
      unfold getStrForKey
      rw [get?_plain hk, get?_plain hk]
      simp [setChildren, step, hi]
    | _ => rfl

/-- Replacing an object that is no documentation somewhere below a node. -/
theorem firm_sig {x x' : Json} (hx : x.IsObj) (hx' : x'.IsObj) (hnd : getStrForKey "ast_type" x ≠ some "DocStr") {kvs : List (String × Json)}
    {i : Nat} {p : Pos} {d : Json} (hc : (kvs.map Prod.snd)[i]? = some d) (h : nodeAt p d = some x) (hs : Firm q w (.obj kvs)) :
    Firm q w (.obj (List.zipWith (fun kv c => (kv.1, c)) kvs ((kvs.map Prod.snd).set i (replaceAt p x' d)))) := by
  have hget := objGet_sig (sig_zip kvs i (v' := replaceAt p x' d) hc (sig_replace hx hx' h))
  have hstr : ∀ k, PlainKey k → getStrForKey k (.obj (List.zipWith (fun kv c => (kv.1, c)) kvs ((kvs.map Prod.snd).set i (replaceAt p x' d)))) =
    getStrForKey k (.obj kvs) := fun k hk => getStr_sig hk (hget k)
  have harr : ∀ k ys, field? k (.obj (List.zipWith (fun kv c => (kv.1, c)) kvs ((kvs.map Prod.snd).set i (replaceAt p x' d)))) = some (.arr ys) →
      ∃ xs, field? k (.obj kvs) = some (.arr xs) ∧ xs.length = ys.length := by
    intro k ys hy
    have := hget k
    rw [field?_eq_field] at hy ⊢
    simp only [field] at hy ⊢
    rw [hy] at this
    cases ho : objGet k kvs with
    | none => rw [ho] at this; cases this
    | some z =>
      rw [ho] at this
      simp only [Option.map_some, Option.some.injEq, sig, Prod.mk.injEq] at this
      cases z with
      | arr xs => exact ⟨xs, rfl, by simpa [asArray] using (congrArg List.length (Option.some.inj this.2)).symm⟩
      | _ => simp [asArray] at this
  have hold : ∀ k d', field? k (.obj (List.zipWith (fun kv c => (kv.1, c)) kvs ((kvs.map Prod.snd).set i (replaceAt p x' d)))) = some d' →
      ∃ d0, field? k (.obj kvs) = some d0 ∧ (d' = d0 ∨ (nodeAt p d0 = some x ∧ d' = replaceAt p x' d0)) := by
    intro k d' hd
    rw [field?_eq_field] at hd ⊢
    obtain ⟨d0, h1, h2⟩ := objGet_zip kvs i k hc hd
    refine ⟨d0, h1, h2.imp id ?_⟩
    rintro ⟨rfl, rfl⟩
    exact ⟨h, rfl⟩
  have ht := hstr "ast_type" (by decide)
  have hdoc : (getStrForKey "ast_type" (.obj kvs) = some "FunctionDef" ∨ getStrForKey "ast_type" (.obj kvs) = some "Module") →
      ∀ {d0 : Json}, field? "doc_string" (.obj kvs) = some d0 → nodeAt p d0 = some x → p ≠ [] := by
    rintro hfm d0 h1 h2 rfl
    cases h2
    exact hnd (hs.docs hfm _ h1 hx)
  constructor
  · intro h1 ks vs h2 h3
    obtain ⟨xs, hx, ex⟩ := harr _ _ h2
    obtain ⟨zs, hz, ez⟩ := harr _ _ h3
    rw [← ex, ← ez]
    exact hs.dict (ht ▸ h1) xs zs hx hz
  · rw [ht, hstr "value" (by decide)]; exact hs.bytes
  · intro h1 ks vs h2 h3
    obtain ⟨xs, hx, ex⟩ := harr _ _ h2
    obtain ⟨zs, hz, ez⟩ := harr _ _ h3
    rw [← ex, ← ez]
    exact hs.arguments (ht ▸ h1) xs zs hx hz
  · intro h1 t h2
    have h3 := hstr "value" (by decide)
    unfold getStrForKey at h3
    rw [get?_field (by decide) (isObj_obj _), get?_field (by decide) (isObj_obj _), ← field?_eq_field, ← field?_eq_field, h2] at h3
    cases hv : field? "value" (.obj kvs) with
    | none => rw [hv] at h3; cases h3
    | some z =>
      rw [hv] at h3
      cases z with
      | str u =>
        have h3 : t = u := Option.some.inj h3
        rw [h3]
        exact hs.comment (ht ▸ h1) u hv
      | _ => cases h3
  · intro hq h1 l h2
    obtain ⟨d0, h3, h4⟩ := hold _ _ h2
    have : d0.IsObj := by
      rcases h4 with rfl | ⟨h5, h6⟩
      · trivial
      · exact replace_isObj hx h5 (x' := x') (by rw [← h6]; trivial)
    obtain ⟨l0, rfl⟩ := isObj_iff.1 this
    exact hs.plain hq (ht ▸ h1) l0 h3
  · intro h1 d' v h2 h3 h4
    rw [ht] at h1
    obtain ⟨d0, h5, h6⟩ := hold _ _ h2
    refine hs.doc h1 d0 v h5 ?_ h4
    rcases h6 with rfl | ⟨h6, rfl⟩
    · exact h3
    · cases p with
      | nil => exact absurd rfl (hdoc h1 h5 h6)
      | cons a p => rw [getStr_replace hx hx' (by decide) (by decide) h6] at h3; exact h3
  · intro h1 d' h2 h3
    rw [ht] at h1
    obtain ⟨d0, h5, h6⟩ := hold _ _ h2
    rcases h6 with rfl | ⟨h6, rfl⟩
    · exact hs.docs h1 _ h5 h3
    · cases p with
      | nil => exact absurd rfl (hdoc h1 h5 h6)
      | cons a p =>
        rw [getStr_replace hx hx' (by decide) (by decide) h6]
        exact hs.docs h1 _ h5 (replace_isObj hx h6 h3)

/-! ### Trees of firm nodes -/

/-- All nodes of the tree are firm, and there are at most so many levels of indentation. -/
structure Safe (q : Prop) (w : Option Nat) (b : Nat) (n : Json) : Prop where
  firm : ∀ m, Within m n → Firm q w m
  levels : nest indents n ≤ b

variable {b : Nat}

theorem Safe.mono {a : Nat} {n : Json} (h : Safe q w a n) (hab : a ≤ b) : Safe q w b n := ⟨h.firm, Nat.le_trans h.levels hab⟩

theorem Safe.part {m n : Json} (h : Safe q w b n) (hm : Within m n) : Safe q w b m :=
  ⟨fun _ hx => h.firm _ (hx.trans hm), Nat.le_trans (nest_within hm) h.levels⟩

/-- The levels below a node. -/
def below (b : Nat) (n : Json) : Nat := b - (if indents n then 1 else 0)

theorem below_le {n : Json} : below b n ≤ b := Nat.sub_le _ _

theorem Safe.child {x n : Json} (h : Safe q w b n) (hx : x ∈ n.children) : Safe q w (below b n) x := by
  refine ⟨fun _ hm => h.firm _ (.step hx hm), ?_⟩
  have h1 := nest_child (c := indents) hx
  have h2 := h.levels
  unfold below
  omega

theorem Safe.inside {x n : Json} (h : Safe q w b n) (hx : Inside x n) : Safe q w (below b n) x :=
  (h.child hx.choose_spec.1).part hx.choose_spec.2

theorem safe_node {n : Json} (hs : Firm q w n) (hb : (if indents n then 1 else 0) ≤ b) (hc : ∀ x ∈ n.children, Safe q w (below b n) x) :
    Safe q w b n := by
  refine ⟨fun m hm => ?_, ?_⟩
  · cases hm with
    | refl => exact hs
    | step h1 h2 => exact (hc _ h1).firm _ h2
  · have := nest_of_children (c := indents) (n := n) fun x hx => (hc x hx).levels
    unfold below at this
    omega

theorem safe_leaf {n : Json} (h : n.children = []) : Safe q w b n := by
  refine safe_node (firm_of_none ?_) ?_ fun x hx => by rw [h] at hx; cases hx
  · cases n with
    | arr xs => rfl
    | obj kvs =>
      have : kvs = [] := List.map_eq_nil_iff.1 h
      subst this
      rfl
    | _ => rfl
  · cases n with
    | obj kvs =>
      have : kvs = [] := List.map_eq_nil_iff.1 h
      subst this
      exact Nat.zero_le _
    | _ => exact Nat.zero_le _

theorem indents_arr (xs : List Json) : indents (.arr xs) = false := rfl

theorem safe_arr {xs : List Json} (h : ∀ x ∈ xs, Safe q w b x) : Safe q w b (.arr xs) := by
  refine safe_node (firm_of_none rfl) (by simp [indents_arr]) fun x hx => ?_
  simp only [below, indents_arr]
  exact h x hx

theorem indents_congr {n n' : Json} (h : n'.getStrForKey "ast_type" = n.getStrForKey "ast_type") : indents n' = indents n := by
  unfold indents
  rw [h]

theorem below_congr {n n' : Json} (h : n'.getStrForKey "ast_type" = n.getStrForKey "ast_type") : below b n' = below b n := by
  unfold below
  rw [indents_congr h]

/-- Replacing an object somewhere in the tree by another one. -/
theorem safe_replace {x x' : Json} (hx : x.IsObj) (hx' : x'.IsObj) (hnd : getStrForKey "ast_type" x ≠ some "DocStr")
    (hsafe : ∀ b, Safe q w b x → Safe q w b x') :
    {p : Pos} → {v : Json} → {b : Nat} → nodeAt p v = some x → Safe q w b v → Safe q w b (replaceAt p x' v)
  | [], v, b, h, hs => by cases h; exact hsafe b hs
  | i :: p, v, b, h, hs => by
    have ht := getStr_replace hx hx' (k := "ast_type") (by decide) (by decide) h
    simp only [nodeAt, replaceAt] at h ht ⊢
    cases hc : v.children[i]? with
    | none => rw [hc] at h; cases h
    | some d =>
      rw [hc] at h ht
      simp only at h ht ⊢
      have hd := List.mem_of_getElem? hc
      have ih := safe_replace hx hx' hnd hsafe h (hs.child hd)
      have kids : ∀ y ∈ (setChildren v (v.children.set i (replaceAt p x' d))).children, Safe q w (below b v) y := by
        intro y hy
        rw [children_setChildren _ _ (by simp)] at hy
        rcases List.mem_or_eq_of_mem_set hy with hy | rfl
        · exact hs.child hy
        · exact ih
      cases v with
      | arr xs =>
        refine safe_arr fun y hy => ?_
        have := kids y hy
        simpa [below, indents_arr] using this
      | obj kvs =>
        have hb := Nat.le_trans (nest_self (c := indents) (n := .obj kvs) trivial) hs.levels
        refine safe_node (firm_sig hx hx' hnd hc h (hs.firm _ (.refl _))) (by rw [indents_congr ht]; exact hb) fun y hy => ?_
        rw [below_congr ht]
        exact kids y hy
      | _ => cases hc

/-! ### Fields -/

theorem type_set {k : String} (hk : PlainKey k) (hne : k ≠ "ast_type") {v j : Json} (hj : j.IsObj) :
    getStrForKey "ast_type" (setNodeForKey k v j) = getStrForKey "ast_type" j := by
  unfold getStrForKey
  rw [get?_setNodeForKey hk (by decide) v hj, if_neg hne]

theorem type_take {k : String} (hk : PlainKey k) (hne : k ≠ "ast_type") {j j1 : Json} {o : Option Json} (hj : j.IsObj)
    (h : takeValueForKey k j = (o, j1)) : getStrForKey "ast_type" j1 = getStrForKey "ast_type" j := by
  have := get?_take hk (show PlainKey "ast_type" by decide) hj
  rw [h] at this
  unfold getStrForKey
  rw [this, if_neg fun h => hne h.1]

theorem safe_like {j j' : Json} (hj : j.IsObj) (hs : Safe q w b j) (ht : getStrForKey "ast_type" j' = getStrForKey "ast_type" j)
    (hst : Firm q w j') (hc : ∀ x ∈ j'.children, x ∈ j.children ∨ Safe q w (below b j) x) : Safe q w b j' := by
  have hb := Nat.le_trans (nest_self (c := indents) hj) hs.levels
  refine safe_node hst (by rw [indents_congr ht]; exact hb) fun x hx => ?_
  rw [below_congr ht]
  exact (hc x hx).elim (fun h => hs.child h) id

/-- Setting a field of a node that the printer does not look at closely. -/
theorem safe_set {j v : Json} {k t : String} (hj : j.IsObj) (hs : Safe q w b j) (hk : PlainKey k) (hne : k ≠ "ast_type")
    (ht : getStrForKey "ast_type" j = some t) (hp : t ∉ picky) (hv : Safe q w (below b j) v) : Safe q w b (setNodeForKey k v j) := by
  have h1 := type_set hk hne (v := v) hj
  refine safe_like hj hs h1 (firm_of_type (h1.trans ht) hp) fun x hx => ?_
  rcases set_children hk hj hx with rfl | hx
  · exact Or.inr hv
  · exact Or.inl hx

theorem safe_take {j j1 : Json} {o : Option Json} {k t : String} (hj : j.IsObj) (hs : Safe q w b j) (hk : PlainKey k) (hne : k ≠ "ast_type")
    (hty : getStrForKey "ast_type" j = some t) (hp : t ∉ picky) (htk : takeValueForKey k j = (o, j1)) :
    Safe q w b j1 ∧ getStrForKey "ast_type" j1 = some t ∧ below b j1 = below b j := by
  have h1 := type_take hk hne hj htk
  refine ⟨safe_like hj hs h1 (firm_of_type (h1.trans hty) hp) fun x hx => ?_, h1.trans hty, below_congr h1⟩
  rcases take_children hk hj htk hx with rfl | hx
  · exact Or.inr (safe_leaf rfl)
  · exact Or.inl hx

theorem safe_take_set {j j1 v : Json} {o : Option Json} {k t : String} (hj : j.IsObj) (hs : Safe q w b j)
    (hk : PlainKey k) (hne : k ≠ "ast_type") (hty : getStrForKey "ast_type" j = some t) (hp : t ∉ picky)
    (htk : takeValueForKey k j = (o, j1)) (hv : Safe q w (below b j) v) : Safe q w b (setNodeForKey k v j1) := by
  obtain ⟨h1, h2, h3⟩ := safe_take hj hs hk hne hty hp htk
  exact safe_set (take_eq hk hj htk).2.1 h1 hk hne h2 hp (by rw [h3]; exact hv)

/-- The body of a function, module, loop or branch. -/
theorem safe_body {j j1 v : Json} {o : Option Json} (hj : j.IsObj) (hs : Safe q w b j)
    (htk : takeValueForKey "body" j = (o, j1)) (hv : Safe q w (below b j) v) : Safe q w b (setNodeForKey "body" v j1) := by
  obtain ⟨_, hj1, hf1⟩ := take_eq (by decide) hj htk
  have h1 := (type_set (k := "body") (v := v) (by decide) (by decide) hj1).trans (type_take (by decide) (by decide) hj htk)
  refine safe_like hj hs h1 (firm_only hj (setNodeForKey_isObj (by decide) _ hj1) (fun k hk => ?_) (hs.firm _ (.refl _))) fun x hx => ?_
  · have hne : "body" ≠ k := by rintro rfl; exact absurd hk (by decide)
    rw [field_setNodeForKey (by decide) _ _ hj1, if_neg hne, hf1, if_neg fun h => hne h.1]
  · rcases set_children (by decide) hj1 hx with rfl | hx
    · exact Or.inr hv
    · rcases take_children (by decide) hj htk hx with rfl | hx
      · exact Or.inr (safe_leaf rfl)
      · exact Or.inl hx

theorem safe_elem {j x : Json} {k : String} {xs : List Json} (hs : Safe q w b j) (hf : field k j = some (.arr xs)) (hx : x ∈ xs) :
    Safe q w (below b j) x :=
  hs.inside ((inside_elem hx).trans (inside_field (k := k) (by rw [field?_eq_field]; exact hf)))

theorem safe_field {j x : Json} {k : String} (hs : Safe q w b j) (hf : field k j = some x) : Safe q w (below b j) x :=
  hs.inside (inside_field (k := k) (by rw [field?_eq_field]; exact hf))

/-! ### New nodes -/

/-- A node of a type that is neither indented nor looked at closely. -/
theorem safe_plain {n : Json} {t : String} (ht : getStrForKey "ast_type" n = some t) (hp : t ∉ picky) (hi : indents n = false)
    (hc : ∀ x ∈ n.children, Safe q w b x) : Safe q w b n :=
  safe_node (firm_of_type ht hp) (by simp [hi]) fun x hx => by simpa [below, hi] using hc x hx

theorem type_fields {l : List (String × Json)} {t : String} (ht : lastField "ast_type" l none = some (.str t)) :
    getStrForKey "ast_type" (Json.ofFields l) = some t :=
  getStr_of_text (by decide) (by unfold TextField; rw [field_ofFields, ht])

theorem indents_of {n : Json} {t : String} (ht : getStrForKey "ast_type" n = some t)
    (h : t ∉ ["FunctionDef", "InterfaceDef", "StructDef", "EventDef", "EnumDef", "For", "If", "Dict"]) : indents n = false := by
  unfold indents
  rw [ht]
  simpa using h

theorem safe_integer (env : MutEnv) (i : Int) : Safe q w b (Vyper.integerConstantNode env i) := by
  have ht : getStrForKey "ast_type" (Vyper.integerConstantNode env i) = some "Int" := type_fields (by simp [lastField])
  refine safe_plain ht (by decide) (indents_of ht (by decide)) fun x hx => ?_
  have := ofFields_children hx
  simp only [List.map_cons, List.map_nil, List.mem_cons, List.not_mem_nil, or_false] at this
  rcases this with rfl | rfl | rfl
  · exact safe_leaf rfl
  · exact safe_leaf rfl
  · unfold Vyper.parsedInt
    split <;> exact safe_leaf rfl

theorem safe_float (t : String) : Safe q w b (Vyper.floatConstantNode t) := by
  have ht : getStrForKey "ast_type" (Vyper.floatConstantNode t) = some "Decimal" := type_fields (by simp [lastField])
  refine safe_plain ht (by decide) (indents_of ht (by decide)) fun x hx => ?_
  have := ofFields_children hx
  simp only [List.map_cons, List.map_nil, List.mem_cons, List.not_mem_nil, or_false] at this
  rcases this with rfl | rfl | rfl <;> exact safe_leaf rfl

theorem safe_boolean (v : Bool) : Safe q w b (Vyper.booleanConstantNode v) := by
  have ht : getStrForKey "ast_type" (Vyper.booleanConstantNode v) = some "NameConstant" := type_fields (by simp [lastField])
  refine safe_plain ht (by decide) (indents_of ht (by decide)) fun x hx => ?_
  have := ofFields_children hx
  simp only [List.map_cons, List.map_nil, List.mem_cons, List.not_mem_nil, or_false] at this
  rcases this with rfl | rfl | rfl <;> exact safe_leaf rfl

theorem safe_string (s : String) : Safe q w b (Vyper.stringNode s) := by
  have ht : getStrForKey "ast_type" (Vyper.stringNode s) = some "Str" := type_fields (by simp [lastField])
  refine safe_plain ht (by decide) (indents_of ht (by decide)) fun x hx => ?_
  have := ofFields_children hx
  simp only [List.map_cons, List.map_nil, List.mem_cons, List.not_mem_nil, or_false] at this
  rcases this with rfl | rfl | rfl <;> exact safe_leaf rfl

theorem safe_pass : Safe q w b Vyper.passNode := by
  have ht : getStrForKey "ast_type" Vyper.passNode = some "Pass" := type_fields (by simp [lastField])
  refine safe_plain ht (by decide) (indents_of ht (by decide)) fun x hx => ?_
  have := ofFields_children hx
  simp only [List.map_cons, List.map_nil, List.mem_cons, List.not_mem_nil, or_false] at this
  rcases this with rfl | rfl <;> exact safe_leaf rfl

theorem safe_return {v : Json} (h : Safe q w b v) : Safe q w b (Vyper.returnNode v) := by
  have ht : getStrForKey "ast_type" (Vyper.returnNode v) = some "Return" :=
    getStr_of_text (by decide) (show IsVyperKind "Return" (Vyper.returnNode v) from rfl)
  refine safe_plain ht (by decide) (indents_of ht (by decide)) fun x hx => ?_
  rcases set_children (by decide) (ofFields_isObj _) hx with rfl | hx
  · exact h
  · have := ofFields_children hx
    simp only [List.map_cons, List.map_nil, List.mem_cons, List.not_mem_nil, or_false] at this
    rcases this with rfl | rfl | rfl <;> exact safe_leaf rfl

theorem safe_not {v : Json} (h : Safe q w b v) : Safe q w b (Vyper.unaryOpNode "Not" v) := by
  have ht : getStrForKey "ast_type" (Vyper.unaryOpNode "Not" v) = some "UnaryOp" := by
    unfold Vyper.unaryOpNode
    rw [type_set (by decide) (by decide) (ofFields_isObj _)]
    exact type_fields (by simp [lastField])
  refine safe_plain ht (by decide) (indents_of ht (by decide)) fun x hx => ?_
  rcases set_children (by decide) (ofFields_isObj _) hx with rfl | hx
  · exact h
  · have := ofFields_children hx
    simp only [List.map_cons, List.map_nil, List.mem_cons, List.not_mem_nil, or_false] at this
    rcases this with rfl | rfl | rfl | rfl
    · exact safe_leaf rfl
    · exact safe_leaf rfl
    · have ht : getStrForKey "ast_type" (Json.ofFields [("node_id", Vyper.jint 9999991), ("ast_type", .str "Not")]) = some "Not" :=
        type_fields (by simp [lastField])
      refine safe_plain ht (by decide) (indents_of ht (by decide)) fun x hx => ?_
      have := ofFields_children hx
      simp only [List.map_cons, List.map_nil, List.mem_cons, List.not_mem_nil, or_false] at this
      rcases this with rfl | rfl <;> exact safe_leaf rfl
    · exact safe_leaf rfl

theorem safe_listLike (size : Nat) {kind : String} (hk : kind = "Tuple" ∨ kind = "List") : Safe q w b (Vyper.listLikeNode size kind) := by
  have ht : getStrForKey "ast_type" (Vyper.listLikeNode size kind) = some kind := by
    unfold Vyper.listLikeNode
    rw [type_set (by decide) (by decide) (ofFields_isObj _)]
    exact type_fields (by simp [lastField])
  refine safe_plain ht (by rcases hk with rfl | rfl <;> decide) (indents_of ht (by rcases hk with rfl | rfl <;> decide)) fun x hx => ?_
  rcases set_children (by decide) (ofFields_isObj _) hx with rfl | hx
  · refine safe_arr fun y hy => ?_
    obtain ⟨-, rfl⟩ := List.mem_replicate.1 hy
    have ht : getStrForKey "ast_type" (Json.ofFields [("node_id", Vyper.jint 9999992), ("ast_type", .str "NameConstant"), ("value", .null)]) =
      some "NameConstant" := type_fields (by simp [lastField])
    refine safe_plain ht (by decide) (indents_of ht (by decide)) fun x hx => ?_
    have := ofFields_children hx
    simp only [List.map_cons, List.map_nil, List.mem_cons, List.not_mem_nil, or_false] at this
    rcases this with rfl | rfl | rfl <;> exact safe_leaf rfl
  · have := ofFields_children hx
    simp only [List.map_cons, List.map_nil, List.mem_cons, List.not_mem_nil, or_false] at this
    rcases this with rfl | rfl | rfl <;> exact safe_leaf rfl

theorem type_commentBase {v : Json} : getStrForKey "ast_type" (setNodeForKey "value" v (.ofFields [("node_id", Vyper.jint 9999996),
    ("ast_type", .str "Comment"), ("value", .null)])) = some "Comment" := by
  rw [type_set (by decide) (by decide) (ofFields_isObj _)]
  exact type_fields (by simp [lastField])

/-- Comments. -/
theorem firm_comment {n v : Json} (ht : getStrForKey "ast_type" n = some "Comment") (hv : field? "value" n = some v)
    (h1 : ∀ t, v = .str t → ShortWords w t.toList) (h2 : q → ∀ kvs, v ≠ .obj kvs) : Firm q w n := by
  refine ⟨fun h' => ?_, fun h' => ?_, fun h' => ?_, fun _ t h => ?_, fun hq _ kvs h => ?_, fun h' => ?_, fun h' => ?_⟩
  iterate 3 (rw [ht] at h'; exact absurd h' (by decide))
  · rw [hv] at h; exact h1 t (Option.some.inj h)
  · rw [hv] at h; exact h2 hq kvs (Option.some.inj h)
  all_goals (rw [ht] at h'; exact absurd h' (by decide))

/-- A deleted statement. -/
theorem safe_deleted {v : Json} (hv : ∀ t, v ≠ .str t) (h : Safe False w b v) : Safe False w b (Vyper.commentNodeFromNode v) := by
  have ht : getStrForKey "ast_type" (Vyper.commentNodeFromNode v) = some "Comment" :=
    getStr_of_text (by decide) (vyper_commentNodeFromNode_spec v).1
  have hi := indents_of ht (by decide)
  refine safe_node (firm_comment ht (v := v) (by rw [field?_eq_field]; exact (vyper_commentNodeFromNode_spec v).2) (fun t e => absurd e (hv t))
    fun h => h.elim) (by simp [hi]) fun x hx => ?_
  simp only [below, hi, Bool.false_eq_true, if_false, Nat.sub_zero]
  rcases set_children (by decide) (setNodeForKey_isObj (by decide) _ (ofFields_isObj _)) hx with rfl | hx
  · exact safe_leaf rfl
  · rcases set_children (by decide) (ofFields_isObj _) hx with rfl | hx
    · exact h
    · have := ofFields_children hx
      simp only [List.map_cons, List.map_nil, List.mem_cons, List.not_mem_nil, or_false] at this
      rcases this with rfl | rfl | rfl <;> exact safe_leaf rfl

/-- A comment with short words. -/
theorem safe_comment {text : String} (h : ShortWords w text.toList) : Safe q w b (Vyper.commentNode text) := by
  have ht : getStrForKey "ast_type" (Vyper.commentNode text) = some "Comment" := type_commentBase
  have hv : field? "value" (Vyper.commentNode text) = some (.str text) := by
    unfold Vyper.commentNode
    rw [field?_eq_field, field_setNodeForKey (by decide) _ _ (ofFields_isObj _), if_pos rfl]
  refine safe_node (firm_comment ht hv (fun t e => by cases e; exact h) fun _ kvs e => by cases e) (by simp [indents_of ht (by decide)]) fun x hx => ?_
  rcases set_children (by decide) (ofFields_isObj _) hx with rfl | hx
  · exact safe_leaf rfl
  · have := ofFields_children hx
    simp only [List.map_cons, List.map_nil, List.mem_cons, List.not_mem_nil, or_false] at this
    rcases this with rfl | rfl | rfl <;> exact safe_leaf rfl

/-! ### The mutators -/

theorem kind_type {t : String} {j : Json} (h : Vyper.hasType t j = true) : getStrForKey "ast_type" j = some t :=
  beq_iff_eq.1 h

theorem kind_isObj {t : String} {j : Json} (h : getStrForKey "ast_type" j = some t) : j.IsObj :=
  isObj_of_getStr (by decide) (by decide) h

theorem vyper_array {k : String} {j : Json} {xs : List Json} (h : Vyper.arrayField k j = some xs) : field k j = some (.arr xs) :=
  arrayField_iff.1 h

theorem binary_type {j : Json} (h : Vyper.isBinary j = true) : ∃ t, getStrForKey "ast_type" j = some t ∧ t ∉ picky ∧ t ≠ "DocStr" := by
  simp only [Vyper.isBinary, Bool.or_eq_true] at h
  rcases h with (h | h) | h <;> exact ⟨_, kind_type h, by decide, by decide⟩

variable {R : Type} [Rand R]

section
variable {env : MutEnv} {j j' : Json} {r r' : R} {res : MutatorResult} {c : Option Json}

theorem operator_type {op s : String} (h : Vyper.nameOf s = some op) :
    op ∉ picky ∧ op ∉ ["FunctionDef", "InterfaceDef", "StructDef", "EventDef", "EnumDef", "For", "If", "Dict"] := by
  have key : ∀ (l : List (String × String)) (s op : String), l.lookup s = some op → (s, op) ∈ l := by
    intro l
    induction l with
    | nil => intro s op h; cases h
    | cons a l ih =>
      intro s op h
      obtain ⟨x, y⟩ := a
      rw [List.lookup_cons] at h
      split at h
      · rename_i he
        rw [beq_iff_eq] at he
        cases h
        rw [he]
        exact List.mem_cons_self ..
      · exact List.mem_cons_of_mem _ (ih s op h)
  have hall : ∀ p ∈ (Vyper.operatorMap.map fun p => (p.2, p.1)),
      p.2 ∉ picky ∧ p.2 ∉ ["FunctionDef", "InterfaceDef", "StructDef", "EventDef", "EnumDef", "For", "If", "Dict"] := by decide
  exact hall _ (key _ _ _ h)

theorem safe_binary {ops : List String} {t : MutationType} (hs : Safe q w b j) (hmut : Vyper.binaryOpMutable ops j = true)
    (h : Vyper.binaryOpMutate env ops t j r = .ok (j', res, c, r')) : Safe q w b j' := by
  simp only [Vyper.binaryOpMutable, Bool.and_eq_true] at hmut
  obtain ⟨ty, hty, hp, -⟩ := binary_type hmut.1
  have hj := kind_isObj hty
  simp only [Vyper.binaryOpMutate] at h
  split at h
  · rename_i op j1 htk
    obtain ⟨ho, _, _⟩ := take_eq (by decide) hj htk
    split at h
    · rename_i opType hop
      split at h
      · cases h
      · split at h
        · split at h
          · cases h
          · rename_i name hname
            cases h
            refine safe_take_set hj hs (by decide) (by decide) hty hp htk ?_
            have hob := kind_isObj hop
            have htn : getStrForKey "ast_type" (setStrForKey "ast_type" name op) = some name := by
              unfold getStrForKey setStrForKey
              rw [get?_setNodeForKey (by decide) (by decide) _ hob, if_pos rfl]
              rfl
            refine safe_plain htn (operator_type hname).1 (indents_of htn (operator_type hname).2) fun x hx => ?_
            rcases set_children (by decide) hob hx with rfl | hx
            · exact safe_leaf rfl
            · exact ((safe_field hs ho.symm).child hx).mono below_le
        all_goals cases h
    · cases h
  · cases h

theorem safe_value {v : Json} {parts : List HashPart} (h : Vyper.assignmentValue env r = .ok (v, parts, r')) : Safe q w b v := by
  simp only [Vyper.assignmentValue] at h
  split at h
  · split at h
    · cases h; exact safe_integer _ _
    all_goals cases h
  · split at h
    · split at h
      · cases h; exact safe_integer _ _
      all_goals cases h
    · split at h
      · cases h; exact safe_boolean _
      · cases h; exact safe_float _

theorem safe_assignment (hs : Safe q w b j) (hmut : Vyper.assignmentMutable j = true)
    (h : Vyper.assignmentMutate env j r = .ok (j', res, c, r')) : Safe q w b j' := by
  have hk := kind_type hmut
  simp only [Vyper.assignmentMutate] at h
  split at h
  · cases h
  · split at h
    · rename_i hv
      split at h
      · cases h
      · cases h
        exact safe_set (kind_isObj hk) hs (by decide) (by decide) hk (by decide) (safe_value hv)
    all_goals cases h

theorem safe_unaryOp (hs : Safe q w b j) (hmut : Vyper.unaryOpMutable j = true)
    (h : Vyper.unaryOpMutate env j r = .ok (j', res, c, r')) : Safe q w b j' := by
  have hk := kind_type hmut
  simp only [Vyper.unaryOpMutate] at h
  split at h
  · rename_i j1 htk
    obtain ⟨ho, _, _⟩ := take_eq (by decide) (kind_isObj hk) htk
    cases h
    exact (safe_field hs ho.symm).mono below_le
  · cases h

theorem safe_functionCall (hs : Safe q w b j) (h : Vyper.functionCallMutate env j r = .ok (j', res, c, r')) : Safe q w b j' := by
  simp only [Vyper.functionCallMutate] at h
  split at h
  · rename_i args ha
    split at h
    · split at h
      · cases h
      · rename_i hv
        cases h
        exact (safe_elem hs (vyper_array ha) (List.mem_of_getElem? hv)).mono below_le
    all_goals cases h
  · cases h

theorem safe_integerOp (hs : Safe q w b j) (hmut : Vyper.integerMutable j = true)
    (h : Vyper.integerMutate env j r = .ok (j', res, c, r')) : Safe q w b j' := by
  have hk := kind_type hmut
  have hj := kind_isObj hk
  simp only [Vyper.integerMutate] at h
  split at h
  · cases h
    exact safe_set hj hs (by decide) (by decide) hk (by decide) (safe_leaf rfl)
  · split at h
    · cases h
      exact hs
    · split at h
      · cases h
      · cases h
        exact safe_set hj hs (by decide) (by decide) hk (by decide) (safe_leaf rfl)

theorem safe_if (hs : Safe q w b j) (hmut : Vyper.ifMutable j = true)
    (h : Vyper.ifMutate env j r = .ok (j', res, c, r')) : Safe q w b j' := by
  simp only [Vyper.ifMutable, Bool.and_eq_true] at hmut
  have hk := kind_type hmut.1
  have hj := kind_isObj hk
  simp only [Vyper.ifMutate] at h
  split at h
  · cases h
  · split at h
    · cases h
      exact safe_set hj hs (by decide) (by decide) hk (by decide) (safe_boolean _)
    · split at h
      · cases h
        exact safe_set hj hs (by decide) (by decide) hk (by decide) (safe_boolean _)
      · split at h
        · rename_i v j1 htk
          obtain ⟨ho, _, _⟩ := take_eq (by decide) hj htk
          cases h
          exact safe_take_set hj hs (by decide) (by decide) hk (by decide) htk (safe_not (safe_field hs ho.symm))
        · rename_i j1 htk
          cases h
          exact (safe_take hj hs (by decide) (by decide) hk (by decide) htk).1

omit [Rand R] in
theorem safe_swapOperands (hs : Safe q w b j) (hmut : Vyper.swapOperandsMutable j = true)
    (h : Vyper.swapOperandsMutate env j r = .ok (j', res, c, r')) : Safe q w b j' := by
  have hbin : Vyper.isBinary j = true := by
    simp only [Vyper.swapOperandsMutable, Vyper.swapOperandsTest, decide_eq_true_eq] at hmut
    split at hmut
    · assumption
    · cases hmut
  obtain ⟨ty, hty, hp, -⟩ := binary_type hbin
  have hj := kind_isObj hty
  have hsides : Safe q w b (Vyper.swapSides j).1 := by
    unfold Vyper.swapSides
    split
    · rename_i left j1 ht1
      obtain ⟨ho1, hj1, hf1⟩ := take_eq (by decide) hj ht1
      obtain ⟨s1, t1, b1⟩ := safe_take hj hs (by decide) (by decide) hty hp ht1
      split
      · rename_i right j2 ht2
        obtain ⟨ho2, hj2, _⟩ := take_eq (by decide) hj1 ht2
        obtain ⟨s2, t2, b2⟩ := safe_take hj1 s1 (by decide) (by decide) t1 hp ht2
        rw [hf1, if_neg (fun h => absurd h.1 (by decide))] at ho2
        have s3 := safe_set hj2 s2 (k := "left") (v := right) (by decide) (by decide) t2 hp (by rw [b2, b1]; exact safe_field hs ho2.symm)
        have hj3 := setNodeForKey_isObj (k := "left") (by decide) right hj2
        have t3 := type_set (k := "left") (v := right) (by decide) (by decide) hj2
        refine safe_set hj3 s3 (by decide) (by decide) (t3.trans t2) hp ?_
        rw [below_congr t3, b2, b1]
        exact safe_field hs ho1.symm
      · rename_i j2 ht2
        exact (safe_take hj1 s1 (by decide) (by decide) t1 hp ht2).1
    · rename_i j1 ht1
      exact (safe_take hj hs (by decide) (by decide) hty hp ht1).1
  have htake : ∀ {o : Option Json} {j1 : Json}, takeValueForKey "values" j = (o, j1) → Safe q w b j1 := fun htk =>
    (safe_take hj hs (by decide) (by decide) hty hp htk).1
  simp only [Vyper.swapOperandsMutate] at h
  split at h
  · cases h
  · split at h
    · split at h <;> (rename_i he; cases h; rw [he] at hsides; exact hsides)
    · split at h
      · split at h
        · rename_i htk
          cases h
          exact htake htk
        · cases h
        · rename_i htk
          cases h
          exact htake htk
      · cases h
        exact hs

theorem safe_swapArguments (hs : Safe q w b j) (hmut : Vyper.swapArgumentsMutable j = true)
    (h : Vyper.swapArgumentsMutate env j r = .ok (j', res, c, r')) : Safe q w b j' := by
  simp only [Vyper.swapArgumentsMutable, Bool.and_eq_true] at hmut
  have hk := kind_type hmut.1
  have hj := kind_isObj hk
  simp only [Vyper.swapArgumentsMutate] at h
  split at h
  · rename_i args j1 htk
    obtain ⟨ho, _, _⟩ := take_eq (by decide) hj htk
    split at h
    · split at h
      · rename_i h1 h2
        cases h
        refine safe_take_set hj hs (by decide) (by decide) hk (by decide) htk (safe_arr fun x hx => ?_)
        rcases List.mem_or_eq_of_mem_set hx with hx | rfl
        · rcases List.mem_or_eq_of_mem_set hx with hx | rfl
          · exact safe_elem hs ho.symm hx
          · exact safe_elem hs ho.symm (List.mem_of_getElem? h2)
        · exact safe_elem hs ho.symm (List.mem_of_getElem? h1)
      · cases h
    · cases h
      exact (safe_take hj hs (by decide) (by decide) hk (by decide) htk).1
    all_goals cases h
  · cases h

theorem safe_swapLines (hs : Safe q w b j) (hmut : Vyper.swapLinesMutable j = true)
    (h : Vyper.swapLinesMutate env j r = .ok (j', res, c, r')) : Safe q w b j' := by
  simp only [Vyper.swapLinesMutable, Bool.and_eq_true, Bool.or_eq_true] at hmut
  have hj : j.IsObj := by rcases hmut.1 with (h | h) | h <;> exact kind_isObj (kind_type h)
  simp only [Vyper.swapLinesMutate] at h
  split at h
  · rename_i ss j1 htk
    obtain ⟨ho, _, _⟩ := take_eq (by decide) hj htk
    split at h
    · split at h
      · rename_i hd2
        split at h
        · cases h
        · rename_i hex
          cases h
          have hg2 := (drawUntil_ok hd2).2
          simp only [Bool.and_eq_true, bne_iff_ne, ne_eq] at hg2
          exact safe_body hj hs htk (safe_arr fun x hx =>
            safe_elem hs ho.symm (exchanged_mem (exchange_eq (fun e => hg2.1 e.symm) hex).1 hx))
      all_goals cases h
    all_goals cases h
  · cases h

theorem safe_replacement {more : List Json} {ps : List HashPart} (h : Vyper.replacementStatement env j r = .ok (more, ps, r')) :
    ∀ x ∈ more, Safe q w b x := by
  have one : ∀ {x : Json} {ps' : List HashPart} {r'' : R}, Safe q w b x → Outcome.ok ([x], ps', r'') = Outcome.ok (more, ps, r') →
      ∀ x ∈ more, Safe q w b x := by
    intro x ps' r'' hx he y hy
    cases he
    rw [List.mem_singleton.1 hy]
    exact hx
  have none : ∀ {ps' : List HashPart} {r'' : R}, Outcome.ok (([] : List Json), ps', r'') = Outcome.ok (more, ps, r') →
      ∀ x ∈ more, Safe q w b x := by
    intro ps' r'' he y hy
    cases he
    cases hy
  unfold Vyper.replacementStatement at h
  split at h
  · exact one safe_pass h
  · split at h
    · exact one safe_pass h
    · split at h
      · split at h
        · exact none h
        · split at h
          · cases h
          · simp only at h
            split at h
            · exact one (safe_return (safe_boolean _)) h
            · split at h
              · exact one (safe_return (safe_integer _ _)) h
              · split at h
                · exact one (safe_return (safe_integer _ _)) h
                · split at h
                  · exact one (safe_return (safe_string _)) h
                  · cases h
      · split at h
        · exact none h
        · split at h
          · rename_i hk
            split at h
            · exact one (safe_return (safe_listLike _ hk)) h
            · exact none h
          · exact none h

theorem safe_deleteStatement (hs : Safe False w b j) (hmut : Vyper.deleteStatementMutable env j = true)
    (hbody : ∀ ss, field "body" j = some (.arr ss) → ∀ x ∈ ss, x.IsObj)
    (h : Vyper.deleteStatementMutate env j r = .ok (j', res, c, r')) : Safe False w b j' := by
  simp only [Vyper.deleteStatementMutable, Bool.and_eq_true, Bool.or_eq_true] at hmut
  have hj : j.IsObj := by rcases hmut.1 with ((h | h) | h) | h <;> exact kind_isObj (kind_type h)
  simp only [Vyper.deleteStatementMutate] at h
  split at h
  · rename_i ss j1 htk
    obtain ⟨ho, _, _⟩ := take_eq (by decide) hj htk
    split at h
    · rename_i i r1 hd
      split at h
      · cases h
      · rename_i v hv
        have hlt : i < ss.length := (List.getElem?_eq_some_iff.1 hv).1
        rw [eraseIdx_insertIdx_self _ _ _ hlt] at h
        split at h
        · rename_i more ps r2 hx
          cases h
          refine safe_body hj hs htk (safe_arr fun x hxs => ?_)
          rcases List.mem_append.1 hxs with hxs | hxs
          · rcases List.mem_or_eq_of_mem_set hxs with hxs | rfl
            · exact safe_elem hs ho.symm hxs
            · have hm := List.mem_of_getElem? hv
              exact safe_deleted (fun t e => by have := hbody _ ho.symm _ hm; rw [e] at this; exact this) (safe_elem hs ho.symm hm)
          · split at hx
            · exact safe_replacement hx x hxs
            · cases hx
              cases hxs
        all_goals cases h
    all_goals cases h
  · cases h

/-- Mutations of trees of firm nodes are trees of firm nodes. -/
theorem safe_mutate {t : MutationType} {m : Mutator R} (hm : Vyper.mutatorFor env t = some m) (hmut : m.isMutable j = true)
    (h : m.mutate j r = .ok (j', res, c, r')) (hs : Safe q w b j)
    (hdel : t = .deleteStatement → q = False ∧ ∀ ss, field "body" j = some (.arr ss) → ∀ x ∈ ss, x.IsObj) : Safe q w b j' := by
  cases t <;> cases hm
  case deleteStatement =>
    obtain ⟨rfl, hb⟩ := hdel rfl
    exact safe_deleteStatement hs hmut hb h
  all_goals first
    | exact safe_binary hs hmut h
    | exact safe_unaryOp hs hmut h
    | exact safe_integerOp hs hmut h
    | exact safe_assignment hs hmut h
    | exact safe_functionCall hs h
    | exact safe_swapLines hs hmut h
    | exact safe_if hs hmut h
    | exact safe_swapOperands hs hmut h
    | exact safe_swapArguments hs hmut h

theorem mutable_type {t : MutationType} {m : Mutator R} (hm : Vyper.mutatorFor env t = some m) (h : m.isMutable j = true) :
    ∃ ty, getStrForKey "ast_type" j = some ty ∧ ty ≠ "DocStr" := by
  have bin : Vyper.isBinary j = true → ∃ ty, getStrForKey "ast_type" j = some ty ∧ ty ≠ "DocStr" := fun h => by
    obtain ⟨ty, h1, -, h2⟩ := binary_type h
    exact ⟨ty, h1, h2⟩
  have one : ∀ {ty : String}, ty ≠ "DocStr" → Vyper.hasType ty j = true → ∃ ty, getStrForKey "ast_type" j = some ty ∧ ty ≠ "DocStr" :=
    fun h1 h2 => ⟨_, kind_type h2, h1⟩
  cases t <;> cases hm
  case swapOperatorArguments =>
    have h : Vyper.swapOperandsMutable j = true := h
    simp only [Vyper.swapOperandsMutable, Vyper.swapOperandsTest, decide_eq_true_eq] at h
    split at h
    · exact bin (by assumption)
    · cases h
  case deleteStatement =>
    have h : Vyper.deleteStatementMutable env j = true := h
    simp only [Vyper.deleteStatementMutable, Bool.and_eq_true, Bool.or_eq_true] at h
    rcases h.1 with ((h | h) | h) | h <;> exact one (by decide) h
  case swapLines =>
    have h : Vyper.swapLinesMutable j = true := h
    simp only [Vyper.swapLinesMutable, Bool.and_eq_true, Bool.or_eq_true] at h
    rcases h.1 with (h | h) | h <;> exact one (by decide) h
  all_goals first
    | exact bin (Bool.and_eq_true_iff.1 h).1
    | exact one (ty := "Assign") (by decide) h
    | exact one (ty := "Int") (by decide) h
    | exact one (ty := "UnaryOp") (by decide) h
    | exact one (ty := "Call") (by decide) (Bool.and_eq_true_iff.1 h).1
    | exact one (ty := "If") (by decide) (Bool.and_eq_true_iff.1 h).1

end

/-! ### Comments beside mutations -/

theorem field_put {kvs : List (String × Json)} {i : Nat} {k k' : String} {v' : Json} (hk : (kvs.map Prod.fst)[i]? = some k)
    (hne : k ≠ k') : field k' (replaceAt [i] v' (.obj kvs)) = field k' (.obj kvs) := by
  have hi : ∃ d, (kvs.map Prod.snd)[i]? = some d := by
    obtain ⟨hlt, _⟩ := List.getElem?_eq_some_iff.1 hk
    exact ⟨_, List.getElem?_eq_getElem (by simpa using hlt)⟩
  obtain ⟨d, hd⟩ := hi
  simp only [replaceAt, children, hd, setChildren]
  exact objGet_zip_ne kvs i _ hk hne

theorem safe_put {kvs : List (String × Json)} {i : Nat} {k : String} {v' : Json}
    (hs : Safe q w b (.obj kvs)) (hk : (kvs.map Prod.fst)[i]? = some k) (hne : k ∉ looked) (hv : Safe q w (below b (.obj kvs)) v') :
    Safe q w b (replaceAt [i] v' (.obj kvs)) := by
  have hf : ∀ k' ∈ looked, field k' (replaceAt [i] v' (.obj kvs)) = field k' (.obj kvs) := fun k' hk' =>
    field_put hk (by rintro rfl; exact hne hk')
  have ht : getStrForKey "ast_type" (replaceAt [i] v' (.obj kvs)) = getStrForKey "ast_type" (.obj kvs) := by
    unfold getStrForKey
    rw [get?_field (by decide) (put_isObj ..), get?_field (by decide) (isObj_obj _), hf _ (by decide)]
  refine safe_like (isObj_obj kvs) hs ht (firm_only (isObj_obj kvs) (put_isObj ..) hf (hs.firm _ (.refl _))) fun x hx => ?_
  simp only [replaceAt] at hx
  split at hx
  · rw [children_setChildren _ _ (by simp)] at hx
    rcases List.mem_or_eq_of_mem_set hx with hx | rfl
    · exact Or.inl hx
    · exact Or.inr hv
  · exact Or.inl hx

/-- Trees with a comment are trees of firm nodes. -/
theorem safe_commented {id : Nat} {c ast out : Json} (hc : ∀ b, Safe q w b c) (hs : Safe q w b ast)
    (h : CommentAdded .vyper id c ast out) : Safe q w b out := by
  cases h with
  | inList p i n pre post s hp hn hx _ _ =>
    obtain ⟨kvs, t, k, rfl, ht, hm, hk, _⟩ := hn
    rw [← replaceAt_append hp]
    rw [nodeAt_append, hp] at hx
    have ht : getStrForKey "ast_type" (.obj kvs) = some t := ht
    simp only [statementLists, List.mem_cons, Prod.mk.injEq, List.not_mem_nil, or_false] at hm
    refine safe_replace (isObj_obj kvs) (put_isObj kvs i _) ?_ (fun b hb => ?_) hp hs
    · rw [ht]
      rcases hm with ⟨rfl, _⟩ | ⟨rfl, _⟩ | ⟨rfl, _⟩ | ⟨rfl, _⟩ | ⟨rfl, _⟩ <;> decide
    have hmem := inside_put hx
    refine safe_put hb hk ?_ (safe_arr fun x hxs => ?_)
    · rcases hm with ⟨_, rfl⟩ | ⟨_, rfl⟩ | ⟨_, rfl⟩ | ⟨_, rfl⟩ | ⟨_, rfl⟩ <;> decide
    · by_cases hxc : x = c
      · rw [hxc]; exact hc _
      · exact hb.inside ((inside_elem (xs := pre ++ s :: post) (by simp at hxs ⊢; simpa [hxc] using hxs)).trans hmem)
  | atTop _ _ _ _ hl => cases hl
  | inBlock _ _ _ _ _ hl => cases hl

end Firmly
end VyPrint
end Mutagenyx
