import Verif.Spec.VyperChange
import Verif.Proofs.Comments
import Verif.Proofs.VyperCalls

/-!
# Replacing a part of a Vyper program
-/

namespace Mutagenyx
namespace VyPrint
open VyGrammar Json

/-! ### Fields -/

/-- Both are objects; the field has the new value, and the other fields are the same. -/
def Sets (k : String) (w j j' : Json) : Prop :=
  IsObj j ∧ IsObj j' ∧ Json.field? k j' = some w ∧ ∀ k', k' ≠ k → Json.field? k' j' = Json.field? k' j

theorem get?_field? {k : String} (hk : PlainKey k) {j : Json} (hj : IsObj j) : get? k j = Json.field? k j := by
  obtain ⟨kvs, rfl⟩ := isObj_iff.1 hj
  exact get?_obj hk kvs

theorem Sets.get {k w j j'} (h : Sets k w j j') {k' : String} (hk : PlainKey k') (hne : k' ≠ k) : get? k' j' = get? k' j := by
  rw [get?_field? hk h.1, get?_field? hk h.2.1, h.2.2.2 k' hne]

theorem Sets.str {k w j j'} (h : Sets k w j j') {k' : String} (hk : PlainKey k') (hne : k' ≠ k) :
    getStrForKey k' j' = getStrForKey k' j := by
  unfold getStrForKey; rw [h.get hk hne]

theorem Sets.int {k w j j'} (h : Sets k w j j') {k' : String} (hk : PlainKey k') (hne : k' ≠ k) :
    getIntForKey k' j' = getIntForKey k' j := by
  unfold getIntForKey; rw [h.get hk hne]

theorem Sets.flag {k w j j'} (h : Sets k w j j') {k' : String} (hk : PlainKey k') (hne : k' ≠ k) :
    VyGrammar.flag k' j' = VyGrammar.flag k' j := by
  unfold VyGrammar.flag getBoolForKey; rw [h.get hk hne]

theorem Sets.isA {k w j j'} (h : Sets k w j j') {t : String} (hne : k ≠ "ast_type") (ht : IsA t j) : IsA t j' := by
  unfold IsA at *
  rw [h.str (by decide) (Ne.symm hne)]; exact ht

theorem Sets.field {k w j j'} (h : Sets k w j j') : Json.field? k j' = some w := h.2.2.1

theorem Sets.other {k w j j'} (h : Sets k w j j') {k' : String} (hne : k' ≠ k) : Json.field? k' j' = Json.field? k' j :=
  h.2.2.2 k' hne

theorem isA_unique {t t' : String} {j : Json} (h : IsA t j) (h' : IsA t' j) : t = t' := by
  unfold IsA at *; rw [h] at h'; exact Option.some.inj h'

theorem isA_arr {t : String} {xs : List Json} (h : IsA t (.arr xs)) : False := by
  obtain ⟨kvs, hk⟩ := isA_obj h
  cases hk

/-! ### A step down -/

theorem objGet_set {kvs : List (String × Json)} {i : Nat} {k : String} {v w : Json} (h : kvs[i]? = some (k, v))
    (hf : (kvs.map Prod.fst).findIdx? (· == k) = some i) :
    objGet k kvs = some v ∧
      objGet k (List.zipWith (fun (kv : String × Json) c => (kv.1, c)) kvs ((kvs.map Prod.snd).set i w)) = some w ∧
      ∀ k', k' ≠ k →
        objGet k' (List.zipWith (fun (kv : String × Json) c => (kv.1, c)) kvs ((kvs.map Prod.snd).set i w)) = objGet k' kvs := by
  have same : ∀ (kvs : List (String × Json)) (k' : String),
      objGet k' (List.zipWith (fun (kv : String × Json) c => (kv.1, c)) kvs (kvs.map Prod.snd)) = objGet k' kvs := by
    intro kvs k'
    induction kvs with
    | nil => rfl
    | cons x xs ih => simp [objGet, ih]
  induction kvs generalizing i with
  | nil => simp at h
  | cons x xs ih =>
    obtain ⟨l, u⟩ := x
    cases i with
    | zero =>
      simp only [List.getElem?_cons_zero, Option.some.injEq, Prod.mk.injEq] at h
      obtain ⟨rfl, rfl⟩ := h
      refine ⟨by simp [objGet], by simp [objGet], fun k' hk' => ?_⟩
      have := same xs k'
      simp [objGet, Ne.symm hk', this]
    | succ i =>
      simp only [List.getElem?_cons_succ] at h
      simp only [List.map_cons, List.findIdx?_cons] at hf
      split at hf
      · cases hf
      · rename_i hl
        have hl' : l ≠ k := by simpa using hl
        have hf' : (xs.map Prod.fst).findIdx? (· == k) = some i := by simpa using hf
        obtain ⟨h1, h2, h3⟩ := ih h hf'
        refine ⟨by simp [objGet, hl', h1], by simp [objGet, hl', h2], fun k' hk' => ?_⟩
        simp only [List.map_cons, List.set_cons_succ, List.zipWith_cons_cons, objGet]
        rw [h3 k' hk']

/-- A position in an array. -/
theorem step_arr {i : Nat} {p : Pos} {xs : List Json} {n : Json} (hn : nodeAt (i :: p) (.arr xs) = some n)
    (hv : visible (i :: p) (.arr xs) = true) : ∃ v, xs[i]? = some v ∧ nodeAt p v = some n ∧ visible p v = true ∧
      ∀ x, replaceAt (i :: p) x (.arr xs) = .arr (xs.set i (replaceAt p x v)) := by
  simp only [nodeAt, children] at hn
  simp only [visible] at hv
  cases hx : xs[i]? with
  | none => rw [hx] at hn; cases hn
  | some v =>
    rw [hx] at hn hv
    exact ⟨v, rfl, hn, hv, fun x => by simp only [replaceAt, children, hx, setChildren]⟩

/-- A position below a node. -/
theorem step_obj {t : String} {i : Nat} {p : Pos} {j n : Json} (ht : IsA t j) (hn : nodeAt (i :: p) j = some n)
    (hv : visible (i :: p) j = true) : ∃ k v, k ∈ partsOf t ∧ Json.field? k j = some v ∧ nodeAt p v = some n ∧
      visible p v = true ∧ ∀ x, Sets k (replaceAt p x v) j (replaceAt (i :: p) x j) := by
  obtain ⟨kvs, rfl⟩ := isA_obj ht
  simp only [visible] at hv
  rw [show getStrForKey "ast_type" (.obj kvs) = some t from ht] at hv
  cases hx : kvs[i]? with
  | none => rw [hx] at hv; simp at hv
  | some kv =>
    obtain ⟨k, v⟩ := kv
    rw [hx] at hv
    simp only [Bool.and_eq_true, beq_iff_eq, List.contains_iff_mem] at hv
    obtain ⟨⟨h1, h2⟩, h3⟩ := hv
    have hc : (kvs.map Prod.snd)[i]? = some v := by simp [hx]
    simp only [nodeAt, children, hc] at hn
    refine ⟨k, v, h2, (objGet_set (w := .null) hx h1).1, hn, h3, fun x => ?_⟩
    have := objGet_set (w := replaceAt p x v) hx h1
    simp only [replaceAt, children, hc, setChildren]
    exact ⟨trivial, trivial, this.2.1, this.2.2⟩

theorem parts_not_type {t k : String} (h : k ∈ partsOf t) : k ≠ "ast_type" := by
  have all : (partsTable.all fun x => x.2.all (· != "ast_type")) = true := by decide
  unfold partsOf at h
  cases hl : partsTable.lookup t with
  | none => rw [hl] at h; simp at h
  | some ks =>
    rw [hl] at h
    have : (t, ks) ∈ partsTable := by
      clear h
      revert hl
      generalize partsTable = l
      induction l with
      | nil => simp
      | cons x l ih =>
        obtain ⟨a, b⟩ := x
        simp only [List.lookup_cons]
        intro hl
        split at hl
        · rename_i he
          have : t = a := by simpa using he
          cases hl
          simp [this]
        · exact List.mem_cons_of_mem _ (ih hl)
    have h2 := List.all_eq_true.1 (List.all_eq_true.1 all _ this) k h
    simpa using h2

/-! ### Expressions -/

/-- The node is at the position, which is part of the program. -/
def PartAt (n : Json) (p : Pos) (j : Json) : Prop := nodeAt p j = some n ∧ visible p j = true

theorem at_node {t : String} {j n : Json} {p : Pos} (h : PartAt n p j) (ht : IsA t j) :
    (p = [] ∧ j = n) ∨ ∃ k v q, k ∈ partsOf t ∧ Json.field? k j = some v ∧ PartAt n q v ∧
      ∀ x, Sets k (replaceAt q x v) j (replaceAt p x j) := by
  cases p with
  | nil => exact .inl ⟨rfl, by simpa [nodeAt] using h.1⟩
  | cons i p =>
    obtain ⟨k, v, h1, h2, h3, h4, h5⟩ := step_obj ht h.1 h.2
    exact .inr ⟨k, v, p, h1, h2, ⟨h3, h4⟩, h5⟩

theorem at_arr {xs : List Json} {n : Json} {p : Pos} (hn : ∃ t, IsA t n) (h : PartAt n p (.arr xs)) :
    ∃ i v q, xs[i]? = some v ∧ PartAt n q v ∧ ∀ x, replaceAt p x (.arr xs) = .arr (xs.set i (replaceAt q x v)) := by
  cases p with
  | nil =>
    have := h.1
    simp only [nodeAt, Option.some.injEq] at this
    obtain ⟨t, ht⟩ := hn
    rw [← this] at ht
    exact absurd ht isA_arr
  | cons i p =>
    obtain ⟨v, h1, h2, h3, h4⟩ := step_arr h.1 h.2
    exact ⟨i, v, p, h1, ⟨h2, h3⟩, h4⟩

/-- The types of the nodes that are replaced. -/
def wholeTypes : List String := ["BinOp", "BoolOp", "Compare", "UnaryOp", "Call", "Int", "Assign", "If", "For", "FunctionDef",
  "Module"]

/-- Whatever the old node stands for, the new node stands for it with the change. -/
structure Carries (c : Change) (n n' : Json) : Prop where
  whole : ∃ t ∈ wholeTypes, IsA t n
  expr : ∀ f, Shows f n → ∃ f', Shows f' n' ∧ c.expr f f'
  simple : ∀ s, ShowsSimple s n → ∃ s', ShowsSimple s' n' ∧ c.simple s s'
  stmt : ∀ s, (∀ x, s ≠ .simple x) → ShowsStmt s n → ∃ s', ShowsStmt s' n' ∧ c.stmt s s'
  decl : ∀ ds g doc b, ShowsDecl (.fn ds g doc b) n → ∃ d', ShowsDecl d' n' ∧ c.decl (.fn ds g doc b) d'

variable {c : Change} {n n' : Json}

theorem Carries.typed (hc : Carries c n n') : ∃ t, IsA t n := by
  obtain ⟨t, _, h⟩ := hc.whole
  exact ⟨t, h⟩

theorem Carries.not (hc : Carries c n n') {t : String} (h : IsA t n) (ht : t ∉ wholeTypes) : False := by
  obtain ⟨t', h1, h2⟩ := hc.whole
  rw [isA_unique h h2] at ht
  exact ht h1

theorem getElem?_split {α : Type} : {xs : List α} → {i : Nat} → {x : α} → xs[i]? = some x →
    ∃ pre post, xs = pre ++ x :: post ∧ pre.length = i ∧ ∀ y, xs.set i y = pre ++ y :: post
  | [], _, _, h => by simp at h
  | a :: xs, 0, x, h => by
    simp only [List.getElem?_cons_zero, Option.some.injEq] at h
    exact ⟨[], xs, by simp [h], rfl, fun y => rfl⟩
  | a :: xs, i + 1, x, h => by
    obtain ⟨pre, post, h1, h2, h3⟩ := getElem?_split (xs := xs) (i := i) (x := x) (by simpa using h)
    exact ⟨a :: pre, post, by rw [h1]; rfl, by simp [h2], fun y => by rw [List.set_cons_succ, h3 y]; rfl⟩

theorem single_arr {i : Nat} {a v : Json} (h : [a][i]? = some v) : i = 0 ∧ a = v := by
  cases i with
  | zero => exact ⟨rfl, by simpa using h⟩
  | succ i => simp at h

mutual
theorem shows_edit (hc : Carries c n n') : (e : Expr) → (j : Json) → Shows e j → (p : Pos) → PartAt n p j →
    ∃ e', Shows e' (replaceAt p n' j) ∧ InExpr c e e'
  | .leaf t, j, h, p, hp => by
    have key : ∃ u, IsA u j ∧ partsOf u = [] := by
      have h' := h
      simp only [Shows] at h'
      rcases h' with h | ⟨h | h, _⟩ | h | h
      · exact ⟨_, h.1, by decide⟩
      · exact ⟨_, h, by decide⟩
      · exact ⟨_, h, by decide⟩
      · exact ⟨_, h.1, by decide⟩
      · exact ⟨_, h.1, by decide⟩
    obtain ⟨u, hu, hnone⟩ := key
    rcases at_node hp hu with ⟨rfl, rfl⟩ | ⟨k, v, q, hk, _⟩
    · obtain ⟨f', h1, h2⟩ := hc.expr _ h
      exact ⟨f', h1, .here h2⟩
    · rw [hnone] at hk; cases hk
  | .str t, j, h, p, hp => by
    have h' := h
    simp only [Shows] at h'
    rcases at_node hp h'.1 with ⟨rfl, rfl⟩ | ⟨k, v, q, hk, _⟩
    · obtain ⟨f', h1, h2⟩ := hc.expr _ h
      exact ⟨f', h1, .here h2⟩
    · rw [show partsOf "Str" = [] from by decide] at hk; cases hk
  | .attr e id, j, h, p, hp => by
    have h' := h
    simp only [Shows] at h'
    obtain ⟨ht, hid, v, hv, he⟩ := h'
    rcases at_node hp ht with ⟨rfl, rfl⟩ | ⟨k, w, q, hk, hf, hq, hs⟩
    · obtain ⟨f', h1, h2⟩ := hc.expr _ h
      exact ⟨f', h1, .here h2⟩
    · rw [show partsOf "Attribute" = ["value"] from by decide, List.mem_singleton] at hk
      subst hk
      rw [hv] at hf
      cases hf
      obtain ⟨e', h1, h2⟩ := shows_edit hc e v he q hq
      refine ⟨.attr e' id, ?_, .attr h2⟩
      simp only [Shows]
      exact ⟨(hs n').isA (by decide) ht, by rw [(hs n').str (by decide) (by decide)]; exact hid, _, (hs n').field, h1⟩
  | .index e is, j, h, p, hp => by
    have h' := h
    simp only [Shows] at h'
    obtain ⟨ht, ⟨v, hv, he⟩, x, hx, hix, y, hy, his⟩ := h'
    rcases at_node hp ht with ⟨rfl, rfl⟩ | ⟨k, w, q, hk, hf, hq, hs⟩
    · obtain ⟨f', h1, h2⟩ := hc.expr _ h
      exact ⟨f', h1, .here h2⟩
    · rw [show partsOf "Subscript" = ["value", "slice"] from by decide] at hk
      simp only [List.mem_cons, List.not_mem_nil, or_false] at hk
      rcases hk with rfl | rfl
      · rw [hv] at hf
        cases hf
        obtain ⟨e', h1, h2⟩ := shows_edit hc e v he q hq
        refine ⟨.index e' is, ?_, .indexed h2⟩
        simp only [Shows]
        exact ⟨(hs n').isA (by decide) ht, ⟨_, (hs n').field, h1⟩, x,
          by rw [(hs n').other (by decide)]; exact hx, hix, y, hy, his⟩
      · rw [hx] at hf
        cases hf
        rcases at_node hq hix with ⟨rfl, rfl⟩ | ⟨k, w, q2, hk, hf, hq2, hs2⟩
        · exact absurd hix fun h => hc.not h (by decide)
        · rw [show partsOf "Index" = ["value"] from by decide, List.mem_singleton] at hk
          subst hk
          rw [hy] at hf
          cases hf
          rcases his with ⟨hty, vs, hvs, his⟩ | his
          · rcases at_node hq2 hty with ⟨rfl, rfl⟩ | ⟨k, w, q3, hk, hf, hq3, hs3⟩
            · exact absurd hty fun h => hc.not h (by decide)
            · rw [show partsOf "Tuple" = ["elements"] from by decide, List.mem_singleton] at hk
              subst hk
              rw [hvs] at hf
              cases hf
              obtain ⟨i, u, q4, h1, h2, h3⟩ := at_arr hc.typed hq3
              obtain ⟨pre, e0, e1, post, h4, h5, h6⟩ := showAll_edit hc is vs his i u h1 q4 h2
              refine ⟨.index e (pre ++ e1 :: post), ?_, by rw [h4]; exact .index h6⟩
              simp only [Shows]
              exact ⟨(hs n').isA (by decide) ht, ⟨v, by rw [(hs n').other (by decide)]; exact hv, he⟩, _, (hs n').field,
                (hs2 n').isA (by decide) hix, _, (hs2 n').field, .inl ⟨(hs3 n').isA (by decide) hty, _,
                by rw [(hs3 n').field, h3], h5⟩⟩
          · obtain ⟨pre, e0, e1, post, h4, h5, h6⟩ := showAll_edit hc is [y] his 0 y rfl q2 hq2
            refine ⟨.index e (pre ++ e1 :: post), ?_, by rw [h4]; exact .index h6⟩
            simp only [Shows]
            exact ⟨(hs n').isA (by decide) ht, ⟨v, by rw [(hs n').other (by decide)]; exact hv, he⟩, _, (hs n').field,
              (hs2 n').isA (by decide) hix, _, (hs2 n').field, .inr h5⟩
  | .call f args, j, h, p, hp => by
    have h' := h
    simp only [Shows] at h'
    obtain ⟨ht, ⟨v, hv, he⟩, vs, ks, hvs, hks, hno, hall⟩ := h'
    rcases at_node hp ht with ⟨rfl, rfl⟩ | ⟨k, w, q, hk, hf, hq, hs⟩
    · obtain ⟨f', h1, h2⟩ := hc.expr _ h
      exact ⟨f', h1, .here h2⟩
    · rw [show partsOf "Call" = ["func", "args", "keywords"] from by decide] at hk
      simp only [List.mem_cons, List.not_mem_nil, or_false] at hk
      rcases hk with rfl | rfl | rfl
      · rw [hv] at hf
        cases hf
        obtain ⟨e', h1, h2⟩ := shows_edit hc f v he q hq
        refine ⟨.call e' args, ?_, .called h2⟩
        simp only [Shows]
        exact ⟨(hs n').isA (by decide) ht, ⟨_, (hs n').field, h1⟩, vs, ks, by rw [(hs n').other (by decide)]; exact hvs,
          by rw [(hs n').other (by decide)]; exact hks, hno, hall⟩
      · rw [hvs] at hf
        cases hf
        obtain ⟨i, u, q2, h1, h2, h3⟩ := at_arr hc.typed hq
        have hi : i < vs.length := (List.getElem?_eq_some_iff.1 h1).1
        obtain ⟨pre, e0, e1, post, h4, h5, h6⟩ := showAll_edit hc args (vs ++ ks) hall i u
          (by rw [List.getElem?_append_left hi]; exact h1) q2 h2
        refine ⟨.call f (pre ++ e1 :: post), ?_, by rw [h4]; exact .argument h6⟩
        simp only [Shows]
        refine ⟨(hs n').isA (by decide) ht, ⟨v, by rw [(hs n').other (by decide)]; exact hv, he⟩, _, ks,
          by rw [(hs n').field, h3], by rw [(hs n').other (by decide)]; exact hks, ?_, ?_⟩
        · left
          intro h0
          have := congrArg List.length h0
          simp only [List.length_set, List.length_nil] at this
          omega
        · rw [← List.set_append_left _ _ hi]; exact h5
      · rw [hks] at hf
        cases hf
        obtain ⟨i, u, q2, h1, h2, h3⟩ := at_arr hc.typed hq
        have hi : i < ks.length := (List.getElem?_eq_some_iff.1 h1).1
        obtain ⟨pre, e0, e1, post, h4, h5, h6⟩ := showAll_edit hc args (vs ++ ks) hall (vs.length + i) u
          (by rw [List.getElem?_append_right (by omega), Nat.add_sub_cancel_left]; exact h1) q2 h2
        refine ⟨.call f (pre ++ e1 :: post), ?_, by rw [h4]; exact .argument h6⟩
        simp only [Shows]
        refine ⟨(hs n').isA (by decide) ht, ⟨v, by rw [(hs n').other (by decide)]; exact hv, he⟩, vs, _,
          by rw [(hs n').other (by decide)]; exact hvs, by rw [(hs n').field, h3], ?_, ?_⟩
        · rcases hno with h0 | h0
          · exact .inl h0
          · rw [h0] at hi; simp at hi
        · rw [List.set_append_right _ _ (by omega), Nat.add_sub_cancel_left] at h5
          exact h5
  | .list es, j, h, p, hp => by
    have h' := h
    simp only [Shows] at h'
    obtain ⟨ht, vs, hvs, hall⟩ := h'
    rcases at_node hp ht with ⟨rfl, rfl⟩ | ⟨k, w, q, hk, hf, hq, hs⟩
    · obtain ⟨f', h1, h2⟩ := hc.expr _ h
      exact ⟨f', h1, .here h2⟩
    · rw [show partsOf "List" = ["elements"] from by decide, List.mem_singleton] at hk
      subst hk
      rw [hvs] at hf
      cases hf
      obtain ⟨i, u, q2, h1, h2, h3⟩ := at_arr hc.typed hq
      obtain ⟨pre, e0, e1, post, h4, h5, h6⟩ := showAll_edit hc es vs hall i u h1 q2 h2
      refine ⟨.list (pre ++ e1 :: post), ?_, by rw [h4]; exact .item h6⟩
      simp only [Shows]
      exact ⟨(hs n').isA (by decide) ht, _, by rw [(hs n').field, h3], h5⟩
  | .dict es, j, h, p, hp => by
    have h' := h
    simp only [Shows] at h'
    obtain ⟨ht, ks, vs, hks, hvs, hall⟩ := h'
    rcases at_node hp ht with ⟨rfl, rfl⟩ | ⟨k, w, q, hk, hf, hq, hs⟩
    · obtain ⟨f', h1, h2⟩ := hc.expr _ h
      exact ⟨f', h1, .here h2⟩
    · rw [show partsOf "Dict" = ["keys", "values"] from by decide] at hk
      simp only [List.mem_cons, List.not_mem_nil, or_false] at hk
      rcases hk with rfl | rfl
      · rw [hks] at hf
        cases hf
        obtain ⟨i, u, q2, h1, h2, h3⟩ := at_arr hc.typed hq
        obtain ⟨pre, e0, e1, x, post, h4, h5, h6⟩ := showKeys_edit hc es ks vs hall i u h1 q2 h2
        refine ⟨.dict (pre ++ .entry e1 x :: post), ?_, by rw [h4]; exact .key h6⟩
        simp only [Shows]
        exact ⟨(hs n').isA (by decide) ht, _, vs, by rw [(hs n').field, h3], by rw [(hs n').other (by decide)]; exact hvs, h5⟩
      · rw [hvs] at hf
        cases hf
        obtain ⟨i, u, q2, h1, h2, h3⟩ := at_arr hc.typed hq
        obtain ⟨pre, e0, e1, x, post, h4, h5, h6⟩ := showValues_edit hc es ks vs hall i u h1 q2 h2
        refine ⟨.dict (pre ++ .entry x e1 :: post), ?_, by rw [h4]; exact .value h6⟩
        simp only [Shows]
        exact ⟨(hs n').isA (by decide) ht, ks, _, by rw [(hs n').other (by decide)]; exact hks, by rw [(hs n').field, h3], h5⟩
  | .named x e, j, h, p, hp => by
    have h' := h
    simp only [Shows] at h'
    obtain ⟨ht, hid, v, hv, he⟩ := h'
    rcases at_node hp ht with ⟨rfl, rfl⟩ | ⟨k, w, q, hk, hf, hq, hs⟩
    · obtain ⟨f', h1, h2⟩ := hc.expr _ h
      exact ⟨f', h1, .here h2⟩
    · rw [show partsOf "keyword" = ["value"] from by decide, List.mem_singleton] at hk
      subst hk
      rw [hv] at hf
      cases hf
      obtain ⟨e', h1, h2⟩ := shows_edit hc e v he q hq
      refine ⟨.named x e', ?_, .named h2⟩
      simp only [Shows]
      exact ⟨(hs n').isA (by decide) ht, by rw [(hs n').str (by decide) (by decide)]; exact hid, _, (hs n').field, h1⟩
  | .entry _ _, j, h, p, hp => by simp only [Shows] at h
  | .bin l o r, j, h, p, hp => by
    have h' := h
    simp only [Shows] at h'
    obtain ⟨⟨x, hx, hxo⟩, h'⟩ := h'
    by_cases ho : o.isBool = true
    · simp only [ho, if_true] at h'
      obtain ⟨ht, a, b, hab, ha, hb⟩ := h'
      rcases at_node hp ht with ⟨rfl, rfl⟩ | ⟨k, w, q, hk, hf, hq, hs⟩
      · obtain ⟨f', h1, h2⟩ := hc.expr _ h
        exact ⟨f', h1, .here h2⟩
      · rw [show partsOf "BoolOp" = ["values"] from by decide, List.mem_singleton] at hk
        subst hk
        rw [hab] at hf
        cases hf
        obtain ⟨i, u, q2, h1, h2, h3⟩ := at_arr hc.typed hq
        match i, h1, h3 with
        | 0, h1, h3 =>
          simp only [List.getElem?_cons_zero, Option.some.injEq] at h1
          subst h1
          obtain ⟨e', h4, h5⟩ := shows_edit hc l a ha q2 h2
          refine ⟨.bin e' o r, ?_, .left h5⟩
          simp only [Shows, ho, if_true]
          exact ⟨⟨x, by rw [(hs n').other (by decide)]; exact hx, hxo⟩, (hs n').isA (by decide) ht, _, b,
            by rw [(hs n').field, h3]; rfl, h4, hb⟩
        | 1, h1, h3 =>
          simp only [List.getElem?_cons_succ, List.getElem?_cons_zero, Option.some.injEq] at h1
          subst h1
          obtain ⟨e', h4, h5⟩ := shows_edit hc r b hb q2 h2
          refine ⟨.bin l o e', ?_, .right h5⟩
          simp only [Shows, ho, if_true]
          exact ⟨⟨x, by rw [(hs n').other (by decide)]; exact hx, hxo⟩, (hs n').isA (by decide) ht, a, _,
            by rw [(hs n').field, h3]; rfl, ha, h4⟩
        | i + 2, h1, h3 => simp at h1
    · simp only [ho] at h'
      obtain ⟨ht, ⟨a, ha, hla⟩, b, hb, hrb⟩ := h'
      have ht' : ∃ t, IsA t j ∧ partsOf t = ["left", "right"] ∧ (t = "BinOp" ∨ t = "Compare") := by
        rcases ht with ht | ht
        · exact ⟨_, ht, by decide, .inl rfl⟩
        · exact ⟨_, ht, by decide, .inr rfl⟩
      obtain ⟨t, ht1, ht2, ht3⟩ := ht'
      rcases at_node hp ht1 with ⟨rfl, rfl⟩ | ⟨k, w, q, hk, hf, hq, hs⟩
      · obtain ⟨f', h1, h2⟩ := hc.expr _ h
        exact ⟨f', h1, .here h2⟩
      · rw [ht2] at hk
        simp only [List.mem_cons, List.not_mem_nil, or_false] at hk
        rcases hk with rfl | rfl
        · rw [ha] at hf
          cases hf
          obtain ⟨e', h4, h5⟩ := shows_edit hc l a hla q hq
          refine ⟨.bin e' o r, ?_, .left h5⟩
          simp only [Shows, ho]
          exact ⟨⟨x, by rw [(hs n').other (by decide)]; exact hx, hxo⟩, ht.imp ((hs n').isA (by decide)) ((hs n').isA (by decide)),
            ⟨_, (hs n').field, h4⟩, b, by rw [(hs n').other (by decide)]; exact hb, hrb⟩
        · rw [hb] at hf
          cases hf
          obtain ⟨e', h4, h5⟩ := shows_edit hc r b hrb q hq
          refine ⟨.bin l o e', ?_, .right h5⟩
          simp only [Shows, ho]
          exact ⟨⟨x, by rw [(hs n').other (by decide)]; exact hx, hxo⟩, ht.imp ((hs n').isA (by decide)) ((hs n').isA (by decide)),
            ⟨a, by rw [(hs n').other (by decide)]; exact ha, hla⟩, _, (hs n').field, h4⟩
  | .not e, j, h, p, hp => by
    have h' := h
    simp only [Shows] at h'
    obtain ⟨ht, ⟨x, hx, hxo⟩, a, ha, he⟩ := h'
    rcases at_node hp ht with ⟨rfl, rfl⟩ | ⟨k, w, q, hk, hf, hq, hs⟩
    · obtain ⟨f', h1, h2⟩ := hc.expr _ h
      exact ⟨f', h1, .here h2⟩
    · rw [show partsOf "UnaryOp" = ["operand"] from by decide, List.mem_singleton] at hk
      subst hk
      rw [ha] at hf
      cases hf
      obtain ⟨e', h1, h2⟩ := shows_edit hc e a he q hq
      refine ⟨.not e', ?_, .not h2⟩
      simp only [Shows]
      exact ⟨(hs n').isA (by decide) ht, ⟨x, by rw [(hs n').other (by decide)]; exact hx, hxo⟩, _, (hs n').field, h1⟩
  | .inv e, j, h, p, hp => by
    have h' := h
    simp only [Shows] at h'
    obtain ⟨ht, ⟨x, hx, hxo⟩, a, ha, he⟩ := h'
    rcases at_node hp ht with ⟨rfl, rfl⟩ | ⟨k, w, q, hk, hf, hq, hs⟩
    · obtain ⟨f', h1, h2⟩ := hc.expr _ h
      exact ⟨f', h1, .here h2⟩
    · rw [show partsOf "UnaryOp" = ["operand"] from by decide, List.mem_singleton] at hk
      subst hk
      rw [ha] at hf
      cases hf
      obtain ⟨e', h1, h2⟩ := shows_edit hc e a he q hq
      refine ⟨.inv e', ?_, .inv h2⟩
      simp only [Shows]
      exact ⟨(hs n').isA (by decide) ht, ⟨x, by rw [(hs n').other (by decide)]; exact hx, hxo⟩, _, (hs n').field, h1⟩
  | .neg e, j, h, p, hp => by
    have key : ∃ u, IsA u j ∧ partsOf u = [] := by
      have h' := h
      simp only [Shows] at h'
      rcases h' with h | h
      · exact ⟨_, h.1, by decide⟩
      · exact ⟨_, h.1, by decide⟩
    obtain ⟨u, hu, hnone⟩ := key
    rcases at_node hp hu with ⟨rfl, rfl⟩ | ⟨k, v, q, hk, _⟩
    · obtain ⟨f', h1, h2⟩ := hc.expr _ h
      exact ⟨f', h1, .here h2⟩
    · rw [hnone] at hk; cases hk
theorem showAll_edit (hc : Carries c n n') : (es : List Expr) → (vs : List Json) → ShowAll es vs → (i : Nat) → (v : Json) →
    vs[i]? = some v → (p : Pos) → PartAt n p v → ∃ pre e e' post, es = pre ++ e :: post ∧
      ShowAll (pre ++ e' :: post) (vs.set i (replaceAt p n' v)) ∧ InExpr c e e'
  | [], [], _, i, v, hv, _, _ => by simp at hv
  | [], _ :: _, h, _, _, _, _, _ => by simp [ShowAll] at h
  | _ :: _, [], h, _, _, _, _, _ => by simp [ShowAll] at h
  | e :: es, w :: ws, h, 0, v, hv, p, hp => by
    simp only [ShowAll] at h
    simp only [List.getElem?_cons_zero, Option.some.injEq] at hv
    subst hv
    obtain ⟨e', h1, h2⟩ := shows_edit hc e w h.1 p hp
    refine ⟨[], e, e', es, rfl, ?_, h2⟩
    simp only [List.nil_append, List.set_cons_zero, ShowAll]
    exact ⟨h1, h.2⟩
  | e :: es, w :: ws, h, i + 1, v, hv, p, hp => by
    simp only [ShowAll] at h
    simp only [List.getElem?_cons_succ] at hv
    obtain ⟨pre, e0, e1, post, h1, h2, h3⟩ := showAll_edit hc es ws h.2 i v hv p hp
    refine ⟨e :: pre, e0, e1, post, by rw [h1]; rfl, ?_, h3⟩
    simp only [List.cons_append, List.set_cons_succ, ShowAll]
    exact ⟨h.1, h2⟩
theorem showKeys_edit (hc : Carries c n n') : (es : List Expr) → (ks vs : List Json) → ShowEntries es ks vs → (i : Nat) →
    (v : Json) → ks[i]? = some v → (p : Pos) → PartAt n p v → ∃ pre e e' x post, es = pre ++ .entry e x :: post ∧
      ShowEntries (pre ++ .entry e' x :: post) (ks.set i (replaceAt p n' v)) vs ∧ InExpr c e e'
  | [], ks, vs, h, i, v, hv, _, _ => by
    match ks, vs, h, hv with
    | [], [], _, hv => simp at hv
    | _ :: _, _, h, _ => simp [ShowEntries] at h
    | [], _ :: _, h, _ => simp [ShowEntries] at h
  | .entry e x :: es, ks, vs, h, i, v, hv, p, hp => by
    match ks, vs, i, h, hv with
    | [], [], _, h, _ => simp [ShowEntries] at h
    | [], _ :: _, _, h, _ => simp [ShowEntries] at h
    | _ :: _, [], _, h, _ => simp [ShowEntries] at h
    | a :: ks, b :: vs, 0, h, hv =>
      simp only [ShowEntries] at h
      simp only [List.getElem?_cons_zero, Option.some.injEq] at hv
      subst hv
      obtain ⟨e', h1, h2⟩ := shows_edit hc e a h.1 p hp
      refine ⟨[], e, e', x, es, rfl, ?_, h2⟩
      simp only [List.nil_append, List.set_cons_zero, ShowEntries]
      exact ⟨h1, h.2⟩
    | a :: ks, b :: vs, i + 1, h, hv =>
      simp only [ShowEntries] at h
      simp only [List.getElem?_cons_succ] at hv
      obtain ⟨pre, e0, e1, y, post, h1, h2, h3⟩ := showKeys_edit hc es ks vs h.2.2 i v hv p hp
      refine ⟨.entry e x :: pre, e0, e1, y, post, by rw [h1]; rfl, ?_, h3⟩
      simp only [List.cons_append, List.set_cons_succ, ShowEntries]
      exact ⟨h.1, h.2.1, h2⟩
  | .leaf _ :: _, _, _, h, _, _, _, _, _ => by simp [ShowEntries] at h
  | .str _ :: _, _, _, h, _, _, _, _, _ => by simp [ShowEntries] at h
  | .attr _ _ :: _, _, _, h, _, _, _, _, _ => by simp [ShowEntries] at h
  | .index _ _ :: _, _, _, h, _, _, _, _, _ => by simp [ShowEntries] at h
  | .call _ _ :: _, _, _, h, _, _, _, _, _ => by simp [ShowEntries] at h
  | .list _ :: _, _, _, h, _, _, _, _, _ => by simp [ShowEntries] at h
  | .dict _ :: _, _, _, h, _, _, _, _, _ => by simp [ShowEntries] at h
  | .named _ _ :: _, _, _, h, _, _, _, _, _ => by simp [ShowEntries] at h
  | .bin _ _ _ :: _, _, _, h, _, _, _, _, _ => by simp [ShowEntries] at h
  | .not _ :: _, _, _, h, _, _, _, _, _ => by simp [ShowEntries] at h
  | .inv _ :: _, _, _, h, _, _, _, _, _ => by simp [ShowEntries] at h
  | .neg _ :: _, _, _, h, _, _, _, _, _ => by simp [ShowEntries] at h
theorem showValues_edit (hc : Carries c n n') : (es : List Expr) → (ks vs : List Json) → ShowEntries es ks vs → (i : Nat) →
    (v : Json) → vs[i]? = some v → (p : Pos) → PartAt n p v → ∃ pre e e' x post, es = pre ++ .entry x e :: post ∧
      ShowEntries (pre ++ .entry x e' :: post) ks (vs.set i (replaceAt p n' v)) ∧ InExpr c e e'
  | [], ks, vs, h, i, v, hv, _, _ => by
    match ks, vs, h, hv with
    | [], [], _, hv => simp at hv
    | _ :: _, _, h, _ => simp [ShowEntries] at h
    | [], _ :: _, h, _ => simp [ShowEntries] at h
  | .entry x e :: es, ks, vs, h, i, v, hv, p, hp => by
    match ks, vs, i, h, hv with
    | [], [], _, h, _ => simp [ShowEntries] at h
    | [], _ :: _, _, h, _ => simp [ShowEntries] at h
    | _ :: _, [], _, h, _ => simp [ShowEntries] at h
    | a :: ks, b :: vs, 0, h, hv =>
      simp only [ShowEntries] at h
      simp only [List.getElem?_cons_zero, Option.some.injEq] at hv
      subst hv
      obtain ⟨e', h1, h2⟩ := shows_edit hc e b h.2.1 p hp
      refine ⟨[], e, e', x, es, rfl, ?_, h2⟩
      simp only [List.nil_append, List.set_cons_zero, ShowEntries]
      exact ⟨h.1, h1, h.2.2⟩
    | a :: ks, b :: vs, i + 1, h, hv =>
      simp only [ShowEntries] at h
      simp only [List.getElem?_cons_succ] at hv
      obtain ⟨pre, e0, e1, y, post, h1, h2, h3⟩ := showValues_edit hc es ks vs h.2.2 i v hv p hp
      refine ⟨.entry x e :: pre, e0, e1, y, post, by rw [h1]; rfl, ?_, h3⟩
      simp only [List.cons_append, List.set_cons_succ, ShowEntries]
      exact ⟨h.1, h.2.1, h2⟩
  | .leaf _ :: _, _, _, h, _, _, _, _, _ => by simp [ShowEntries] at h
  | .str _ :: _, _, _, h, _, _, _, _, _ => by simp [ShowEntries] at h
  | .attr _ _ :: _, _, _, h, _, _, _, _, _ => by simp [ShowEntries] at h
  | .index _ _ :: _, _, _, h, _, _, _, _, _ => by simp [ShowEntries] at h
  | .call _ _ :: _, _, _, h, _, _, _, _, _ => by simp [ShowEntries] at h
  | .list _ :: _, _, _, h, _, _, _, _, _ => by simp [ShowEntries] at h
  | .dict _ :: _, _, _, h, _, _, _, _, _ => by simp [ShowEntries] at h
  | .named _ _ :: _, _, _, h, _, _, _, _, _ => by simp [ShowEntries] at h
  | .bin _ _ _ :: _, _, _, h, _, _, _, _, _ => by simp [ShowEntries] at h
  | .not _ :: _, _, _, h, _, _, _, _, _ => by simp [ShowEntries] at h
  | .inv _ :: _, _, _, h, _, _, _, _, _ => by simp [ShowEntries] at h
  | .neg _ :: _, _, _, h, _, _, _, _, _ => by simp [ShowEntries] at h
end

/-! ### Rows and fields -/

theorem row_edit (hc : Carries c n n') {es : List Expr} {j : Json} (h : ShowRow es j) {p : Pos} (hp : PartAt n p j) :
    ∃ es', ShowRow es' (replaceAt p n' j) ∧ InRow c es es' := by
  rcases h with ⟨e, rfl, he⟩ | ⟨hl, ht, vs, hvs, hall⟩
  · obtain ⟨e', h1, h2⟩ := shows_edit hc e j he p hp
    exact ⟨[e'], .inl ⟨e', rfl, h1⟩, .mk (pre := []) (post := []) h2⟩
  · rcases at_node hp ht with ⟨rfl, rfl⟩ | ⟨k, w, q, hk, hf, hq, hs⟩
    · exact absurd ht fun h => hc.not h (by decide)
    · rw [show partsOf "Tuple" = ["elements"] from by decide, List.mem_singleton] at hk
      subst hk
      rw [hvs] at hf
      cases hf
      obtain ⟨i, u, q2, h1, h2, h3⟩ := at_arr hc.typed hq
      obtain ⟨pre, e0, e1, post, h4, h5, h6⟩ := showAll_edit hc es vs hall i u h1 q2 h2
      refine ⟨pre ++ e1 :: post, .inr ⟨?_, (hs n').isA (by decide) ht, _, by rw [(hs n').field, h3], h5⟩, by rw [h4]; exact .mk h6⟩
      rw [h4] at hl
      simpa using hl

theorem null_edit (hc : Carries c n n') {p : Pos} (hp : PartAt n p .null) : False := by
  cases p with
  | nil =>
    have := hp.1
    simp only [nodeAt, Option.some.injEq] at this
    obtain ⟨t, ht⟩ := hc.typed
    rw [← this] at ht
    obtain ⟨kvs, hk⟩ := isA_obj ht
    cases hk
  | cons i p =>
    have := hp.2
    simp [visible] at this

variable {k k' : String} {e : Expr} {es : List Expr} {o : Option Expr} {j j' v w : Json} {p q : Pos}

theorem field_edit (hc : Carries c n n') (h : ShowField k e j) (hf : Json.field? k j = some v) (hq : PartAt n q v)
    (hs : Sets k (replaceAt q n' v) j j') : ∃ e', ShowField k e' j' ∧ InExpr c e e' := by
  obtain ⟨u, hu, he⟩ := h
  rw [hu] at hf
  cases hf
  obtain ⟨e', h1, h2⟩ := shows_edit hc e _ he q hq
  exact ⟨e', ⟨_, hs.field, h1⟩, h2⟩

theorem rowField_edit (hc : Carries c n n') (h : ShowRowField k es j) (hf : Json.field? k j = some v) (hq : PartAt n q v)
    (hs : Sets k (replaceAt q n' v) j j') : ∃ es', ShowRowField k es' j' ∧ InRow c es es' := by
  obtain ⟨u, hu, he⟩ := h
  rw [hu] at hf
  cases hf
  obtain ⟨es', h1, h2⟩ := row_edit hc he hq
  exact ⟨es', ⟨_, hs.field, h1⟩, h2⟩

theorem absent_edit (hc : Carries c n n') (h : Absent k j) (hf : Json.field? k j = some v) (hq : PartAt n q v) : False := by
  rcases h with h | h
  · rw [h] at hf; cases hf
  · rw [h] at hf; cases hf; exact null_edit hc hq

theorem option_edit (hc : Carries c n n') (h : ShowOption k o j) (hf : Json.field? k j = some v) (hq : PartAt n q v)
    (hs : Sets k (replaceAt q n' v) j j') : ∃ o', ShowOption k o' j' ∧ InOption c o o' := by
  cases o with
  | none => exact (absent_edit hc h hf hq).elim
  | some e =>
    obtain ⟨e', h1, h2⟩ := field_edit hc h hf hq hs
    exact ⟨some e', h1, .mk h2⟩

theorem field_keep (h : ShowField k e j) (hs : Sets k' w j j') (hne : k ≠ k') : ShowField k e j' := by
  obtain ⟨u, hu, he⟩ := h
  exact ⟨u, by rw [hs.other hne]; exact hu, he⟩

theorem rowField_keep (h : ShowRowField k es j) (hs : Sets k' w j j') (hne : k ≠ k') : ShowRowField k es j' := by
  obtain ⟨u, hu, he⟩ := h
  exact ⟨u, by rw [hs.other hne]; exact hu, he⟩

theorem absent_keep (h : Absent k j) (hs : Sets k' w j j') (hne : k ≠ k') : Absent k j' := by
  unfold Absent
  rw [hs.other hne]
  exact h

theorem option_keep (h : ShowOption k o j) (hs : Sets k' w j j') (hne : k ≠ k') : ShowOption k o j' := by
  cases o with
  | none => exact absent_keep h hs hne
  | some e => exact field_keep h hs hne

theorem modified_edit {a b d : Bool} {e e' : Expr} (h : InExpr c e e') : InExpr c (modified a b d e) (modified a b d e') := by
  have one : ∀ {f : Expr} {e e' : Expr}, InExpr c e e' → InExpr c (.call f [e]) (.call f [e']) := fun h =>
    .argument (pre := []) (post := []) h
  cases a <;> cases b <;> cases d <;> simp only [modified, Bool.false_eq_true, if_true, if_false] <;>
    first
    | exact h
    | exact one h
    | exact one (one h)
    | exact one (one (one h))

/-! ### Statements on one line -/

theorem leaf_parts {t : String} {j : Json} (h : Shows (.leaf t) j) : ∃ u, IsA u j ∧ partsOf u = [] := by
  simp only [Shows] at h
  rcases h with h | ⟨h | h, _⟩ | h | h
  · exact ⟨_, h.1, by decide⟩
  · exact ⟨_, h, by decide⟩
  · exact ⟨_, h, by decide⟩
  · exact ⟨_, h.1, by decide⟩
  · exact ⟨_, h.1, by decide⟩

theorem simple_edit (hc : Carries c n n') (s : Simple) (h : ShowsSimple s j) (hp : PartAt n p j) :
    ∃ s', ShowsSimple s' (replaceAt p n' j) ∧ InSimple c s s' := by
  cases s with
  | expr e =>
    rcases at_node hp h.1 with ⟨rfl, rfl⟩ | ⟨k, w, q, hk, hf, hq, hs⟩
    · exact absurd h.1 fun h => hc.not h (by decide)
    · rw [show partsOf "Expr" = ["value"] from by decide, List.mem_singleton] at hk
      subst hk
      obtain ⟨e', h1, h2⟩ := field_edit hc h.2 hf hq (hs n')
      exact ⟨.expr e', ⟨(hs n').isA (by decide) h.1, h1⟩, .expr h2⟩
  | assign ts vs =>
    rcases at_node hp h.1 with ⟨rfl, rfl⟩ | ⟨k, w, q, hk, hf, hq, hs⟩
    · obtain ⟨s', h1, h2⟩ := hc.simple _ h
      exact ⟨s', h1, .here h2⟩
    · rw [show partsOf "Assign" = ["target", "value"] from by decide] at hk
      simp only [List.mem_cons, List.not_mem_nil, or_false] at hk
      rcases hk with rfl | rfl
      · obtain ⟨e', h1, h2⟩ := rowField_edit hc h.2.1 hf hq (hs n')
        exact ⟨.assign e' vs, ⟨(hs n').isA (by decide) h.1, h1, rowField_keep h.2.2 (hs n') (by decide)⟩, .target h2⟩
      · obtain ⟨e', h1, h2⟩ := rowField_edit hc h.2.2 hf hq (hs n')
        exact ⟨.assign ts e', ⟨(hs n').isA (by decide) h.1, rowField_keep h.2.1 (hs n') (by decide), h1⟩, .value h2⟩
  | aug t o v =>
    obtain ⟨ht, h1, ⟨x, hx, hxo⟩, h2⟩ := h
    rcases at_node hp ht with ⟨rfl, rfl⟩ | ⟨k, w, q, hk, hf, hq, hs⟩
    · exact absurd ht fun h => hc.not h (by decide)
    · rw [show partsOf "AugAssign" = ["target", "value"] from by decide] at hk
      simp only [List.mem_cons, List.not_mem_nil, or_false] at hk
      rcases hk with rfl | rfl
      · obtain ⟨e', h3, h4⟩ := field_edit hc h1 hf hq (hs n')
        exact ⟨.aug e' o v, ⟨(hs n').isA (by decide) ht, h3, ⟨x, by rw [(hs n').other (by decide)]; exact hx, hxo⟩,
          field_keep h2 (hs n') (by decide)⟩, .augTarget h4⟩
      · obtain ⟨e', h3, h4⟩ := field_edit hc h2 hf hq (hs n')
        exact ⟨.aug t o e', ⟨(hs n').isA (by decide) ht, field_keep h1 (hs n') (by decide),
          ⟨x, by rw [(hs n').other (by decide)]; exact hx, hxo⟩, h3⟩, .augValue h4⟩
  | ann t ty v =>
    obtain ⟨h1, h2, h3⟩ := h
    rcases h3 with ⟨ht, h3⟩ | ⟨ht, hflag, u, h3, hty⟩
    · rcases at_node hp ht with ⟨rfl, rfl⟩ | ⟨k, w, q, hk, hf, hq, hs⟩
      · exact absurd ht fun h => hc.not h (by decide)
      · rw [show partsOf "AnnAssign" = ["target", "annotation", "value"] from by decide] at hk
        simp only [List.mem_cons, List.not_mem_nil, or_false] at hk
        rcases hk with rfl | rfl | rfl
        · obtain ⟨e', h4, h5⟩ := field_edit hc h1 hf hq (hs n')
          exact ⟨.ann e' ty v, ⟨h4, option_keep h2 (hs n') (by decide), .inl ⟨(hs n').isA (by decide) ht,
            field_keep h3 (hs n') (by decide)⟩⟩, .annTarget h5⟩
        · obtain ⟨e', h4, h5⟩ := field_edit hc h3 hf hq (hs n')
          exact ⟨.ann t e' v, ⟨field_keep h1 (hs n') (by decide), option_keep h2 (hs n') (by decide),
            .inl ⟨(hs n').isA (by decide) ht, h4⟩⟩, .annType h5⟩
        · obtain ⟨e', h4, h5⟩ := option_edit hc h2 hf hq (hs n')
          exact ⟨.ann t ty e', ⟨field_keep h1 (hs n') (by decide), h4, .inl ⟨(hs n').isA (by decide) ht,
            field_keep h3 (hs n') (by decide)⟩⟩, .annValue h5⟩
    · rcases at_node hp ht with ⟨rfl, rfl⟩ | ⟨k, w, q, hk, hf, hq, hs⟩
      · exact absurd ht fun h => hc.not h (by decide)
      · rw [show partsOf "VariableDecl" = ["target", "annotation", "value"] from by decide] at hk
        simp only [List.mem_cons, List.not_mem_nil, or_false] at hk
        rcases hk with rfl | rfl | rfl
        · obtain ⟨e', h4, h5⟩ := field_edit hc h1 hf hq (hs n')
          refine ⟨.ann e' ty v, ⟨h4, option_keep h2 (hs n') (by decide), .inr ⟨(hs n').isA (by decide) ht,
            by rw [(hs n').flag (by decide) (by decide)]; exact hflag, u, field_keep h3 (hs n') (by decide), ?_⟩⟩, .annTarget h5⟩
          rw [(hs n').flag (by decide) (by decide), (hs n').flag (by decide) (by decide), (hs n').flag (by decide) (by decide)]
          exact hty
        · obtain ⟨e', h4, h5⟩ := field_edit hc h3 hf hq (hs n')
          refine ⟨.ann t (modified (flag "is_public" j) (flag "is_constant" j) (flag "is_immutable" j) e') v,
            ⟨field_keep h1 (hs n') (by decide), option_keep h2 (hs n') (by decide), .inr ⟨(hs n').isA (by decide) ht,
            by rw [(hs n').flag (by decide) (by decide)]; exact hflag, e', h4, ?_⟩⟩, by rw [hty]; exact .annType (modified_edit h5)⟩
          rw [(hs n').flag (by decide) (by decide), (hs n').flag (by decide) (by decide), (hs n').flag (by decide) (by decide)]
        · obtain ⟨e', h4, h5⟩ := option_edit hc h2 hf hq (hs n')
          refine ⟨.ann t ty e', ⟨field_keep h1 (hs n') (by decide), h4, .inr ⟨(hs n').isA (by decide) ht,
            by rw [(hs n').flag (by decide) (by decide)]; exact hflag, u, field_keep h3 (hs n') (by decide), ?_⟩⟩, .annValue h5⟩
          rw [(hs n').flag (by decide) (by decide), (hs n').flag (by decide) (by decide), (hs n').flag (by decide) (by decide)]
          exact hty
  | ret vs =>
    rcases at_node hp h.1 with ⟨rfl, rfl⟩ | ⟨k, w, q, hk, hf, hq, hs⟩
    · exact absurd h.1 fun h => hc.not h (by decide)
    · rw [show partsOf "Return" = ["value"] from by decide, List.mem_singleton] at hk
      subst hk
      rcases h.2 with ⟨_, h2⟩ | h2
      · exact (absent_edit hc h2 hf hq).elim
      · obtain ⟨e', h3, h4⟩ := rowField_edit hc h2 hf hq (hs n')
        exact ⟨.ret e', ⟨(hs n').isA (by decide) h.1, .inr h3⟩, .ret h4⟩
  | raise e =>
    rcases at_node hp h.1 with ⟨rfl, rfl⟩ | ⟨k, w, q, hk, hf, hq, hs⟩
    · exact absurd h.1 fun h => hc.not h (by decide)
    · rw [show partsOf "Raise" = ["exc"] from by decide, List.mem_singleton] at hk
      subst hk
      obtain ⟨e', h3, h4⟩ := option_edit hc h.2 hf hq (hs n')
      exact ⟨.raise e', ⟨(hs n').isA (by decide) h.1, h3⟩, .raise h4⟩
  | assert e m =>
    rcases at_node hp h.1 with ⟨rfl, rfl⟩ | ⟨k, w, q, hk, hf, hq, hs⟩
    · exact absurd h.1 fun h => hc.not h (by decide)
    · rw [show partsOf "Assert" = ["test", "msg"] from by decide] at hk
      simp only [List.mem_cons, List.not_mem_nil, or_false] at hk
      rcases hk with rfl | rfl
      · obtain ⟨e', h3, h4⟩ := field_edit hc h.2.1 hf hq (hs n')
        exact ⟨.assert e' m, ⟨(hs n').isA (by decide) h.1, h3, option_keep h.2.2 (hs n') (by decide)⟩, .test h4⟩
      · obtain ⟨e', h3, h4⟩ := option_edit hc h.2.2 hf hq (hs n')
        exact ⟨.assert e e', ⟨(hs n').isA (by decide) h.1, field_keep h.2.1 (hs n') (by decide), h3⟩, .message h4⟩
  | pass =>
    rcases at_node hp h with ⟨rfl, rfl⟩ | ⟨k, w, q, hk, _⟩
    · exact absurd h fun h => hc.not h (by decide)
    · rw [show partsOf "Pass" = [] from by decide] at hk; cases hk
  | «break» =>
    rcases at_node hp h with ⟨rfl, rfl⟩ | ⟨k, w, q, hk, _⟩
    · exact absurd h fun h => hc.not h (by decide)
    · rw [show partsOf "Break" = [] from by decide] at hk; cases hk
  | «continue» =>
    rcases at_node hp h with ⟨rfl, rfl⟩ | ⟨k, w, q, hk, _⟩
    · exact absurd h fun h => hc.not h (by decide)
    · rw [show partsOf "Continue" = [] from by decide] at hk; cases hk
  | log e =>
    rcases at_node hp h.1 with ⟨rfl, rfl⟩ | ⟨k, w, q, hk, hf, hq, hs⟩
    · exact absurd h.1 fun h => hc.not h (by decide)
    · rw [show partsOf "Log" = ["value"] from by decide, List.mem_singleton] at hk
      subst hk
      obtain ⟨e', h1, h2⟩ := field_edit hc h.2 hf hq (hs n')
      exact ⟨.log e', ⟨(hs n').isA (by decide) h.1, h1⟩, .log h2⟩
  | import_ x a =>
    rcases at_node hp h.1 with ⟨rfl, rfl⟩ | ⟨k, w, q, hk, _⟩
    · exact absurd h.1 fun h => hc.not h (by decide)
    · rw [show partsOf "Import" = [] from by decide] at hk; cases hk
  | from_ l x m a =>
    rcases at_node hp h.1 with ⟨rfl, rfl⟩ | ⟨k, w, q, hk, _⟩
    · exact absurd h.1 fun h => hc.not h (by decide)
    · rw [show partsOf "ImportFrom" = [] from by decide] at hk; cases hk

/-! ### Statements -/

theorem toString_digit (m : Nat) : ∃ ch cs, (toString m).toList = ch :: cs ∧ ch.isDigit = true := by
  have h1 : (toString m).toList = Nat.toDigits 10 m := by
    show (Nat.repr m).toList = _
    unfold Nat.repr
    simp
  have h2 : (toString m).toList ≠ [] := by
    rw [h1]
    exact Nat.toDigits_ne_nil
  match h : (toString m).toList with
  | [] => exact absurd h h2
  | ch :: cs =>
    refine ⟨ch, cs, rfl, Nat.isDigit_of_mem_toDigits (b := 10) (n := m) (by decide) (by decide) ?_⟩
    rw [← h1, h]
    exact List.mem_cons_self

/-- A name is not replaced. -/
theorem name_edit (hc : Carries c n n') {x : String} (hx : IsA "Int" n → isName x = true) (h : Shows (.leaf x) j) (hp : PartAt n p j) : False := by
  obtain ⟨u, hu, hnone⟩ := leaf_parts h
  rcases at_node hp hu with ⟨rfl, rfl⟩ | ⟨k, v, q, hk, _⟩
  · simp only [Shows] at h
    rcases h with h | ⟨h | h, _⟩ | ⟨hi, m, _, h⟩ | h
    · exact hc.not h.1 (by decide)
    · exact hc.not h (by decide)
    · exact hc.not h (by decide)
    · obtain ⟨ch, cs, h1, h2⟩ := toString_digit m
      have hx := hx hi
      rw [h] at hx
      unfold isName at hx
      rw [h1] at hx
      simp [h2] at hx
    · exact hc.not h.1 (by decide)
  · rw [hnone] at hk; cases hk

theorem note_edit (hc : Carries c n n') {t : String} (h : ShowsNote t j) (hp : PartAt n p j) : False := by
  have ht : IsA "Comment" j := h.1
  rcases at_node hp ht with ⟨rfl, rfl⟩ | ⟨k, w, q, hk, hf, hq, hs⟩
  · exact hc.not ht (by decide)
  rw [show partsOf "Comment" = ["value"] from by decide, List.mem_singleton] at hk
  subst hk
  rw [h.2] at hf
  cases hf
  obtain ⟨u, hu⟩ := hc.typed
  have hq := hq.1
  cases q with
  | nil =>
    simp only [nodeAt, Option.some.injEq] at hq
    obtain ⟨kvs, hk⟩ := isA_obj hu
    rw [hk] at hq
    cases hq
  | cons => simp [nodeAt, children] at hq

mutual
theorem stmt_edit (hc : Carries c n n') : (s : Stmt) → (j : Json) → ShowsStmt s j → (IsA "Int" n → s.Ok) → (p : Pos) → PartAt n p j →
    ∃ s', ShowsStmt s' (replaceAt p n' j) ∧ InStmt c s s'
  | .simple s, j, h, _, p, hp => by
    simp only [ShowsStmt] at h
    obtain ⟨s', h1, h2⟩ := simple_edit hc s h hp
    exact ⟨.simple s', by simp only [ShowsStmt]; exact h1, .simple h2⟩
  | .for_ x ty it body, j, h, hok, p, hp => by
    have h' := h
    simp only [ShowsStmt] at h'
    obtain ⟨ht, hit, ⟨t, hft, htt⟩, bs, hbs, hall⟩ := h'
    simp only [Stmt.Ok] at hok
    rcases at_node hp ht with ⟨rfl, rfl⟩ | ⟨k, w, q, hk, hf, hq, hs⟩
    · obtain ⟨s', h1, h2⟩ := hc.stmt _ (by intro x; simp) h
      exact ⟨s', h1, .here h2⟩
    · rw [show partsOf "For" = ["target", "iter", "body"] from by decide] at hk
      simp only [List.mem_cons, List.not_mem_nil, or_false] at hk
      rcases hk with rfl | rfl | rfl
      · rw [hft] at hf
        cases hf
        cases ty with
        | none => exact (name_edit hc (fun h => (hok h).1) htt hq).elim
        | some ty =>
          obtain ⟨hta, htn, hty, hno⟩ := htt
          rcases at_node hq hta with ⟨rfl, rfl⟩ | ⟨k, w, q2, hk, hf, hq2, hs2⟩
          · exact absurd hta fun h => hc.not h (by decide)
          · rw [show partsOf "AnnAssign" = ["target", "annotation", "value"] from by decide] at hk
            simp only [List.mem_cons, List.not_mem_nil, or_false] at hk
            rcases hk with rfl | rfl | rfl
            · obtain ⟨u, hu, hshow⟩ := htn
              rw [hu] at hf
              cases hf
              exact (name_edit hc (fun h => (hok h).1) hshow hq2).elim
            · obtain ⟨e', h4, h5⟩ := field_edit hc hty hf hq2 (hs2 n')
              refine ⟨.for_ x (some e') it body, ?_, .forType (.mk h5)⟩
              simp only [ShowsStmt]
              exact ⟨(hs n').isA (by decide) ht, field_keep hit (hs n') (by decide), ⟨_, (hs n').field,
                (hs2 n').isA (by decide) hta, field_keep htn (hs2 n') (by decide), h4, absent_keep hno (hs2 n') (by decide)⟩,
                bs, by rw [(hs n').other (by decide)]; exact hbs, hall⟩
            · exact (absent_edit hc hno hf hq2).elim
      · obtain ⟨e', h4, h5⟩ := field_edit hc hit hf hq (hs n')
        refine ⟨.for_ x ty e' body, ?_, .forOver h5⟩
        simp only [ShowsStmt]
        exact ⟨(hs n').isA (by decide) ht, h4, ⟨t, by rw [(hs n').other (by decide)]; exact hft, htt⟩,
                bs, by rw [(hs n').other (by decide)]; exact hbs, hall⟩
      · rw [hbs] at hf
        cases hf
        obtain ⟨i, u, q2, h1, h2, h3⟩ := at_arr hc.typed hq
        obtain ⟨pre, e0, e1, post, h4, h5, h6⟩ := stmts_edit hc body bs hall (fun h => (hok h).2.2.2.1) i u h1 q2 h2
        refine ⟨.for_ x ty it (pre ++ e1 :: post), ?_, by rw [h4]; exact .forBody h6⟩
        simp only [ShowsStmt]
        exact ⟨(hs n').isA (by decide) ht, field_keep hit (hs n') (by decide),
          ⟨t, by rw [(hs n').other (by decide)]; exact hft, htt⟩, _, by rw [(hs n').field, h3], h5⟩
  | .if_ e body els, j, h, hok, p, hp => by
    have h' := h
    simp only [ShowsStmt] at h'
    obtain ⟨ht, hit, ⟨bs, hbs, hall⟩, cs, hcs, hcall⟩ := h'
    simp only [Stmt.Ok] at hok
    rcases at_node hp ht with ⟨rfl, rfl⟩ | ⟨k, w, q, hk, hf, hq, hs⟩
    · obtain ⟨s', h1, h2⟩ := hc.stmt _ (by intro x; simp) h
      exact ⟨s', h1, .here h2⟩
    · rw [show partsOf "If" = ["test", "body", "orelse"] from by decide] at hk
      simp only [List.mem_cons, List.not_mem_nil, or_false] at hk
      rcases hk with rfl | rfl | rfl
      · obtain ⟨e', h4, h5⟩ := field_edit hc hit hf hq (hs n')
        refine ⟨.if_ e' body els, ?_, .ifTest h5⟩
        simp only [ShowsStmt]
        exact ⟨(hs n').isA (by decide) ht, h4, ⟨bs, by rw [(hs n').other (by decide)]; exact hbs, hall⟩,
          cs, by rw [(hs n').other (by decide)]; exact hcs, hcall⟩
      · rw [hbs] at hf
        cases hf
        obtain ⟨i, u, q2, h1, h2, h3⟩ := at_arr hc.typed hq
        obtain ⟨pre, e0, e1, post, h4, h5, h6⟩ := stmts_edit hc body bs hall (fun h => (hok h).2.1) i u h1 q2 h2
        refine ⟨.if_ e (pre ++ e1 :: post) els, ?_, by rw [h4]; exact .ifBody h6⟩
        simp only [ShowsStmt]
        exact ⟨(hs n').isA (by decide) ht, field_keep hit (hs n') (by decide), ⟨_, by rw [(hs n').field, h3], h5⟩,
          cs, by rw [(hs n').other (by decide)]; exact hcs, hcall⟩
      · rw [hcs] at hf
        cases hf
        obtain ⟨i, u, q2, h1, h2, h3⟩ := at_arr hc.typed hq
        obtain ⟨pre, e0, e1, post, h4, h5, h6⟩ := stmts_edit hc els cs hcall (fun h => (hok h).2.2.2.1) i u h1 q2 h2
        refine ⟨.if_ e body (pre ++ e1 :: post), ?_, by rw [h4]; exact .ifElse h6⟩
        simp only [ShowsStmt]
        exact ⟨(hs n').isA (by decide) ht, field_keep hit (hs n') (by decide),
          ⟨bs, by rw [(hs n').other (by decide)]; exact hbs, hall⟩, _, by rw [(hs n').field, h3], h5⟩
  | .comment t, j, h, _, p, hp => by
    simp only [ShowsStmt] at h
    exact (note_edit hc h hp).elim
  | .quote s, j, h, hok, p, hp => by
    simp only [ShowsStmt] at h
    obtain ⟨ht, v, hv, h1⟩ := h
    simp only [Stmt.Ok] at hok
    rcases at_node hp ht with ⟨rfl, rfl⟩ | ⟨k, w, q, hk, hf, hq, hs⟩
    · exact (hc.not ht (by decide)).elim
    rw [show partsOf "Comment" = ["value"] from by decide, List.mem_singleton] at hk
    subst hk
    rw [hv] at hf
    cases hf
    obtain ⟨s', h2, h3⟩ := stmt_edit hc s v h1 (fun h => (hok h).1) q hq
    refine ⟨.quote s', ?_, .quote h3⟩
    simp only [ShowsStmt]
    exact ⟨(hs n').isA (by decide) ht, _, (hs n').field, h2⟩
theorem stmts_edit (hc : Carries c n n') : (ss : List Stmt) → (vs : List Json) → ShowStmts ss vs → (IsA "Int" n → OkAll ss) → (i : Nat) →
    (v : Json) → vs[i]? = some v → (p : Pos) → PartAt n p v → ∃ pre s s' post, ss = pre ++ s :: post ∧
      ShowStmts (pre ++ s' :: post) (vs.set i (replaceAt p n' v)) ∧ InStmt c s s'
  | [], [], _, _, i, v, hv, _, _ => by simp at hv
  | [], _ :: _, h, _, _, _, _, _, _ => by simp [ShowStmts] at h
  | _ :: _, [], h, _, _, _, _, _, _ => by simp [ShowStmts] at h
  | s :: ss, w :: ws, h, hok, 0, v, hv, p, hp => by
    simp only [ShowStmts] at h
    simp only [OkAll] at hok
    simp only [List.getElem?_cons_zero, Option.some.injEq] at hv
    subst hv
    obtain ⟨s', h1, h2⟩ := stmt_edit hc s w h.1 (fun h => (hok h).1) p hp
    refine ⟨[], s, s', ss, rfl, ?_, h2⟩
    simp only [List.nil_append, List.set_cons_zero, ShowStmts]
    exact ⟨h1, h.2⟩
  | s :: ss, w :: ws, h, hok, i + 1, v, hv, p, hp => by
    simp only [ShowStmts] at h
    simp only [OkAll] at hok
    simp only [List.getElem?_cons_succ] at hv
    obtain ⟨pre, s0, s1, post, h1, h2, h3⟩ := stmts_edit hc ss ws h.2 (fun h => (hok h).2) i v hv p hp
    refine ⟨s :: pre, s0, s1, post, by rw [h1]; rfl, ?_, h3⟩
    simp only [List.cons_append, List.set_cons_succ, ShowStmts]
    exact ⟨h.1, h2⟩
end

/-! ### Signatures -/

theorem param_edit (hc : Carries c n n') {a : Param} (h : ShowsParam a j) (hp : PartAt n p j) :
    ∃ t, ShowsParam { a with type := t } (replaceAt p n' j) ∧ InExpr c a.type t := by
  obtain ⟨ht, hn, hf0⟩ := h
  rcases at_node hp ht with ⟨rfl, rfl⟩ | ⟨k, w, q, hk, hf, hq, hs⟩
  · exact absurd ht fun h => hc.not h (by decide)
  · rw [show partsOf "arg" = ["annotation"] from by decide, List.mem_singleton] at hk
    subst hk
    obtain ⟨e', h1, h2⟩ := field_edit hc hf0 hf hq (hs n')
    exact ⟨e', ⟨(hs n').isA (by decide) ht, by rw [(hs n').str (by decide) (by decide)]; exact hn, h1⟩, h2⟩

theorem plain_edit (hc : Carries c n n') : (ps : List Param) → (vs : List Json) → ShowPlain ps vs → (i : Nat) → (v : Json) →
    vs[i]? = some v → (p : Pos) → PartAt n p v → ∃ pre a a' post, ps = pre ++ a :: post ∧
      ShowPlain (pre ++ a' :: post) (vs.set i (replaceAt p n' v)) ∧ InParam c a a'
  | [], [], _, i, v, hv, _, _ => by simp at hv
  | [], _ :: _, h, _, _, _, _, _ => by simp [ShowPlain] at h
  | _ :: _, [], h, _, _, _, _, _ => by simp [ShowPlain] at h
  | a :: ps, w :: ws, h, 0, v, hv, p, hp => by
    simp only [ShowPlain] at h
    simp only [List.getElem?_cons_zero, Option.some.injEq] at hv
    subst hv
    obtain ⟨t, h1, h2⟩ := param_edit hc h.1 hp
    refine ⟨[], a, { a with type := t }, ps, rfl, ?_, .type h2⟩
    simp only [List.nil_append, List.set_cons_zero, ShowPlain]
    exact ⟨h1, h.2⟩
  | a :: ps, w :: ws, h, i + 1, v, hv, p, hp => by
    simp only [ShowPlain] at h
    simp only [List.getElem?_cons_succ] at hv
    obtain ⟨pre, e0, e1, post, h1, h2, h3⟩ := plain_edit hc ps ws h.2.2 i v hv p hp
    refine ⟨a :: pre, e0, e1, post, by rw [h1]; rfl, ?_, h3⟩
    simp only [List.cons_append, List.set_cons_succ, ShowPlain]
    exact ⟨h.1, h.2.1, h2⟩

theorem defaults_edit (hc : Carries c n n') : (ps : List Param) → (ds : List (Json × Json)) → ShowDefaults ps ds → (i : Nat) →
    (a d : Json) → ds[i]? = some (a, d) → (p : Pos) →
    (PartAt n p a → ∃ pre x x' post, ps = pre ++ x :: post ∧
      ShowDefaults (pre ++ x' :: post) (ds.set i (replaceAt p n' a, d)) ∧ InParam c x x') ∧
    (PartAt n p d → ∃ pre x x' post, ps = pre ++ x :: post ∧
      ShowDefaults (pre ++ x' :: post) (ds.set i (a, replaceAt p n' d)) ∧ InParam c x x')
  | [], [], _, i, a, d, hv, _ => by simp at hv
  | [], _ :: _, h, _, _, _, _, _ => by simp [ShowDefaults] at h
  | _ :: _, [], h, _, _, _, _, _ => by simp [ShowDefaults] at h
  | x :: ps, (a', d') :: ds, h, 0, a, d, hv, p => by
    simp only [ShowDefaults] at h
    simp only [List.getElem?_cons_zero, Option.some.injEq, Prod.mk.injEq] at hv
    obtain ⟨rfl, rfl⟩ := hv
    obtain ⟨h1, ⟨e, he, hed⟩, h3⟩ := h
    constructor
    · intro hp
      obtain ⟨t, h4, h5⟩ := param_edit hc h1 hp
      refine ⟨[], x, { x with type := t }, ps, rfl, ?_, .type h5⟩
      simp only [List.nil_append, List.set_cons_zero, ShowDefaults]
      exact ⟨h4, ⟨e, he, hed⟩, h3⟩
    · intro hp
      obtain ⟨e', h4, h5⟩ := shows_edit hc e _ hed p hp
      refine ⟨[], x, { x with value := some e' }, ps, rfl, ?_, ?_⟩
      · simp only [List.nil_append, List.set_cons_zero, ShowDefaults]
        exact ⟨h1, ⟨e', rfl, h4⟩, h3⟩
      · have : x = ⟨x.name, x.type, some e⟩ := by rw [← he]
        rw [this]
        exact .value (.mk h5)
  | x :: ps, (a', d') :: ds, h, i + 1, a, d, hv, p => by
    simp only [ShowDefaults] at h
    simp only [List.getElem?_cons_succ] at hv
    obtain ⟨h1, h2⟩ := defaults_edit hc ps ds h.2.2 i a d hv p
    constructor
    · intro hp
      obtain ⟨pre, e0, e1, post, h3, h4, h5⟩ := h1 hp
      refine ⟨x :: pre, e0, e1, post, by rw [h3]; rfl, ?_, h5⟩
      simp only [List.cons_append, List.set_cons_succ, ShowDefaults]
      exact ⟨h.1, h.2.1, h4⟩
    · intro hp
      obtain ⟨pre, e0, e1, post, h3, h4, h5⟩ := h2 hp
      refine ⟨x :: pre, e0, e1, post, by rw [h3]; rfl, ?_, h5⟩
      simp only [List.cons_append, List.set_cons_succ, ShowDefaults]
      exact ⟨h.1, h.2.1, h4⟩

theorem map_getElem?_inv {α β : Type} {f : α → β} {xs : List α} {i : Nat} {b : β} (h : (xs.map f)[i]? = some b) :
    ∃ a, xs[i]? = some a ∧ f a = b := by
  rw [List.getElem?_map, Option.map_eq_some_iff] at h
  exact h

theorem set_getElem?_self {α : Type} {xs : List α} {i : Nat} {a : α} (h : xs[i]? = some a) : xs.set i a = xs := by
  obtain ⟨pre, post, h1, _, h3⟩ := getElem?_split h
  rw [h3, h1]

theorem params_edit (hc : Carries c n n') {ps : List Param} (h : ShowParams ps j) (hp : PartAt n p j) :
    ∃ pre a a' post, ps = pre ++ a :: post ∧ ShowParams (pre ++ a' :: post) (replaceAt p n' j) ∧ InParam c a a' := by
  obtain ⟨ht, qs, rs, as, ds, hps, hplain, hdef, hargs, hdefs⟩ := h
  rcases at_node hp ht with ⟨rfl, rfl⟩ | ⟨k, w, q, hk, hf, hq, hs⟩
  · exact absurd ht fun h => hc.not h (by decide)
  · rw [show partsOf "arguments" = ["args", "defaults"] from by decide] at hk
    simp only [List.mem_cons, List.not_mem_nil, or_false] at hk
    rcases hk with rfl | rfl
    · rw [hargs] at hf
      cases hf
      obtain ⟨i, u, q2, h1, h2, h3⟩ := at_arr hc.typed hq
      by_cases hi : i < as.length
      · rw [List.getElem?_append_left hi] at h1
        obtain ⟨pre, e0, e1, post, h4, h5, h6⟩ := plain_edit hc qs as hplain i u h1 q2 h2
        refine ⟨pre, e0, e1, post ++ rs, by rw [hps, h4]; simp, ⟨(hs n').isA (by decide) ht, pre ++ e1 :: post, rs, _, ds,
          by simp, h5, hdef, ?_, by rw [(hs n').other (by decide)]; exact hdefs⟩, h6⟩
        rw [(hs n').field, h3, List.set_append_left _ _ hi]
      · rw [List.getElem?_append_right (by omega)] at h1
        obtain ⟨⟨a, d⟩, h4, h5⟩ := map_getElem?_inv h1
        simp only at h5
        subst h5
        obtain ⟨pre, e0, e1, post, h6, h7, h8⟩ := (defaults_edit hc rs ds hdef _ a d h4 q2).1 h2
        refine ⟨qs ++ pre, e0, e1, post, by rw [hps, h6]; simp, ⟨(hs n').isA (by decide) ht, qs, pre ++ e1 :: post, as, _,
          by simp, hplain, h7, ?_, ?_⟩, h8⟩
        · rw [(hs n').field, h3, List.set_append_right _ _ (by omega), List.map_set]
        · rw [(hs n').other (by decide), hdefs, List.map_set, set_getElem?_self]
          rw [List.getElem?_map, h4]
          rfl
    · rw [hdefs] at hf
      cases hf
      obtain ⟨i, u, q2, h1, h2, h3⟩ := at_arr hc.typed hq
      obtain ⟨⟨a, d⟩, h4, h5⟩ := map_getElem?_inv h1
      simp only at h5
      subst h5
      obtain ⟨pre, e0, e1, post, h6, h7, h8⟩ := (defaults_edit hc rs ds hdef _ a d h4 q2).2 h2
      refine ⟨qs ++ pre, e0, e1, post, by rw [hps, h6]; simp, ⟨(hs n').isA (by decide) ht, qs, pre ++ e1 :: post, as, _,
        by simp, hplain, h7, ?_, ?_⟩, h8⟩
      · rw [(hs n').other (by decide), hargs, List.map_set, set_getElem?_self]
        rw [List.getElem?_map, h4]
        rfl
      · rw [(hs n').field, h3, List.map_set]

/-- A change in the signature; the change is not in the other fields of the function. -/
theorem sig_edit (hc : Carries c n n') {g : Sig} (h : ShowsSig g j) (hk : k = "args" ∨ k = "returns")
    (hf : Json.field? k j = some v) (hq : PartAt n q v) (hs : Sets k (replaceAt q n' v) j j') :
    ∃ g', ShowsSig g' j' ∧ InSig c g g' := by
  obtain ⟨ht, hn, ⟨a, ha, hps⟩, hr⟩ := h
  rcases hk with rfl | rfl
  · rw [ha] at hf
    cases hf
    obtain ⟨pre, e0, e1, post, h1, h2, h3⟩ := params_edit hc hps hq
    refine ⟨⟨g.name, pre ++ e1 :: post, g.results⟩, ⟨hs.isA (by decide) ht, by rw [hs.str (by decide) (by decide)]; exact hn,
      ⟨_, hs.field, h2⟩, ?_⟩, ?_⟩
    · rcases hr with ⟨h4, h5⟩ | h4
      · exact .inl ⟨h4, absent_keep h5 hs (by decide)⟩
      · exact .inr (rowField_keep h4 hs (by decide))
    · have : g = ⟨g.name, pre ++ e0 :: post, g.results⟩ := by rw [← h1]
      rw [this]
      exact .params h3
  · rcases hr with ⟨h4, h5⟩ | h4
    · exact (absent_edit hc h5 hf hq).elim
    · obtain ⟨es', h5, h6⟩ := rowField_edit hc h4 hf hq hs
      exact ⟨⟨g.name, g.params, es'⟩, ⟨hs.isA (by decide) ht, by rw [hs.str (by decide) (by decide)]; exact hn,
        ⟨a, by rw [hs.other (by decide)]; exact ha, hps⟩, .inr h5⟩, .results h6⟩

theorem sig_keep {g : Sig} (h : ShowsSig g j) (hs : Sets k w j j') (h1 : k ≠ "ast_type") (h2 : k ≠ "name") (h3 : k ≠ "args")
    (h4 : k ≠ "returns") : ShowsSig g j' := by
  obtain ⟨ht, hn, ⟨a, ha, hps⟩, hr⟩ := h
  refine ⟨hs.isA h1 ht, by rw [hs.str (by decide) (Ne.symm h2)]; exact hn, ⟨a, by rw [hs.other (Ne.symm h3)]; exact ha, hps⟩, ?_⟩
  rcases hr with ⟨h5, h6⟩ | h5
  · exact .inl ⟨h5, absent_keep h6 hs (Ne.symm h4)⟩
  · exact .inr (rowField_keep h5 hs (Ne.symm h4))

theorem doc_keep {doc : Option String} (h : ShowDoc doc j) (hs : Sets k w j j') (h1 : k ≠ "doc_string") : ShowDoc doc j' := by
  cases doc with
  | none => exact absent_keep h hs (Ne.symm h1)
  | some t =>
    obtain ⟨x, hx, h2⟩ := h
    exact ⟨x, by rw [hs.other (Ne.symm h1)]; exact hx, h2⟩

/-! ### Declarations -/

theorem simples_edit (hc : Carries c n n') : (ss : List Simple) → (vs : List Json) → ShowSimples ss vs → (i : Nat) →
    (v : Json) → vs[i]? = some v → (p : Pos) → PartAt n p v → ∃ pre s s' post, ss = pre ++ s :: post ∧
      ShowSimples (pre ++ s' :: post) (vs.set i (replaceAt p n' v)) ∧ InSimple c s s'
  | [], [], _, i, v, hv, _, _ => by simp at hv
  | [], _ :: _, h, _, _, _, _, _ => by simp [ShowSimples] at h
  | _ :: _, [], h, _, _, _, _, _ => by simp [ShowSimples] at h
  | s :: ss, w :: ws, h, 0, v, hv, p, hp => by
    simp only [ShowSimples] at h
    simp only [List.getElem?_cons_zero, Option.some.injEq] at hv
    subst hv
    obtain ⟨s', h1, h2⟩ := simple_edit hc s h.1 hp
    refine ⟨[], s, s', ss, rfl, ?_, h2⟩
    simp only [List.nil_append, List.set_cons_zero, ShowSimples]
    exact ⟨h1, h.2⟩
  | s :: ss, w :: ws, h, i + 1, v, hv, p, hp => by
    simp only [ShowSimples] at h
    simp only [List.getElem?_cons_succ] at hv
    obtain ⟨pre, s0, s1, post, h1, h2, h3⟩ := simples_edit hc ss ws h.2 i v hv p hp
    refine ⟨s :: pre, s0, s1, post, by rw [h1]; rfl, ?_, h3⟩
    simp only [List.cons_append, List.set_cons_succ, ShowSimples]
    exact ⟨h.1, h2⟩

theorem function_edit (hc : Carries c n n') {g : Sig} {m : String} (hm : IsA "Int" n → isName m = true) (h : ShowFunctions [(g, m)] [j])
    (hp : PartAt n p j) : (∃ g', ShowFunctions [(g', m)] [replaceAt p n' j] ∧ InSig c g g') ∨ j = n := by
  have h' := h
  simp only [ShowFunctions, and_true] at h'
  obtain ⟨hg, hd, hdoc, b, hb, hbe, hbm⟩ := h'
  rcases at_node hp hg.1 with ⟨rfl, rfl⟩ | ⟨k, w, q, hk, hf, hq, hs⟩
  · exact .inr rfl
  · refine .inl ?_
    rw [show partsOf "FunctionDef" = ["args", "returns", "decorator_list", "body"] from by decide] at hk
    simp only [List.mem_cons, List.not_mem_nil, or_false] at hk
    have hsig : (k = "args" ∨ k = "returns") → ∃ g', ShowFunctions [(g', m)] [replaceAt p n' j] ∧ InSig c g g' := by
      intro hk
      obtain ⟨g', h1, h2⟩ := sig_edit hc hg hk hf hq (hs n')
      refine ⟨g', ?_, h2⟩
      simp only [ShowFunctions, and_true]
      have hk1 : "decorator_list" ≠ k := by rcases hk with rfl | rfl <;> decide
      have hk2 : "body" ≠ k := by rcases hk with rfl | rfl <;> decide
      have hk3 : k ≠ "doc_string" := by rcases hk with rfl | rfl <;> decide
      exact ⟨h1, by rw [(hs n').other hk1]; exact hd, doc_keep hdoc (hs n') hk3, b, by rw [(hs n').other hk2]; exact hb, hbe, hbm⟩
    rcases hk with rfl | rfl | rfl | rfl
    · exact hsig (.inl rfl)
    · exact hsig (.inr rfl)
    · rw [hd] at hf
      cases hf
      obtain ⟨i, u, q2, h1, h2, h3⟩ := at_arr hc.typed hq
      simp at h1
    · rw [hb] at hf
      cases hf
      obtain ⟨i, u, q2, h1, h2, h3⟩ := at_arr hc.typed hq
      obtain ⟨rfl, rfl⟩ := single_arr h1
      rcases at_node h2 hbe with ⟨rfl, rfl⟩ | ⟨k, w, q3, hk, hf, hq3, hs3⟩
      · exact absurd hbe fun h => hc.not h (by decide)
      · rw [show partsOf "Expr" = ["value"] from by decide, List.mem_singleton] at hk
        subst hk
        obtain ⟨x, hx, hxm⟩ := hbm
        rw [hx] at hf
        cases hf
        exact (name_edit hc hm hxm hq3).elim

theorem showFunctions_cons {g : Sig} {m : String} {fs : List (Sig × String)} {js : List Json} :
    ShowFunctions ((g, m) :: fs) (j :: js) ↔ ShowFunctions [(g, m)] [j] ∧ ShowFunctions fs js := by
  simp only [ShowFunctions, and_true]

theorem functions_edit (hc : Carries c n n') : (fs : List (Sig × String)) → (vs : List Json) → ShowFunctions fs vs →
    (IsA "Int" n → ∀ f ∈ fs, isName f.2 = true) → (i : Nat) → (v : Json) → vs[i]? = some v → (p : Pos) → PartAt n p v →
    (∃ pre g g' m post, fs = pre ++ (g, m) :: post ∧
      ShowFunctions (pre ++ (g', m) :: post) (vs.set i (replaceAt p n' v)) ∧ InSig c g g') ∨ (n ∈ vs ∧ ∃ g m, ShowFunctions [(g, m)] [n])
  | [], [], _, _, i, v, hv, _, _ => by simp at hv
  | [], _ :: _, h, _, _, _, _, _, _ => by simp [ShowFunctions] at h
  | _ :: _, [], h, _, _, _, _, _, _ => by simp [ShowFunctions] at h
  | (g, m) :: fs, w :: ws, h, hok, 0, v, hv, p, hp => by
    rw [showFunctions_cons] at h
    simp only [List.getElem?_cons_zero, Option.some.injEq] at hv
    subst hv
    rcases function_edit hc (fun h => hok h (g, m) List.mem_cons_self) h.1 hp with ⟨g', h1, h2⟩ | rfl
    case inr => exact .inr ⟨List.mem_cons_self, g, m, h.1⟩
    refine .inl ⟨[], g, g', m, fs, rfl, ?_, h2⟩
    simp only [List.nil_append, List.set_cons_zero]
    rw [showFunctions_cons]
    exact ⟨h1, h.2⟩
  | (g, m) :: fs, w :: ws, h, hok, i + 1, v, hv, p, hp => by
    rw [showFunctions_cons] at h
    simp only [List.getElem?_cons_succ] at hv
    rcases functions_edit hc fs ws h.2 (fun h f hf => hok h f (List.mem_cons_of_mem _ hf)) i v hv p hp with
      ⟨pre, g0, g1, m0, post, h1, h2, h3⟩ | ⟨h1, h2⟩
    case inr => exact .inr ⟨List.mem_cons_of_mem _ h1, h2⟩
    refine .inl ⟨(g, m) :: pre, g0, g1, m0, post, by rw [h1]; rfl, ?_, h3⟩
    simp only [List.cons_append, List.set_cons_succ]
    rw [showFunctions_cons]
    exact ⟨h.1, h2⟩

theorem blockType_parts (k : String) : partsOf (blockType k) = ["body"] ∧ blockType k ∉ wholeTypes := by
  unfold blockType
  split
  · decide
  · split <;> decide

/-- The node is a function of the interface, which may be quoted in a comment. -/
def Interfaced (n d₀ : Json) : Prop :=
  ∃ d, Held d₀ d ∧ IsA "InterfaceDef" d ∧ ∃ fs, Json.field? "body" d = some (.arr fs) ∧ n ∈ fs ∧ ∃ g m, ShowFunctions [(g, m)] [n]

theorem decl_edit (hc : Carries c n n') (d : Decl) (h : ShowsDecl d j) (hok : IsA "Int" n → d.Ok) (hp : PartAt n p j) :
    (∃ d', ShowsDecl d' (replaceAt p n' j) ∧ InDecl c d d') ∨ Interfaced n j := by
  induction d generalizing j p with
  | simple s =>
    refine .inl ?_
    obtain ⟨s', h1, h2⟩ := simple_edit hc s h hp
    exact ⟨.simple s', h1, .simple h2⟩
  | block kw m fs =>
    refine .inl ?_
    obtain ⟨ht, hn, bs, hbs, hall⟩ := h
    rcases at_node hp ht with ⟨rfl, rfl⟩ | ⟨k, w, q, hk, hf, hq, hs⟩
    · exact absurd ht fun h => hc.not h (blockType_parts kw).2
    · rw [(blockType_parts kw).1, List.mem_singleton] at hk
      subst hk
      rw [hbs] at hf
      cases hf
      obtain ⟨i, u, q2, h1, h2, h3⟩ := at_arr hc.typed hq
      obtain ⟨pre, e0, e1, post, h4, h5, h6⟩ := simples_edit hc fs bs hall i u h1 q2 h2
      exact ⟨.block kw m (pre ++ e1 :: post), ⟨(hs n').isA (by decide) ht,
        by rw [(hs n').str (by decide) (by decide)]; exact hn, _, by rw [(hs n').field, h3], h5⟩, by rw [h4]; exact .field h6⟩
  | interface m fs =>
    obtain ⟨ht, hn, bs, hbs, hall⟩ := h
    rcases at_node hp ht with ⟨rfl, rfl⟩ | ⟨k, w, q, hk, hf, hq, hs⟩
    · exact absurd ht fun h => hc.not h (by decide)
    · rw [show partsOf "InterfaceDef" = ["body"] from by decide, List.mem_singleton] at hk
      subst hk
      rw [hbs] at hf
      cases hf
      obtain ⟨i, u, q2, h1, h2, h3⟩ := at_arr hc.typed hq
      rcases functions_edit hc fs bs hall (fun h f hf => ((hok h).2.2.1 f hf).2) i u h1 q2 h2 with
        ⟨pre, g0, g1, m0, post, h4, h5, h6⟩ | ⟨h4, h5⟩
      case inr => exact .inr ⟨_, .here, ht, bs, hbs, h4, h5⟩
      exact .inl ⟨.interface m (pre ++ (g1, m0) :: post), ⟨(hs n').isA (by decide) ht,
        by rw [(hs n').str (by decide) (by decide)]; exact hn, _, by rw [(hs n').field, h3], h5⟩, by rw [h4]; exact .function h6⟩
  | fn ds g doc body =>
    refine .inl ?_
    have h' := h
    obtain ⟨hg, ⟨vs, hvs, hds⟩, hdoc, bs, hbs, hall⟩ := h'
    rcases at_node hp hg.1 with ⟨rfl, rfl⟩ | ⟨k, w, q, hk, hf, hq, hs⟩
    · obtain ⟨d', h1, h2⟩ := hc.decl _ _ _ _ h
      exact ⟨d', h1, .here h2⟩
    · rw [show partsOf "FunctionDef" = ["args", "returns", "decorator_list", "body"] from by decide] at hk
      simp only [List.mem_cons, List.not_mem_nil, or_false] at hk
      have hsig : (k = "args" ∨ k = "returns") → ∃ d', ShowsDecl d' (replaceAt p n' j) ∧ InDecl c (.fn ds g doc body) d' := by
        intro hk
        obtain ⟨g', h1, h2⟩ := sig_edit hc hg hk hf hq (hs n')
        have hk1 : "decorator_list" ≠ k := by rcases hk with rfl | rfl <;> decide
        have hk2 : "body" ≠ k := by rcases hk with rfl | rfl <;> decide
        have hk3 : k ≠ "doc_string" := by rcases hk with rfl | rfl <;> decide
        exact ⟨.fn ds g' doc body, ⟨h1, ⟨vs, by rw [(hs n').other hk1]; exact hvs, hds⟩, doc_keep hdoc (hs n') hk3, bs,
          by rw [(hs n').other hk2]; exact hbs, hall⟩, .sig h2⟩
      rcases hk with rfl | rfl | rfl | rfl
      · exact hsig (.inl rfl)
      · exact hsig (.inr rfl)
      · rw [hvs] at hf
        cases hf
        obtain ⟨i, u, q2, h1, h2, h3⟩ := at_arr hc.typed hq
        obtain ⟨pre, e0, e1, post, h4, h5, h6⟩ := showAll_edit hc ds vs hds i u h1 q2 h2
        exact ⟨.fn (pre ++ e1 :: post) g doc body, ⟨sig_keep hg (hs n') (by decide) (by decide) (by decide) (by decide),
          ⟨_, by rw [(hs n').field, h3], h5⟩, doc_keep hdoc (hs n') (by decide), bs,
          by rw [(hs n').other (by decide)]; exact hbs, hall⟩, by rw [h4]; exact .decorator (.mk h6)⟩
      · rw [hbs] at hf
        cases hf
        obtain ⟨i, u, q2, h1, h2, h3⟩ := at_arr hc.typed hq
        obtain ⟨pre, e0, e1, post, h4, h5, h6⟩ := stmts_edit hc body bs hall (fun h => (hok h).2.2.2.1) i u h1 q2 h2
        exact ⟨.fn ds g doc (pre ++ e1 :: post), ⟨sig_keep hg (hs n') (by decide) (by decide) (by decide) (by decide),
          ⟨vs, by rw [(hs n').other (by decide)]; exact hvs, hds⟩, doc_keep hdoc (hs n') (by decide), _,
          by rw [(hs n').field, h3], h5⟩, by rw [h4]; exact .body h6⟩
  | comment t => exact (note_edit hc h hp).elim
  | quote d ih =>
    obtain ⟨ht, v, hv, h1⟩ := h
    rcases at_node hp ht with ⟨rfl, rfl⟩ | ⟨k, w, q, hk, hf, hq, hs⟩
    · exact (hc.not ht (by decide)).elim
    rw [show partsOf "Comment" = ["value"] from by decide, List.mem_singleton] at hk
    subst hk
    rw [hv] at hf
    cases hf
    rcases ih h1 (fun h => (hok h).1) hq with ⟨d', h2, h3⟩ | ⟨d', h2, h3⟩
    · exact .inl ⟨.quote d', ⟨(hs n').isA (by decide) ht, _, (hs n').field, h2⟩, .quote h3⟩
    · exact .inr ⟨d', .comment ht hv h2, h3⟩

theorem decls_edit (hc : Carries c n n') : (ss : List Decl) → (vs : List Json) → ShowDecls ss vs → (IsA "Int" n → ∀ d ∈ ss, d.Ok) → (i : Nat) →
    (v : Json) → vs[i]? = some v → (p : Pos) → PartAt n p v → (∃ pre s s' post, ss = pre ++ s :: post ∧
      ShowDecls (pre ++ s' :: post) (vs.set i (replaceAt p n' v)) ∧ InDecl c s s') ∨ ∃ d ∈ vs, Interfaced n d
  | [], [], _, _, i, v, hv, _, _ => by simp at hv
  | [], _ :: _, h, _, _, _, _, _, _ => by simp [ShowDecls] at h
  | _ :: _, [], h, _, _, _, _, _, _ => by simp [ShowDecls] at h
  | s :: ss, w :: ws, h, hok, 0, v, hv, p, hp => by
    simp only [ShowDecls] at h
    simp only [List.getElem?_cons_zero, Option.some.injEq] at hv
    subst hv
    rcases decl_edit hc s h.1 (fun h => hok h s List.mem_cons_self) hp with ⟨s', h1, h2⟩ | h1
    case inr => exact .inr ⟨_, List.mem_cons_self, h1⟩
    refine .inl ⟨[], s, s', ss, rfl, ?_, h2⟩
    simp only [List.nil_append, List.set_cons_zero, ShowDecls]
    exact ⟨h1, h.2⟩
  | s :: ss, w :: ws, h, hok, i + 1, v, hv, p, hp => by
    simp only [ShowDecls] at h
    simp only [List.getElem?_cons_succ] at hv
    rcases decls_edit hc ss ws h.2 (fun h d hd => hok h d (List.mem_cons_of_mem _ hd)) i v hv p hp with
      ⟨pre, s0, s1, post, h1, h2, h3⟩ | ⟨d, h1, h2⟩
    case inr => exact .inr ⟨d, List.mem_cons_of_mem _ h1, h2⟩
    refine .inl ⟨s :: pre, s0, s1, post, by rw [h1]; rfl, ?_, h3⟩
    simp only [List.cons_append, List.set_cons_succ, ShowDecls]
    exact ⟨h.1, h2⟩

theorem program_edit (hc : Carries c n n') {a : Program} (h : ShowsProgram a j) (hok : IsA "Int" n → a.Ok) (hp : PartAt n p j)
    (hne : p ≠ []) :
    (∃ a', ShowsProgram a' (replaceAt p n' j) ∧ InProgram c a a') ∨
      ∃ bs d, Json.field? "body" j = some (.arr bs) ∧ d ∈ bs ∧ Interfaced n d := by
  obtain ⟨ht, hdoc, bs, hbs, hall⟩ := h
  rcases at_node hp ht with ⟨rfl, rfl⟩ | ⟨k, w, q, hk, hf, hq, hs⟩
  · exact absurd rfl hne
  · rw [show partsOf "Module" = ["body"] from by decide, List.mem_singleton] at hk
    subst hk
    rw [hbs] at hf
    cases hf
    obtain ⟨i, u, q2, h1, h2, h3⟩ := at_arr hc.typed hq
    rcases decls_edit hc a.decls bs hall (fun h => (hok h).2) i u h1 q2 h2 with ⟨pre, e0, e1, post, h4, h5, h6⟩ | ⟨d, h4, h5⟩
    case inr => exact .inr ⟨bs, d, hbs, h4, h5⟩
    refine .inl ⟨⟨a.doc, pre ++ e1 :: post⟩, ⟨(hs n').isA (by decide) ht, doc_keep hdoc (hs n') (by decide), _,
      by rw [(hs n').field, h3], h5⟩, ?_⟩
    have : a = ⟨a.doc, pre ++ e0 :: post⟩ := by rw [← h4]
    rw [this]
    exact .mk h6

end VyPrint
end Mutagenyx
