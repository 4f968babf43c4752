import Verif.Proofs.VyperComment
import Verif.Props.Operators
import Verif.Props.VyperMutators

/-!
# The mutators of Vyper and the programs that the trees stand for
-/

namespace Mutagenyx
namespace VyPrint
open VyGrammar Json

variable {R : Type}

theorem kind_isA {t : String} {j : Json} : IsVyperKind t j ↔ IsA t j :=
  ⟨getStr_of_text (by decide), getStr_text (by decide) (by decide)⟩

theorem onlyField_sets {k : String} {j j' w : Json} (h : OnlyField k j j') (hw : field k j' = some w) : Sets k w j j' :=
  ⟨h.1, h.2.1, by rw [field?_eq_field]; exact hw, fun k' hk => by rw [field?_eq_field, field?_eq_field]; exact h.2.2 k' hk⟩

/-! ### Exchanges -/

theorem exchanged_split {i k : Nat} {xs ys : List Json} (hik : i < k) (h : Exchanged i k xs ys) :
    ∃ pre a mid b post, xs[i]? = some a ∧ xs[k]? = some b ∧ xs = pre ++ a :: (mid ++ b :: post) ∧ ys = pre ++ b :: (mid ++ a :: post) := by
  obtain ⟨_, h1, h2, h3, h4, h5, h6⟩ := h
  obtain ⟨a, ha⟩ : ∃ a, xs[i]? = some a := ⟨_, List.getElem?_eq_getElem h1⟩
  obtain ⟨b, hb⟩ : ∃ b, xs[k]? = some b := ⟨_, List.getElem?_eq_getElem h2⟩
  obtain ⟨pre, rest, hx, hl, hset⟩ := getElem?_split ha
  have hb' : rest[k - i - 1]? = some b := by
    rw [hx, List.getElem?_append_right (by omega), hl] at hb
    obtain ⟨n, hn⟩ : ∃ n, k - i = n + 1 := ⟨k - i - 1, by omega⟩
    rw [hn, List.getElem?_cons_succ] at hb
    rw [hn]; exact hb
  obtain ⟨mid, post, hr, hl2, hset2⟩ := getElem?_split hb'
  refine ⟨pre, a, mid, b, post, ha, hb, by rw [hx, hr], ?_⟩
  apply List.ext_getElem?
  intro m
  have hxs : ∀ u v : Json, (pre ++ u :: (mid ++ v :: post)) = ((xs.set i u).set k v) := by
    intro u v
    rw [hset u, List.set_append_right _ _ (by omega), hl]
    obtain ⟨n, hn⟩ : ∃ n, k - i = n + 1 := ⟨k - i - 1, by omega⟩
    rw [hn, List.set_cons_succ, ← hset2 v, hn]
    rfl
  rw [hxs b a]
  by_cases hmk : m = k
  · subst hmk
    rw [h5, ha, List.getElem?_set_self (by simpa using h2)]
  · rw [List.getElem?_set_ne (Ne.symm hmk)]
    by_cases hmi : m = i
    · subst hmi
      rw [h4, hb, List.getElem?_set_self h1]
    · rw [List.getElem?_set_ne (Ne.symm hmi), h6 m hmi hmk]

theorem exchanged_symm {i k : Nat} {xs ys : List Json} (h : Exchanged i k xs ys) : Exchanged k i xs ys := by
  obtain ⟨h0, h1, h2, h3, h4, h5, h6⟩ := h
  exact ⟨Ne.symm h0, h2, h1, h3, h5, h4, fun m a b => h6 m b a⟩

theorem exchanged_parts {i k : Nat} {xs ys : List Json} (h : Exchanged i k xs ys) (P : Json → Prop)
    (hi : ∀ a, xs[i]? = some a → P a) (hk : ∀ a, xs[k]? = some a → P a) :
    ∃ pre a mid b post, P a ∧ P b ∧ xs = pre ++ a :: (mid ++ b :: post) ∧ ys = pre ++ b :: (mid ++ a :: post) := by
  rcases Nat.lt_or_ge i k with hlt | hge
  · obtain ⟨pre, a, mid, b, post, h1, h2, h3, h4⟩ := exchanged_split hlt h
    exact ⟨pre, a, mid, b, post, hi a h1, hk b h2, h3, h4⟩
  · obtain ⟨pre, a, mid, b, post, h1, h2, h3, h4⟩ := exchanged_split (by have := h.1; omega) (exchanged_symm h)
    exact ⟨pre, a, mid, b, post, hk a h1, hi b h2, h3, h4⟩

theorem showAll_split : (xs : List Json) → {ys : List Json} → {es : List Expr} → ShowAll es (xs ++ ys) →
    ∃ a b, es = a ++ b ∧ ShowAll a xs ∧ ShowAll b ys
  | [], ys, es, h => ⟨[], es, rfl, by simp [ShowAll], h⟩
  | _ :: _, _, [], h => by simp [ShowAll] at h
  | x :: xs, ys, e :: es, h => by
    simp only [List.cons_append, ShowAll] at h
    obtain ⟨a, b, rfl, h1, h2⟩ := showAll_split xs h.2
    exact ⟨e :: a, b, rfl, by simp only [ShowAll]; exact ⟨h.1, h1⟩, h2⟩

theorem showAll_join : (xs : List Json) → {ys : List Json} → {a b : List Expr} → ShowAll a xs → ShowAll b ys → ShowAll (a ++ b) (xs ++ ys)
  | [], _, [], _, _, h => h
  | [], _, _ :: _, _, h, _ => by simp [ShowAll] at h
  | _ :: _, _, [], _, h, _ => by simp [ShowAll] at h
  | x :: xs, ys, e :: a, b, h, h2 => by
    simp only [List.cons_append, ShowAll] at h ⊢
    exact ⟨h.1, showAll_join xs h.2 h2⟩

theorem showAll_cons_inv {x : Json} {xs : List Json} {es : List Expr} (h : ShowAll es (x :: xs)) :
    ∃ e es', es = e :: es' ∧ Shows e x ∧ ShowAll es' xs := by
  cases es with
  | nil => simp [ShowAll] at h
  | cons e es' => simp only [ShowAll] at h; exact ⟨e, es', rfl, h.1, h.2⟩

theorem showAll_swap {pre mid post : List Json} {a b : Json} {es : List Expr} (h : ShowAll es (pre ++ a :: (mid ++ b :: post))) :
    ∃ es', ShowAll es' (pre ++ b :: (mid ++ a :: post)) ∧ Swapped (fun _ => True) es es' := by
  obtain ⟨p, r, rfl, h1, h2⟩ := showAll_split pre h
  obtain ⟨e, r, rfl, h3, h4⟩ := showAll_cons_inv h2
  obtain ⟨m, q, rfl, h5, h6⟩ := showAll_split mid h4
  obtain ⟨e2, q, rfl, h7, h8⟩ := showAll_cons_inv h6
  refine ⟨p ++ e2 :: (m ++ e :: q), ?_, p, e, m, e2, q, trivial, trivial, rfl, rfl⟩
  refine showAll_join _ h1 ?_
  simp only [ShowAll]
  refine ⟨h7, showAll_join _ h5 ?_⟩
  simp only [ShowAll]
  exact ⟨h3, h8⟩

theorem showStmts_split : (xs : List Json) → {ys : List Json} → {es : List Stmt} → ShowStmts es (xs ++ ys) →
    ∃ a b, es = a ++ b ∧ ShowStmts a xs ∧ ShowStmts b ys
  | [], ys, es, h => ⟨[], es, rfl, by simp [ShowStmts], h⟩
  | _ :: _, _, [], h => by simp [ShowStmts] at h
  | x :: xs, ys, e :: es, h => by
    simp only [List.cons_append, ShowStmts] at h
    obtain ⟨a, b, rfl, h1, h2⟩ := showStmts_split xs h.2
    exact ⟨e :: a, b, rfl, by simp only [ShowStmts]; exact ⟨h.1, h1⟩, h2⟩

theorem showStmts_join : (xs : List Json) → {ys : List Json} → {a b : List Stmt} → ShowStmts a xs → ShowStmts b ys → ShowStmts (a ++ b) (xs ++ ys)
  | [], _, [], _, _, h => h
  | [], _, _ :: _, _, h, _ => by simp [ShowStmts] at h
  | _ :: _, _, [], _, h, _ => by simp [ShowStmts] at h
  | x :: xs, ys, e :: a, b, h, h2 => by
    simp only [List.cons_append, ShowStmts] at h ⊢
    exact ⟨h.1, showStmts_join xs h.2 h2⟩

theorem showStmts_cons_inv {x : Json} {xs : List Json} {es : List Stmt} (h : ShowStmts es (x :: xs)) :
    ∃ e es', es = e :: es' ∧ ShowsStmt e x ∧ ShowStmts es' xs := by
  cases es with
  | nil => simp [ShowStmts] at h
  | cons e es' => simp only [ShowStmts] at h; exact ⟨e, es', rfl, h.1, h.2⟩

theorem noReturn_shows {s : Stmt} {x : Json} (h : ShowsStmt s x) (hx : ¬ IsA "Return" x) : NoReturn s := by
  rintro vs rfl
  simp only [ShowsStmt] at h
  exact hx h.1

theorem showStmts_swap {pre mid post : List Json} {a b : Json} (ha : ¬ IsA "Return" a) (hb : ¬ IsA "Return" b) {es : List Stmt}
    (h : ShowStmts es (pre ++ a :: (mid ++ b :: post))) :
    ∃ es', ShowStmts es' (pre ++ b :: (mid ++ a :: post)) ∧ Swapped NoReturn es es' := by
  obtain ⟨p, r, rfl, h1, h2⟩ := showStmts_split pre h
  obtain ⟨e, r, rfl, h3, h4⟩ := showStmts_cons_inv h2
  obtain ⟨m, q, rfl, h5, h6⟩ := showStmts_split mid h4
  obtain ⟨e2, q, rfl, h7, h8⟩ := showStmts_cons_inv h6
  refine ⟨p ++ e2 :: (m ++ e :: q), ?_, p, e, m, e2, q, noReturn_shows h3 ha, noReturn_shows h7 hb, rfl, rfl⟩
  refine showStmts_join _ h1 ?_
  simp only [ShowStmts]
  refine ⟨h7, showStmts_join _ h5 ?_⟩
  simp only [ShowStmts]
  exact ⟨h3, h8⟩

/-! ### Nodes of one kind -/

/-- A node that stands for an expression only. -/
theorem carries_expr {c : Change} {n n' : Json} {t : String} (ht : IsA t n)
    (hw : t ∈ ["BinOp", "BoolOp", "Compare", "UnaryOp", "Call", "Int"]) (h : ∀ f, Shows f n → ∃ f', Shows f' n' ∧ c.expr f f') :
    Carries c n n' := by
  have hs : t ∉ simpleTypes := by
    simp only [List.mem_cons, List.not_mem_nil, or_false] at hw
    rcases hw with rfl | rfl | rfl | rfl | rfl | rfl <;> decide
  have hd : t ∉ ["For", "If", "Comment", "FunctionDef"] := by
    simp only [List.mem_cons, List.not_mem_nil, or_false] at hw
    rcases hw with rfl | rfl | rfl | rfl | rfl | rfl <;> decide
  refine ⟨⟨t, ?_, ht⟩, h, fun s hx => (showsSimple_not hx ht hs).elim, fun s hx h1 => ?_, fun ds g doc b h1 => ?_⟩
  · simp only [List.mem_cons, List.not_mem_nil, or_false] at hw
    rcases hw with rfl | rfl | rfl | rfl | rfl | rfl <;> decide
  · exfalso
    cases s with
    | simple x => exact hx x rfl
    | for_ => simp only [ShowsStmt] at h1; rw [isA_unique ht h1.1] at hd; exact hd (by decide)
    | if_ => simp only [ShowsStmt] at h1; rw [isA_unique ht h1.1] at hd; exact hd (by decide)
    | comment => simp only [ShowsStmt] at h1; rw [isA_unique ht h1.1] at hd; exact hd (by decide)
    | quote => simp only [ShowsStmt] at h1; rw [isA_unique ht h1.1] at hd; exact hd (by decide)
  · exfalso
    rw [isA_unique ht h1.1.1] at hd
    exact hd (by decide)

theorem binary_inv {f : Expr} {n : Json} {t : String} (ht : IsA t n) (hw : t = "BinOp" ∨ t = "BoolOp" ∨ t = "Compare") (h : Shows f n) :
    ∃ l o r, f = .bin l o r := by
  cases f with
  | bin l o r => exact ⟨l, o, r, rfl⟩
  | leaf x =>
    simp only [Shows] at h
    exfalso
    rcases h with ⟨h, _⟩ | ⟨h | h, _⟩ | ⟨h, _⟩ | ⟨h, _⟩ <;>
      (have := isA_unique ht h; subst this; rcases hw with h | h | h <;> revert h <;> decide)
  | entry => simp only [Shows] at h
  | neg e =>
    simp only [Shows] at h
    exfalso
    rcases h with ⟨h, _⟩ | ⟨h, _⟩ <;> (have := isA_unique ht h; subst this; rcases hw with h | h | h <;> revert h <;> decide)
  | _ =>
    simp only [Shows] at h
    exfalso
    have := isA_unique ht h.1
    subst this
    rcases hw with h | h | h <;> revert h <;> decide

theorem unary_inv {f : Expr} {n : Json} (ht : IsA "UnaryOp" n) (h : Shows f n) : (∃ e, f = .not e) ∨ ∃ e, f = .inv e := by
  cases f with
  | not e => exact .inl ⟨e, rfl⟩
  | inv e => exact .inr ⟨e, rfl⟩
  | leaf x =>
    simp only [Shows] at h
    exfalso
    rcases h with ⟨h, _⟩ | ⟨h | h, _⟩ | ⟨h, _⟩ | ⟨h, _⟩ <;> exact absurd (isA_unique ht h) (by decide)
  | bin l o r =>
    simp only [Shows] at h
    exfalso
    obtain ⟨_, h⟩ := h
    by_cases ho : o.isBool = true
    · simp only [ho, if_true] at h
      exact absurd (isA_unique ht h.1) (by decide)
    · simp only [ho] at h
      rcases h.1 with h | h <;> exact absurd (isA_unique ht h) (by decide)
  | entry => simp only [Shows] at h
  | neg e =>
    simp only [Shows] at h
    exfalso
    rcases h with ⟨h, _⟩ | ⟨h, _⟩ <;> exact absurd (isA_unique ht h) (by decide)
  | _ =>
    simp only [Shows] at h
    exact absurd (isA_unique ht h.1) (by decide)

theorem call_inv {f : Expr} {n : Json} (ht : IsA "Call" n) (h : Shows f n) : ∃ e args, f = .call e args := by
  cases f with
  | call e args => exact ⟨e, args, rfl⟩
  | leaf x =>
    simp only [Shows] at h
    exfalso
    rcases h with ⟨h, _⟩ | ⟨h | h, _⟩ | ⟨h, _⟩ | ⟨h, _⟩ <;> exact absurd (isA_unique ht h) (by decide)
  | bin l o r =>
    simp only [Shows] at h
    exfalso
    obtain ⟨_, h⟩ := h
    by_cases ho : o.isBool = true
    · simp only [ho, if_true] at h
      exact absurd (isA_unique ht h.1) (by decide)
    · simp only [ho] at h
      rcases h.1 with h | h <;> exact absurd (isA_unique ht h) (by decide)
  | entry => simp only [Shows] at h
  | neg e =>
    simp only [Shows] at h
    exfalso
    rcases h with ⟨h, _⟩ | ⟨h, _⟩ <;> exact absurd (isA_unique ht h) (by decide)
  | _ =>
    simp only [Shows] at h
    exact absurd (isA_unique ht h.1) (by decide)

theorem int_inv {f : Expr} {n : Json} (ht : IsA "Int" n) (h : Shows f n) :
    ∃ k : Int, f = numeral k ∧ getIntForKey "value" n = some k := by
  cases f with
  | leaf x =>
    simp only [Shows] at h
    rcases h with ⟨h, _⟩ | ⟨h | h, _⟩ | ⟨h, k, h1, h2⟩ | ⟨h, _⟩
    · exact absurd (isA_unique ht h) (by decide)
    · exact absurd (isA_unique ht h) (by decide)
    · exact absurd (isA_unique ht h) (by decide)
    · exact ⟨.ofNat k, by rw [h2]; rfl, h1⟩
    · exact absurd (isA_unique ht h) (by decide)
  | bin l o r =>
    simp only [Shows] at h
    exfalso
    obtain ⟨_, h⟩ := h
    by_cases ho : o.isBool = true
    · simp only [ho, if_true] at h
      exact absurd (isA_unique ht h.1) (by decide)
    · simp only [ho] at h
      rcases h.1 with h | h <;> exact absurd (isA_unique ht h) (by decide)
  | entry => simp only [Shows] at h
  | neg e =>
    simp only [Shows] at h
    rcases h with ⟨h, k, h1, rfl⟩ | ⟨h, _⟩
    · exact ⟨.negSucc k, rfl, h1⟩
    · exact absurd (isA_unique ht h) (by decide)
  | _ =>
    simp only [Shows] at h
    exact absurd (isA_unique ht h.1) (by decide)

theorem int_field {n : Json} (ht : IsA "Int" n) {k : Int} (h : getIntForKey "value" n = some k) :
    field "value" n = some (.num (.int k)) ∧ -(2 ^ 63) ≤ k ∧ k < 2 ^ 63 := by
  unfold getIntForKey at h
  rw [get?_field (by decide) (isA_isObj ht)] at h
  cases hf : field "value" n with
  | none => rw [hf] at h; cases h
  | some v =>
    rw [hf] at h
    simp only [Option.bind_some] at h
    unfold asI64 at h
    split at h
    · split at h
      · rename_i hr
        cases h
        exact ⟨rfl, hr.2, hr.1⟩
      · cases h
    · cases h

theorem int_get {n : Json} (ht : IsA "Int" n) {k : Int} (h : field "value" n = some (.num (.int k))) (h1 : -(2 ^ 63) ≤ k)
    (h2 : k < 2 ^ 63) : getIntForKey "value" n = some k := by
  unfold getIntForKey
  rw [get?_field (by decide) (isA_isObj ht), h]
  simp only [Option.bind_some, asI64]
  rw [if_pos ⟨h2, h1⟩]

theorem shows_numeral {n : Json} (ht : IsA "Int" n) {k : Int} (h : getIntForKey "value" n = some k) : Shows (numeral k) n := by
  cases k with
  | ofNat k =>
    simp only [numeral, Shows]
    exact .inr (.inr (.inl ⟨ht, k, h, rfl⟩))
  | negSucc k =>
    simp only [numeral, Shows]
    exact .inl ⟨ht, k, h, rfl⟩

theorem shows_decimal {n : Json} (ht : IsA "Decimal" n) {t : String} (h : getStrForKey "value" n = some t) :
    Shows (decimalNumber t) n := by
  unfold decimalNumber
  split
  · rename_i cs hc
    simp only [Shows]
    refine .inr ⟨ht, _, ?_, rfl⟩
    rw [h, Option.some.injEq, ← String.toList_inj, String.toList_append, hc]
    simp
  · simp only [Shows]
    exact .inr (.inl ⟨.inr ht, h⟩)

/-- The operators of a class. -/
theorem class_operator {t : MutationType} (ht : BinaryAlgorithm t) {name : String} (h : name ∈ vyperOperatorClass t) :
    ∃ o : Operator, o.type = name ∧ o.isBool = decide (t = .logicalBinaryOp) := by
  rcases ht with rfl | rfl | rfl | rfl | rfl
  · simp only [vyperOperatorClass, List.mem_cons, List.not_mem_nil, or_false] at h
    rcases h with rfl | rfl | rfl | rfl | rfl | rfl
    · exact ⟨.add, rfl, rfl⟩
    · exact ⟨.sub, rfl, rfl⟩
    · exact ⟨.mult, rfl, rfl⟩
    · exact ⟨.div, rfl, rfl⟩
    · exact ⟨.mod, rfl, rfl⟩
    · exact ⟨.pow, rfl, rfl⟩
  · simp only [vyperOperatorClass, List.mem_cons, List.not_mem_nil, or_false] at h
    rcases h with rfl | rfl
    · exact ⟨.and_, rfl, rfl⟩
    · exact ⟨.or_, rfl, rfl⟩
  · simp only [vyperOperatorClass, List.mem_cons, List.not_mem_nil, or_false] at h
    rcases h with rfl | rfl | rfl
    · exact ⟨.bitAnd, rfl, rfl⟩
    · exact ⟨.bitOr, rfl, rfl⟩
    · exact ⟨.bitXor, rfl, rfl⟩
  · simp [vyperOperatorClass] at h
  · simp only [vyperOperatorClass, List.mem_cons, List.not_mem_nil, or_false] at h
    rcases h with rfl | rfl | rfl | rfl | rfl | rfl
    · exact ⟨.eq, rfl, rfl⟩
    · exact ⟨.notEq, rfl, rfl⟩
    · exact ⟨.lt, rfl, rfl⟩
    · exact ⟨.ltE, rfl, rfl⟩
    · exact ⟨.gt, rfl, rfl⟩
    · exact ⟨.gtE, rfl, rfl⟩

theorem type_injective {o o' : Operator} (h : o.type = o'.type) : o = o' := by
  cases o <;> cases o' <;> first | rfl | (exact absurd h (by decide))

/-! ### One lemma for each algorithm -/

/-- What is needed about a mutation. -/
structure Mutates (c : Change) (n n' : Json) (id : Option Nat) : Prop where
  carries : Carries c n n'
  /-- A statement or declaration keeps its type. -/
  keeps : ∀ t, (t = "FunctionDef" ∨ t = "Assign") → IsA t n → IsA t n'
  /-- A function of an interface has one statement. -/
  function : ∀ g m, ¬ ShowFunctions [(g, m)] [n]
  reported : ∀ i, id = some i → ContainsId vyperId i n
  /-- The id of the new node, if it is the one that counts. -/
  new : ∀ i, vyperId n' = some i → ContainsId vyperId i n
  inner : ¬ IsA "Module" n

theorem contains_self {i : Nat} {n : Json} (h : vyperId n = some i) : ContainsId vyperId i n := ⟨[], n, rfl, h⟩

theorem contains_field {k : String} {i : Nat} {n v : Json} (hf : Json.field? k n = some v) (h : ContainsId vyperId i v) :
    ContainsId vyperId i n := by
  obtain ⟨kvs, rfl⟩ : ∃ kvs, n = .obj kvs := by
    cases n <;> first | (simp [field?] at hf; done) | exact ⟨_, rfl⟩
  have : ∃ x : Nat, (kvs.map Prod.snd)[x]? = some v := by
    replace hf : objGet k kvs = some v := hf
    induction kvs with
    | nil => simp [objGet] at hf
    | cons y ys ih =>
      obtain ⟨l, u⟩ := y
      simp only [objGet] at hf
      split at hf
      · cases hf; exact ⟨0, rfl⟩
      · obtain ⟨x, hx⟩ := ih hf
        exact ⟨x + 1, by simpa using hx⟩
  obtain ⟨x, hx⟩ := this
  obtain ⟨p, m, h1, h2⟩ := h
  exact ⟨x :: p, m, by simp only [nodeAt, children, hx]; exact h1, h2⟩

theorem contains_elem {i : Nat} {xs : List Json} {v : Json} (hv : v ∈ xs) (h : ContainsId vyperId i v) :
    ContainsId vyperId i (.arr xs) := by
  obtain ⟨x, hx⟩ := List.mem_iff_getElem?.1 hv
  obtain ⟨p, m, h1, h2⟩ := h
  exact ⟨x :: p, m, by simp only [nodeAt, children, hx]; exact h1, h2⟩

theorem mutates_expr {c : Change} {n n' : Json} {t : String} {id : Option Nat} (ht : IsA t n)
    (hw : t ∈ ["BinOp", "BoolOp", "Compare", "UnaryOp", "Call", "Int"]) (h : ∀ f, Shows f n → ∃ f', Shows f' n' ∧ c.expr f f')
    (hid : ∀ i, id = some i → ContainsId vyperId i n) (hnew : id = vyperId n') : Mutates c n n' id := by
  refine ⟨carries_expr ht hw h, fun u hu h1 => ?_, fun g m h1 => ?_, hid, fun i hi => hid i (by rw [hnew, hi]), fun h1 => ?_⟩
  · exfalso
    have := isA_unique ht h1
    subst this
    rcases hu with rfl | rfl <;> revert hw <;> decide
  · simp only [ShowFunctions, and_true] at h1
    have := isA_unique ht h1.1.1
    subst this
    revert hw; decide
  · have := isA_unique ht h1
    subst this
    revert hw; decide

variable {env : MutEnv} {m : Mutator R} {n n' : Json} {r r' : R} {res : MutatorResult} {c : Option Json}

theorem isBinary_type {j : Json} (h : Vyper.isBinary j = true) : ∃ t, IsA t j ∧ (t = "BinOp" ∨ t = "BoolOp" ∨ t = "Compare") := by
  simp only [Vyper.isBinary, Bool.or_eq_true] at h
  rcases h with (h | h) | h
  · exact ⟨_, kind_isA.1 (vyper_hasType.1 h), .inl rfl⟩
  · exact ⟨_, kind_isA.1 (vyper_hasType.1 h), .inr (.inl rfl)⟩
  · exact ⟨_, kind_isA.1 (vyper_hasType.1 h), .inr (.inr rfl)⟩

theorem binary_types {t : String} (h : t = "BinOp" ∨ t = "BoolOp" ∨ t = "Compare") :
    t ∈ ["BinOp", "BoolOp", "Compare", "UnaryOp", "Call", "Int"] := by
  rcases h with rfl | rfl | rfl <;> decide

variable [Rand R]

theorem mutates_binary {t : MutationType} (ht : BinaryAlgorithm t) (hm : Vyper.mutatorFor env t = some m) (hmut : m.isMutable n = true)
    (h : m.mutate n r = .ok (n', res, c, r')) : Mutates (operatorChange t) n n' res.mutatedNodeId := by
  obtain ⟨⟨op, op', old, new, h1, h2, h3, h4, h5, h6, h7, h8⟩, h9, h11, h10, _⟩ := C28_vyper ht hm hmut h
  have hbin : Vyper.isBinary n = true := by
    obtain ⟨ops, _, _, _, rfl⟩ := vyper_symbols ht hm
    simp only [Vyper.binaryOpMutable, Bool.and_eq_true] at hmut
    exact hmut.1
  obtain ⟨u, hu, hu2⟩ := isBinary_type hbin
  have hs := onlyField_sets h9 h2
  have hu' := hs.isA (by decide) hu
  refine mutates_expr hu (binary_types hu2) (fun f hf => ?_) (fun i hi => contains_self (by rw [← h10]; exact hi))
    (by rw [h10, h11])
  obtain ⟨l, o, rr, rfl⟩ := binary_inv hu hu2 hf
  simp only [Shows] at hf
  obtain ⟨⟨x, hx, hox⟩, hf⟩ := hf
  rw [← field?_eq_field] at h1
  rw [h1] at hx
  cases hx
  have hot : o.type = old := isA_unique hox (kind_isA.1 h4)
  obtain ⟨o1, ho1, hb1⟩ := class_operator ht h6
  obtain ⟨o2, ho2, hb2⟩ := class_operator ht h7
  have : o1 = o := type_injective (by rw [ho1, hot])
  subst this
  refine ⟨.bin l o2 rr, ?_, l, o1, o2, rr, rfl, rfl, ?_, by rw [ho1]; exact h6, by rw [ho2]; exact h7⟩
  · simp only [Shows]
    refine ⟨⟨op', hs.field, by rw [ho2]; exact kind_isA.1 h5⟩, ?_⟩
    rw [hb2, ← hb1]
    by_cases hb : o1.isBool = true
    · simp only [hb, if_true] at hf ⊢
      obtain ⟨hty, a, b, hab, ha, hb'⟩ := hf
      exact ⟨hs.isA (by decide) hty, a, b, by rw [hs.other (by decide)]; exact hab, ha, hb'⟩
    · simp only [hb] at hf ⊢
      obtain ⟨hty, ⟨a, ha, hla⟩, b, hb', hrb⟩ := hf
      exact ⟨hty.imp (hs.isA (by decide)) (hs.isA (by decide)), ⟨a, by rw [hs.other (by decide)]; exact ha, hla⟩, b,
        by rw [hs.other (by decide)]; exact hb', hrb⟩
  · rintro rfl
    rw [ho1] at ho2
    exact h8 ho2.symm

theorem mutates_swapOperands (hm : Vyper.mutatorFor env .swapOperatorArguments = some m) (hmut : m.isMutable n = true)
    (h : m.mutate n r = .ok (n', res, c, r')) (f : Expr) (hf : Shows f n) :
    Mutates (changeOf env.floatText .swapOperatorArguments) n n' res.mutatedNodeId := by
  have hbin : Vyper.isBinary n = true := by
    cases hm
    simp only [Vyper.swapOperandsMutable, Vyper.swapOperandsTest] at hmut
    by_cases hb : Vyper.isBinary n = true
    · exact hb
    · simp [hb] at hmut
  obtain ⟨u, hu, hu2⟩ := isBinary_type hbin
  have hkind : ∀ g, Shows g n → (∃ l o rr, g = .bin l o rr) ∧ (IsA "BinOp" n ∨ IsA "Compare" n) ∧
      ∃ a b, field "left" n = some a ∧ field "right" n = some b := by
    intro g hg
    obtain ⟨l, o, rr, rfl⟩ := binary_inv hu hu2 hg
    refine ⟨⟨l, o, rr, rfl⟩, ?_⟩
    simp only [Shows] at hg
    obtain ⟨⟨x, hx, hox⟩, hg⟩ := hg
    by_cases hb : o.isBool = true
    · exfalso
      cases hm
      simp only [Vyper.swapOperandsMutable, Vyper.swapOperandsTest, hbin, if_true, hx, Option.bind_some] at hmut
      rw [show getStrForKey "ast_type" x = some o.type from hox] at hmut
      cases o <;> first | (exact absurd hb (by decide)) | (exact absurd hmut (by decide))
    · simp only [hb] at hg
      obtain ⟨hty, ⟨a, ha, _⟩, b, hb', _⟩ := hg
      exact ⟨hty, a, b, by rw [← field?_eq_field]; exact ha, by rw [← field?_eq_field]; exact hb'⟩
  obtain ⟨_, hk, a, b, ha, hb⟩ := hkind f hf
  obtain ⟨⟨opn, op, h1, h2, h3⟩, h4, h5, h6, h7⟩ := C31_vyper hm hmut (hk.imp kind_isA.2 kind_isA.2) ha hb h
  refine mutates_expr hu (binary_types hu2) (fun g hg => ?_) (fun i hi => contains_self (by rw [← h7]; exact hi))
    (by rw [h7]; unfold vyperId; rw [getInt_field (by decide) h6.1, getInt_field (by decide) h6.2.1, h6.2.2 "node_id" (by decide) (by decide)])
  obtain ⟨⟨l, o, rr, rfl⟩, _⟩ := hkind g hg
  simp only [Shows] at hg
  obtain ⟨⟨x, hx, hox⟩, hg⟩ := hg
  have hxo : field "op" n = some x := by rw [← field?_eq_field]; exact hx
  rw [h1] at hxo
  cases hxo
  have hot : o.type = op := isA_unique hox (kind_isA.1 h2)
  have hob : o.isBool = false := by
    cases hb : o.isBool with
    | false => rfl
    | true =>
      exfalso
      rw [← hot] at h3
      cases o <;> first | (exact absurd hb (by decide)) | (exact absurd h3 (by decide))
  refine ⟨.bin rr o l, ?_, l, o, rr, rfl, rfl, by rw [hot]; exact h3⟩
  have hty : ∀ {v}, IsA v n → IsA v n' := by
    intro v hv
    have := kind_isA.2 hv
    exact kind_isA.1 (show field "ast_type" n' = _ by rw [h6.2.2 "ast_type" (by decide) (by decide)]; exact this)
  simp only [Shows]
  simp only [hob] at hg ⊢
  obtain ⟨hty2, ⟨a', ha', hla⟩, b', hb', hrb⟩ := hg
  rw [field?_eq_field, ha] at ha'
  rw [field?_eq_field, hb] at hb'
  cases ha'
  cases hb'
  exact ⟨⟨_, by rw [field?_eq_field, h6.2.2 "op" (by decide) (by decide)]; exact h1, hox⟩, hty2.imp hty hty,
    ⟨_, by rw [field?_eq_field]; exact h4, hrb⟩, _, by rw [field?_eq_field]; exact h5, hla⟩

theorem mutates_unary (hm : Vyper.mutatorFor env .unaryOp = some m) (hmut : m.isMutable n = true)
    (h : m.mutate n r = .ok (n', res, c, r')) : Mutates (changeOf env.floatText .unaryOp) n n' res.mutatedNodeId := by
  obtain ⟨h1, h2, h3⟩ := C29_vyper hm hmut h
  have hu := kind_isA.1 h1
  rw [← field?_eq_field] at h2
  refine mutates_expr hu (by decide) (fun g hg => ?_) (fun i hi => contains_field h2 (contains_self (by rw [← h3]; exact hi))) h3
  rcases unary_inv hu hg with ⟨e, rfl⟩ | ⟨e, rfl⟩
  · simp only [Shows] at hg
    obtain ⟨_, _, a, ha, he⟩ := hg
    rw [h2] at ha
    cases ha
    exact ⟨e, he, .inl rfl⟩
  · simp only [Shows] at hg
    obtain ⟨_, _, a, ha, he⟩ := hg
    rw [h2] at ha
    cases ha
    exact ⟨e, he, .inr rfl⟩

theorem mutates_functionCall (hm : Vyper.mutatorFor env .functionCall = some m) (hmut : m.isMutable n = true)
    (h : m.mutate n r = .ok (n', res, c, r')) : Mutates (changeOf env.floatText .functionCall) n n' res.mutatedNodeId := by
  obtain ⟨h1, ⟨args, h2, h4⟩, h3⟩ := C38_vyper hm hmut h
  have hu := kind_isA.1 h1
  rw [← field?_eq_field] at h2
  refine mutates_expr hu (by decide) (fun g hg => ?_)
    (fun i hi => contains_field h2 (contains_elem h4 (contains_self (by rw [← h3]; exact hi)))) h3
  obtain ⟨e, es, rfl⟩ := call_inv hu hg
  simp only [Shows] at hg
  obtain ⟨_, _, vs, ks, hvs, _, _, hall⟩ := hg
  rw [h2] at hvs
  cases hvs
  obtain ⟨pre, post, rfl⟩ := List.append_of_mem h4
  rw [List.append_assoc, List.cons_append] at hall
  obtain ⟨p, q, rfl, _, h5⟩ := showAll_split pre hall
  obtain ⟨x, q, rfl, h6, _⟩ := showAll_cons_inv h5
  exact ⟨x, h6, e, _, rfl, by simp⟩

theorem mutates_swapArguments (hm : Vyper.mutatorFor env .swapFunctionArguments = some m) (hmut : m.isMutable n = true)
    (h : m.mutate n r = .ok (n', res, c, r')) : Mutates (changeOf env.floatText .swapFunctionArguments) n n' res.mutatedNodeId := by
  obtain ⟨h1, ⟨args, args', i, k, h2, h3, h4⟩, h5, h6⟩ := C32_vyper_partial hm hmut h
  have hu := kind_isA.1 h1
  have hs := onlyField_sets h5 h3
  rw [← field?_eq_field] at h2
  refine mutates_expr hu (by decide) (fun g hg => ?_) (fun i hi => contains_self (by rw [← h6]; exact hi))
    (by rw [h6, vyperId_onlyField (by decide) h5])
  obtain ⟨e, es, rfl⟩ := call_inv hu hg
  simp only [Shows] at hg
  obtain ⟨_, ⟨v, hv, he⟩, vs, ks, hvs, hks, hno, hall⟩ := hg
  rw [h2] at hvs
  cases hvs
  obtain ⟨pre, a, mid, b, post, _, _, rfl, rfl⟩ := exchanged_parts h4 (fun _ => True) (fun _ _ => trivial) (fun _ _ => trivial)
  have hx : (pre ++ a :: (mid ++ b :: post)) ++ ks = pre ++ a :: (mid ++ b :: (post ++ ks)) := by simp
  have hy : (pre ++ b :: (mid ++ a :: post)) ++ ks = pre ++ b :: (mid ++ a :: (post ++ ks)) := by simp
  rw [hx] at hall
  obtain ⟨es', h7, h8⟩ := showAll_swap hall
  refine ⟨.call e es', ?_, e, es, es', rfl, rfl, h8⟩
  simp only [Shows]
  exact ⟨hs.isA (by decide) hu, ⟨v, by rw [hs.other (by decide)]; exact hv, he⟩, _, ks, hs.field,
    by rw [hs.other (by decide)]; exact hks, .inl (by simp), by rw [hy]; exact h7⟩

theorem mutates_integer (hm : Vyper.mutatorFor env .integer = some m) (hmut : m.isMutable n = true)
    (h : m.mutate n r = .ok (n', res, c, r')) :
    Mutates (changeOf env.floatText .integer) n n' res.mutatedNodeId := by
  obtain ⟨h1, h2, h3, h4⟩ := C36_vyper_partial hm hmut h
  have hu := kind_isA.1 h1
  have hu' : IsA "Int" n' := kind_isA.1 (show field "ast_type" n' = _ by rw [h2.2.2 "ast_type" (by decide)]; exact h1)
  refine mutates_expr hu (by decide) (fun g hg => ?_) (fun i hi => contains_self (by rw [← h3]; exact hi))
    (by rw [h3, vyperId_onlyField (by decide) h2])
  obtain ⟨k, rfl, hk⟩ := int_inv hu hg
  obtain ⟨hf, h5, h6⟩ := int_field hu hk
  obtain ⟨k', hk', h7, h8, _⟩ := h4 k hf h5 h6
  exact ⟨numeral k', shows_numeral hu' (int_get hu' hk' h7 h8), k, k', rfl, rfl⟩

theorem vyperBool_shows {b : Bool} {v : Json} (h : IsVyperBool b v) : Shows (.leaf (if b then "True" else "False")) v := by
  simp only [Shows]
  exact .inr (.inr (.inr ⟨kind_isA.1 h.1, b, by rw [field?_eq_field]; exact h.2, rfl⟩))

theorem mutates_if (hm : Vyper.mutatorFor env .ifStatement = some m) (hmut : m.isMutable n = true)
    (h : m.mutate n r = .ok (n', res, c, r')) : Mutates (changeOf env.floatText .ifStatement) n n' res.mutatedNodeId := by
  obtain ⟨h1, ⟨old, new, h2, h3, h4⟩, h5, _, _, h6⟩ := C35_vyper hm hmut h
  have hu := kind_isA.1 h1
  have hs := onlyField_sets h5 h3
  rw [← field?_eq_field] at h2
  refine ⟨⟨⟨_, by decide, hu⟩, fun f hf => (shows_not hf hu (by decide)).elim, fun s hx => (showsSimple_not hx hu (by decide)).elim,
    fun s hx hst => ?_, fun ds g doc b hd => ?_⟩, fun t ht hn => ?_, fun g mm hf => ?_, fun i hi => contains_self (by rw [← h6]; exact hi),
    fun i hi => contains_self (by rw [← vyperId_onlyField (by decide) h5]; exact hi),
    fun h => absurd (isA_unique hu h) (by decide)⟩
  · cases s with
    | simple x => exact absurd rfl (hx x)
    | for_ => simp only [ShowsStmt] at hst; exact absurd (isA_unique hu hst.1) (by decide)
    | comment => simp only [ShowsStmt] at hst; exact absurd (isA_unique hu hst.1) (by decide)
    | quote => simp only [ShowsStmt] at hst; exact absurd (isA_unique hu hst.1) (by decide)
    | if_ e body els =>
      simp only [ShowsStmt] at hst
      obtain ⟨_, ⟨v, hv, he⟩, ⟨bs, hbs, h7⟩, cs, hcs, h8⟩ := hst
      rw [h2] at hv
      cases hv
      have key : ∀ e', Shows e' new → ShowsStmt (.if_ e' body els) n' := by
        intro e' he'
        simp only [ShowsStmt]
        exact ⟨hs.isA (by decide) hu, ⟨new, hs.field, he'⟩, ⟨bs, by rw [hs.other (by decide)]; exact hbs, h7⟩, cs,
          by rw [hs.other (by decide)]; exact hcs, h8⟩
      rcases h4 with h4 | h4 | ⟨h4, h9, op, h10, h11⟩
      · exact ⟨_, key _ (vyperBool_shows h4), e, _, body, els, rfl, rfl, .inl rfl⟩
      · exact ⟨_, key _ (vyperBool_shows h4), e, _, body, els, rfl, rfl, .inr (.inl rfl)⟩
      · refine ⟨_, key (.not e) ?_, e, _, body, els, rfl, rfl, .inr (.inr rfl)⟩
        simp only [Shows]
        exact ⟨kind_isA.1 h4, ⟨op, by rw [field?_eq_field]; exact h10, kind_isA.1 h11⟩, _, by rw [field?_eq_field]; exact h9, he⟩
  · exact absurd (isA_unique hu hd.1.1) (by decide)
  · have := isA_unique hu hn
    subst this
    exact absurd ht (by decide)
  · simp only [ShowFunctions, and_true] at hf
    exact absurd (isA_unique hu hf.1.1) (by decide)

/-- What is assigned. -/
theorem assignment_value (hm : Vyper.mutatorFor env .assignment = some m) (hmut : m.isMutable n = true)
    (h : m.mutate n r = .ok (n', res, c, r')) : ∃ new, field "value" n' = some new ∧
      ((∃ v, new = Vyper.integerConstantNode env v) ∨ (∃ b, new = Vyper.booleanConstantNode b) ∨
        ∃ d, new = Vyper.floatConstantNode (env.floatText d)) := by
  cases hm
  have hk := vyper_hasType.1 hmut
  simp only [Vyper.assignmentMutate] at h
  split at h
  · cases h
  · split at h
    · rename_i new parts r1 hval
      split at h
      · cases h
      · rename_i new' hnew
        simp only [Outcome.ok.injEq, Prod.mk.injEq] at h
        obtain ⟨rfl, _⟩ := h
        refine ⟨new, ?_, ?_⟩
        · rw [field_setNodeForKey (by decide) "value" new (isVyperKind_isObj hk), if_pos rfl]
        · simp only [Vyper.assignmentValue] at hval
          split at hval
          · split at hval
            · cases hval; exact .inl ⟨_, rfl⟩
            all_goals cases hval
          · split at hval
            · split at hval
              · cases hval; exact .inl ⟨_, rfl⟩
              all_goals cases hval
            · split at hval
              · cases hval; exact .inr (.inl ⟨_, rfl⟩)
              · cases hval; exact .inr (.inr ⟨_, rfl⟩)
    all_goals cases h

theorem int_kind (v : Int) : IsVyperKind "Int" (Vyper.integerConstantNode env v) := by
  unfold IsVyperKind TextField Vyper.integerConstantNode
  simp [field_ofFields, lastField]

theorem decimal_kind (t : String) : IsVyperKind "Decimal" (Vyper.floatConstantNode t) ∧
    TextField "value" (Vyper.floatConstantNode t) t := by
  unfold IsVyperKind TextField Vyper.floatConstantNode
  simp [field_ofFields, lastField]

theorem mutates_assignment (hm : Vyper.mutatorFor env .assignment = some m) (hmut : m.isMutable n = true)
    (h : m.mutate n r = .ok (n', res, c, r')) (hw : ∀ v, Json.field? "value" n' = some v → IsA "Int" v → SmallNumber v) :
    Mutates (changeOf env.floatText .assignment) n n' res.mutatedNodeId := by
  obtain ⟨h1, h2, h3, _⟩ := C37_vyper_partial hm hmut h
  obtain ⟨new, h4, h5⟩ := assignment_value hm hmut h
  have hu := kind_isA.1 h1
  have hs := onlyField_sets h2 h4
  refine ⟨⟨⟨_, by decide, hu⟩, fun f hf => (shows_not hf hu (by decide)).elim, fun s hx => ?_,
    fun s hx hst => ?_, fun ds g doc b hd => ?_⟩, fun t ht hn => hs.isA (by decide) hn, fun g mm hf => ?_,
    fun i hi => contains_self (by rw [← h3]; exact hi),
    fun i hi => contains_self (by rw [← vyperId_onlyField (by decide) h2]; exact hi),
    fun h => absurd (isA_unique hu h) (by decide)⟩
  · have hfin : ∀ v, Shows v new → ∀ ts vs, ShowsSimple (.assign ts vs) n → ShowsSimple (.assign ts [v]) n' := by
      intro v hv ts vs hst
      exact ⟨hs.isA (by decide) hu, rowField_keep hst.2.1 hs (by decide), new, hs.field, .inl ⟨_, rfl, hv⟩⟩
    have hinv : ∃ ts vs, s = .assign ts vs := by
      cases s with
      | assign ts vs => exact ⟨ts, vs, rfl⟩
      | ann => exfalso; rcases hx.2.2 with h | h <;> exact absurd (isA_unique hu h.1) (by decide)
      | pass => exact absurd (isA_unique hu hx) (by decide)
      | «break» => exact absurd (isA_unique hu hx) (by decide)
      | «continue» => exact absurd (isA_unique hu hx) (by decide)
      | _ => exact absurd (isA_unique hu hx.1) (by decide)
    obtain ⟨ts, vs, rfl⟩ := hinv
    rcases h5 with ⟨v, rfl⟩ | ⟨b, rfl⟩ | ⟨d, rfl⟩
    · have hi : IsA "Int" (Vyper.integerConstantNode env v) := kind_isA.1 (int_kind v)
      obtain ⟨k, hk⟩ := hw _ hs.field hi
      exact ⟨_, hfin _ (shows_numeral hi hk) ts vs hx, ts, vs, _, rfl, rfl, .inl ⟨k, rfl⟩⟩
    · refine ⟨_, hfin _ (vyperBool_shows (isVyperBool_mk b)) ts vs hx, ts, vs, _, rfl, rfl, ?_⟩
      cases b
      · exact .inr (.inr (.inl rfl))
      · exact .inr (.inl rfl)
    · exact ⟨_, hfin _ (shows_decimal (kind_isA.1 (decimal_kind _).1) (getStr_of_text (by decide) (decimal_kind _).2)) ts vs hx,
        ts, vs, _, rfl, rfl, .inr (.inr (.inr ⟨d, rfl⟩))⟩
  · exfalso
    cases s with
    | simple x => exact hx x rfl
    | for_ => simp only [ShowsStmt] at hst; exact absurd (isA_unique hu hst.1) (by decide)
    | if_ => simp only [ShowsStmt] at hst; exact absurd (isA_unique hu hst.1) (by decide)
    | comment => simp only [ShowsStmt] at hst; exact absurd (isA_unique hu hst.1) (by decide)
    | quote => simp only [ShowsStmt] at hst; exact absurd (isA_unique hu hst.1) (by decide)
  · exact absurd (isA_unique hu hd.1.1) (by decide)
  · simp only [ShowFunctions, and_true] at hf
    exact absurd (isA_unique hu hf.1.1) (by decide)

theorem mutates_swapLines (hm : Vyper.mutatorFor env .swapLines = some m) (hmut : m.isMutable n = true)
    (h : m.mutate n r = .ok (n', res, c, r')) : Mutates (changeOf env.floatText .swapLines) n n' res.mutatedNodeId := by
  obtain ⟨⟨ss, ss', i, k, a, b, h1, h2, h3, ha, hb, hna, hnb⟩, h4, h5⟩ := C33_vyper hm hmut h
  have htype : ∃ t, IsA t n ∧ (t = "FunctionDef" ∨ t = "For" ∨ t = "If") := by
    cases hm
    simp only [Vyper.swapLinesMutable, Bool.and_eq_true, Bool.or_eq_true] at hmut
    rcases hmut.1 with (h | h) | h
    · exact ⟨_, kind_isA.1 (vyper_hasType.1 h), .inl rfl⟩
    · exact ⟨_, kind_isA.1 (vyper_hasType.1 h), .inr (.inl rfl)⟩
    · exact ⟨_, kind_isA.1 (vyper_hasType.1 h), .inr (.inr rfl)⟩
  obtain ⟨t, hu, hut⟩ := htype
  have hs := onlyField_sets h4 h2
  rw [← field?_eq_field] at h1
  obtain ⟨pre, x, mid, y, post, hx, hy, rfl, rfl⟩ := exchanged_parts h3 (fun x => ¬ IsA "Return" x)
    (fun x hx h => by rw [ha] at hx; cases hx; exact hna (kind_isA.2 h))
    (fun x hx h => by rw [hb] at hx; cases hx; exact hnb (kind_isA.2 h))
  have hte : t ∉ exprTypes := by rcases hut with rfl | rfl | rfl <;> decide
  have hts : t ∉ simpleTypes := by rcases hut with rfl | rfl | rfl <;> decide
  refine ⟨⟨⟨t, by rcases hut with rfl | rfl | rfl <;> decide, hu⟩, fun f hf => (shows_not hf hu hte).elim,
    fun s hx => (showsSimple_not hx hu hts).elim,
    fun s hsx hst => ?_, fun ds g doc b hd => ?_⟩, fun t ht hn => hs.isA (by decide) hn, fun g mm hf => ?_,
    fun i hi => contains_self (by rw [← h5]; exact hi),
    fun i hi => contains_self (by rw [← vyperId_onlyField (by decide) h4]; exact hi),
    fun h => by
      have := isA_unique hu h
      subst this
      exact absurd hut (by decide)⟩
  · cases s with
    | simple x => exact absurd rfl (hsx x)
    | comment =>
      simp only [ShowsStmt] at hst
      have := isA_unique hu hst.1
      subst this
      exact absurd hut (by decide)
    | quote =>
      simp only [ShowsStmt] at hst
      have := isA_unique hu hst.1
      subst this
      exact absurd hut (by decide)
    | for_ v ty it body =>
      simp only [ShowsStmt] at hst
      obtain ⟨ht, h6, ⟨w, hw, h7⟩, bs, hbs, h8⟩ := hst
      rw [h1] at hbs
      cases hbs
      obtain ⟨es', h9, h10⟩ := showStmts_swap hx hy h8
      refine ⟨.for_ v ty it es', ?_, .inl ⟨v, ty, it, body, es', rfl, rfl, h10⟩⟩
      simp only [ShowsStmt]
      exact ⟨hs.isA (by decide) ht, field_keep h6 hs (by decide), ⟨w, by rw [hs.other (by decide)]; exact hw, h7⟩, _, hs.field, h9⟩
    | if_ e body els =>
      simp only [ShowsStmt] at hst
      obtain ⟨ht, h6, ⟨bs, hbs, h8⟩, cs, hcs, h7⟩ := hst
      rw [h1] at hbs
      cases hbs
      obtain ⟨es', h9, h10⟩ := showStmts_swap hx hy h8
      refine ⟨.if_ e es' els, ?_, .inr ⟨e, body, es', els, rfl, rfl, h10⟩⟩
      simp only [ShowsStmt]
      exact ⟨hs.isA (by decide) ht, field_keep h6 hs (by decide), ⟨_, hs.field, h9⟩, cs, by rw [hs.other (by decide)]; exact hcs, h7⟩
  · obtain ⟨hg, ⟨vs, hvs, hds⟩, hdoc, bs, hbs, h8⟩ := hd
    rw [h1] at hbs
    cases hbs
    obtain ⟨es', h9, h10⟩ := showStmts_swap hx hy h8
    exact ⟨.fn ds g doc es', ⟨sig_keep hg hs (by decide) (by decide) (by decide) (by decide),
      ⟨vs, by rw [hs.other (by decide)]; exact hvs, hds⟩, doc_keep hdoc hs (by decide), _, hs.field, h9⟩,
      ds, g, doc, b, es', rfl, rfl, h10⟩
  · simp only [ShowFunctions, and_true] at hf
    obtain ⟨_, _, _, b, hb, _⟩ := hf
    rw [h1] at hb
    simp at hb
    have := congrArg List.length hb
    simp at this
    omega

theorem deleted_parts {i : Nat} {v w : Json} {ss ss' : List Json} (h : ReplacedAt i w ss ss') (hv : ss[i]? = some v) :
    ∃ pre post, ss = pre ++ v :: post ∧ ss' = pre ++ w :: post := by
  obtain ⟨pre, post, h1, _, h3⟩ := getElem?_split hv
  refine ⟨pre, post, h1, ?_⟩
  rw [← h3]
  obtain ⟨hi, hl, hw, ho⟩ := h
  apply List.ext_getElem?
  intro k
  by_cases hk : k = i
  · subst hk
    rw [hw, List.getElem?_set_self hi]
  · rw [ho k hk, List.getElem?_set_ne (Ne.symm hk)]

/-- A node that stands for a statement of one line stands for no other statement. -/
theorem showsStmt_simple {e : Stmt} {s : Simple} {j : Json} (h : ShowsStmt e j) (hs : ShowsSimple s j) :
    ∃ x, e = .simple x ∧ ShowsSimple x j := by
  cases e with
  | simple x => exact ⟨x, rfl, by simpa only [ShowsStmt] using h⟩
  | for_ => rw [ShowsStmt.eq_def] at h; simp only at h; exact (showsSimple_not hs h.1 (by decide)).elim
  | if_ => simp only [ShowsStmt] at h; exact (showsSimple_not hs h.1 (by decide)).elim
  | comment => simp only [ShowsStmt] at h; exact (showsSimple_not hs h.1 (by decide)).elim
  | quote => simp only [ShowsStmt] at h; exact (showsSimple_not hs h.1 (by decide)).elim

theorem showsStmt_typed {e : Stmt} {j : Json} (h : ShowsStmt e j) : ∃ t, IsA t j := by
  cases e with
  | simple x =>
    simp only [ShowsStmt] at h
    obtain ⟨t, _, h⟩ := showsSimple_type h
    exact ⟨t, h⟩
  | for_ => rw [ShowsStmt.eq_def] at h; simp only at h; exact ⟨_, h.1⟩
  | if_ => simp only [ShowsStmt] at h; exact ⟨_, h.1⟩
  | comment => simp only [ShowsStmt] at h; exact ⟨_, h.1⟩
  | quote => simp only [ShowsStmt] at h; exact ⟨_, h.1⟩

theorem showsSimple_return {s : Simple} {j : Json} (h : ShowsSimple s j) (ht : IsA "Return" j) : ∃ vs, s = .ret vs := by
  cases s with
  | ret vs => exact ⟨vs, rfl⟩
  | ann => exfalso; rcases h.2.2 with h | h <;> exact absurd (isA_unique ht h.1) (by decide)
  | pass => exact absurd (isA_unique ht h) (by decide)
  | «break» => exact absurd (isA_unique ht h) (by decide)
  | «continue» => exact absurd (isA_unique ht h) (by decide)
  | _ => exact absurd (isA_unique ht h.1) (by decide)

theorem showStmts_delete {pre post more : List Json} {v w : Json} (hw : IsA "Comment" w) (hwv : Json.field? "value" w = some v)
    (hlen : 2 ≤ (pre ++ v :: post).length → more = [])
    (hmore : more = [] ∨ ∃ x, more = [x] ∧ (IsA "Pass" x ∨ IsA "Return" x))
    (hq : ∀ x ∈ (pre ++ w :: post) ++ more, IsA "Return" x → ∃ s, ShowsSimple s x) {es : List Stmt} (h : ShowStmts es (pre ++ v :: post)) :
    ∃ es', ShowStmts es' ((pre ++ w :: post) ++ more) ∧ Deleted es es' := by
  obtain ⟨a, r, rfl, h1, h2⟩ := showStmts_split pre h
  obtain ⟨e, b, rfl, h3, h4⟩ := showStmts_cons_inv h2
  have hn : ShowsStmt (.quote e) w := by
    simp only [ShowsStmt]
    exact ⟨hw, v, hwv, h3⟩
  have key : ∀ ms, ShowStmts ms more → ShowStmts (a ++ .quote e :: (b ++ ms)) ((pre ++ w :: post) ++ more) := by
    intro ms hms
    rw [List.append_assoc, List.cons_append]
    refine showStmts_join pre h1 ?_
    simp only [ShowStmts]
    exact ⟨hn, showStmts_join post h4 hms⟩
  rcases hmore with rfl | ⟨y, rfl, hy⟩
  · exact ⟨_, key [] (by simp [ShowStmts]), a, e, b, [], rfl, rfl, .inl rfl⟩
  · have hnil : pre = [] ∧ post = [] := by
      cases pre with
      | nil =>
        refine ⟨rfl, ?_⟩
        cases post with
        | nil => rfl
        | cons _ _ => exact absurd (hlen (by simp)) (by simp)
      | cons _ _ => exact absurd (hlen (by simp; omega)) (by simp)
    obtain ⟨rfl, rfl⟩ := hnil
    have ha : a = [] := by
      cases a with
      | nil => rfl
      | cons _ _ => simp [ShowStmts] at h1
    have hb : b = [] := by
      cases b with
      | nil => rfl
      | cons _ _ => simp [ShowStmts] at h4
    rcases hy with hy | hy
    · refine ⟨_, key [.simple .pass] ?_, a, e, b, _, rfl, rfl, .inr ⟨ha, hb, .inl rfl⟩⟩
      simp only [ShowStmts, and_true, ShowsStmt]
      exact hy
    · obtain ⟨s, hs⟩ := hq y (by simp) hy
      obtain ⟨vs, rfl⟩ := showsSimple_return hs hy
      refine ⟨_, key [.simple (.ret vs)] ?_, a, e, b, _, rfl, rfl, .inr ⟨ha, hb, .inr ⟨vs, rfl⟩⟩⟩
      simp only [ShowStmts, and_true, ShowsStmt]
      exact hs

theorem mutates_deleteStatement (hm : Vyper.mutatorFor env .deleteStatement = some m) (hmut : m.isMutable n = true)
    (h : m.mutate n r = .ok (n', res, c, r')) (hw : ∀ xs, Json.field? "body" n' = some (.arr xs) → ∀ x ∈ xs, IsA "Return" x → ∃ s, ShowsSimple s x)
    (hmod : ¬ IsA "Module" n) (hfun : ∀ g m, ¬ ShowFunctions [(g, m)] [n]) :
    Mutates (changeOf env.floatText .deleteStatement) n n' res.mutatedNodeId := by
  obtain ⟨⟨ss, ss', more, i, v, w, h1, h2, h3, hv, hwt, hwv, hid, hlen, hmore, _⟩, h4⟩ := C34_vyper hm hmut h
  have htype : ∃ t, IsA t n ∧ (t = "FunctionDef" ∨ t = "For" ∨ t = "If") := by
    cases hm
    simp only [Vyper.deleteStatementMutable, Bool.and_eq_true, Bool.or_eq_true] at hmut
    rcases hmut.1 with ((h | h) | h) | h
    · exact ⟨_, kind_isA.1 (vyper_hasType.1 h), .inl rfl⟩
    · exact ⟨_, kind_isA.1 (vyper_hasType.1 h), .inr (.inl rfl)⟩
    · exact ⟨_, kind_isA.1 (vyper_hasType.1 h), .inr (.inr rfl)⟩
    · exact absurd (kind_isA.1 (vyper_hasType.1 h)) hmod
  obtain ⟨t, hu, hut⟩ := htype
  have hs := onlyField_sets h4 h2
  have hq := hw _ hs.field
  rw [← field?_eq_field] at h1 hwv
  obtain ⟨pre, post, rfl, rfl⟩ := deleted_parts h3 hv
  have hmore' : more = [] ∨ ∃ x, more = [x] ∧ (IsA "Pass" x ∨ IsA "Return" x) :=
    hmore.imp_right fun ⟨x, g1, g2⟩ => ⟨x, g1, g2.imp kind_isA.1 kind_isA.1⟩
  have hdel := fun es => showStmts_delete (kind_isA.1 hwt) hwv hlen hmore' hq (es := es)
  have hte : t ∉ exprTypes := by rcases hut with rfl | rfl | rfl <;> decide
  have hts : t ∉ simpleTypes := by rcases hut with rfl | rfl | rfl <;> decide
  refine ⟨⟨⟨t, by rcases hut with rfl | rfl | rfl <;> decide, hu⟩, fun f hf => (shows_not hf hu hte).elim,
    fun s hx => (showsSimple_not hx hu hts).elim,
    fun s hsx hst => ?_, fun ds g doc b hd => ?_⟩, fun t ht hn => hs.isA (by decide) hn, hfun,
    fun i hi => contains_field h1 (contains_elem (v := v) (by simp) (contains_self (by rw [← hid]; exact hi))),
    fun i hi => contains_self (by rw [← vyperId_onlyField (by decide) h4]; exact hi), hmod⟩
  · cases s with
    | simple x => exact absurd rfl (hsx x)
    | comment =>
      simp only [ShowsStmt] at hst
      have := isA_unique hu hst.1
      subst this
      exact absurd hut (by decide)
    | quote =>
      simp only [ShowsStmt] at hst
      have := isA_unique hu hst.1
      subst this
      exact absurd hut (by decide)
    | for_ v ty it body =>
      simp only [ShowsStmt] at hst
      obtain ⟨ht, h6, ⟨w, hw, h7⟩, bs, hbs, h8⟩ := hst
      rw [h1] at hbs
      cases hbs
      obtain ⟨es', h9, h10⟩ := hdel _ h8
      refine ⟨.for_ v ty it es', ?_, .inl ⟨v, ty, it, body, es', rfl, rfl, h10⟩⟩
      simp only [ShowsStmt]
      exact ⟨hs.isA (by decide) ht, field_keep h6 hs (by decide), ⟨w, by rw [hs.other (by decide)]; exact hw, h7⟩, _, hs.field, h9⟩
    | if_ e body els =>
      simp only [ShowsStmt] at hst
      obtain ⟨ht, h6, ⟨bs, hbs, h8⟩, cs, hcs, h7⟩ := hst
      rw [h1] at hbs
      cases hbs
      obtain ⟨es', h9, h10⟩ := hdel _ h8
      refine ⟨.if_ e es' els, ?_, .inr ⟨e, body, es', els, rfl, rfl, h10⟩⟩
      simp only [ShowsStmt]
      exact ⟨hs.isA (by decide) ht, field_keep h6 hs (by decide), ⟨_, hs.field, h9⟩, cs, by rw [hs.other (by decide)]; exact hcs, h7⟩
  · obtain ⟨hg, ⟨vs, hvs, hds⟩, hdoc, bs, hbs, h8⟩ := hd
    rw [h1] at hbs
    cases hbs
    obtain ⟨es', h9, h10⟩ := hdel _ h8
    exact ⟨.fn ds g doc es', ⟨sig_keep hg hs (by decide) (by decide) (by decide) (by decide),
      ⟨vs, by rw [hs.other (by decide)]; exact hvs, hds⟩, doc_keep hdoc hs (by decide), _, hs.field, h9⟩,
      .inl ⟨ds, g, doc, b, es', rfl, rfl, h10⟩⟩

/-- Every mutation that can be written in the grammar. -/
theorem mutates {t : MutationType} (hm : Vyper.mutatorFor env t = some m) (hmut : m.isMutable n = true)
    (h : m.mutate n r = .ok (n', res, c, r')) (hw : Writable t n')
    (hmod : ¬ IsA "Module" n) (hfun : ∀ g m, ¬ ShowFunctions [(g, m)] [n]) :
    Mutates (changeOf env.floatText t) n n' res.mutatedNodeId ∨ (Vyper.isBinary n = true ∧ ∀ f, ¬ Shows f n) := by
  by_cases hb : BinaryAlgorithm t
  · left
    have : changeOf env.floatText t = operatorChange t := by
      rcases hb with rfl | rfl | rfl | rfl | rfl <;> rfl
    rw [this]
    exact mutates_binary hb hm hmut h
  · cases t with
    | arithmeticBinaryOp => exact absurd (by simp [BinaryAlgorithm]) hb
    | logicalBinaryOp => exact absurd (by simp [BinaryAlgorithm]) hb
    | bitwiseBinaryOp => exact absurd (by simp [BinaryAlgorithm]) hb
    | bitshiftBinaryOp => exact absurd (by simp [BinaryAlgorithm]) hb
    | comparisonBinaryOp => exact absurd (by simp [BinaryAlgorithm]) hb
    | deleteStatement => exact .inl (mutates_deleteStatement hm hmut h (fun xs hx => (hw.1 rfl xs hx).1) hmod hfun)
    | assignment => exact .inl (mutates_assignment hm hmut h (hw.2 rfl))
    | functionCall => exact .inl (mutates_functionCall hm hmut h)
    | swapFunctionArguments => exact .inl (mutates_swapArguments hm hmut h)
    | ifStatement => exact .inl (mutates_if hm hmut h)
    | integer => exact .inl (mutates_integer hm hmut h)
    | swapOperatorArguments =>
      by_cases hf : ∃ f, Shows f n
      · obtain ⟨f, hf⟩ := hf
        exact .inl (mutates_swapOperands hm hmut h f hf)
      · refine .inr ⟨?_, fun f h => hf ⟨f, h⟩⟩
        cases hm
        simp only [Vyper.swapOperandsMutable, Vyper.swapOperandsTest] at hmut
        by_cases hb : Vyper.isBinary n = true
        · exact hb
        · simp [hb] at hmut
    | swapLines => exact .inl (mutates_swapLines hm hmut h)
    | unaryOp => exact .inl (mutates_unary hm hmut h)
    | require => cases hm
    | uncheckedBlock => cases hm
    | elimDelegateCall => cases hm

/-! ### Nodes that the program does not show -/

/-- No change at all. -/
def noChange : Change := {}

theorem inStmt_never {s s' : Stmt} (h : InStmt noChange s s') : False := by
  have he : ∀ e e', ¬ noChange.expr e e' := fun _ _ h => h
  have hs : ∀ e e', ¬ noChange.simple e e' := fun _ _ h => h
  induction h with
  | here h => exact h
  | simple h => exact inSimple_none he hs h
  | quote _ ih => exact ih
  | forType h => exact inOption_none he h
  | forOver h => exact inExpr_none he h
  | forBody _ ih => exact ih
  | ifTest h => exact inExpr_none he h
  | ifBody _ ih => exact ih
  | ifElse _ ih => exact ih

theorem inProgram_never {s s' : Program} (h : InProgram noChange s s') : False := by
  have he : ∀ e e', ¬ noChange.expr e e' := fun _ _ h => h
  have hs : ∀ e e', ¬ noChange.simple e e' := fun _ _ h => h
  cases h with
  | mk h =>
    induction h with
    | here h => exact h
    | simple h => exact inSimple_none he hs h
    | quote _ ih => exact ih
    | field h => exact inSimple_none he hs h
    | function h => exact inSig_none he h
    | decorator h => exact inRow_none he h
    | sig h => exact inSig_none he h
    | body h => exact inStmt_never h

/-- A binary node in the program stands for an expression. -/
theorem binary_shown {a : Program} {j : Json} {p : Pos} (h : ShowsProgram a j) (hp : PartAt n p j) {t : String} (ht : IsA t n)
    (hw : t = "BinOp" ∨ t = "BoolOp" ∨ t = "Compare") : ∃ f, Shows f n := by
  refine Classical.byContradiction fun hno => ?_
  have hc : Carries noChange n n := carries_expr ht (binary_types hw) fun f hf => absurd ⟨f, hf⟩ hno
  have hne : p ≠ [] := by
    rintro rfl
    have : j = n := by simpa [nodeAt] using hp.1
    subst this
    have := isA_unique ht h.1
    subst this
    exact absurd hw (by decide)
  have hint : IsA "Int" n → a.Ok := fun hi => by
    have := isA_unique ht hi
    subst this
    exact absurd hw (by decide)
  rcases program_edit hc h hint hp hne with ⟨a', _, h2⟩ | ⟨bs, d, _, _, _, _, _, fs, _, _, g, m, h6⟩
  · exact inProgram_never h2
  · simp only [ShowFunctions, and_true] at h6
    have := isA_unique ht h6.1.1
    subst this
    exact absurd hw (by decide)

/-! ### Interfaces -/

theorem showDecls_mem : (ds : List Decl) → {bs : List Json} → ShowDecls ds bs → {u : Json} → u ∈ bs → ∃ e ∈ ds, ShowsDecl e u
  | [], [], _, _, h => by cases h
  | [], _ :: _, h, _, _ => by simp [ShowDecls] at h
  | _ :: _, [], h, _, _ => by simp [ShowDecls] at h
  | e :: ds, b :: bs, h, u, hu => by
    simp only [ShowDecls] at h
    rcases List.mem_cons.1 hu with rfl | hu
    · exact ⟨e, List.mem_cons_self, h.1⟩
    · obtain ⟨x, h1, h2⟩ := showDecls_mem ds h.2 hu
      exact ⟨x, List.mem_cons_of_mem _ h1, h2⟩

theorem showFunctions_mem : (ds : List (Sig × String)) → {bs : List Json} → ShowFunctions ds bs → {u : Json} → u ∈ bs →
    ∃ e ∈ ds, ShowFunctions [e] [u]
  | [], [], _, _, h => by cases h
  | [], _ :: _, h, _, _ => by simp [ShowFunctions] at h
  | _ :: _, [], h, _, _ => by simp [ShowFunctions] at h
  | (g, m) :: ds, b :: bs, h, u, hu => by
    rw [showFunctions_cons] at h
    rcases List.mem_cons.1 hu with rfl | hu
    · exact ⟨_, List.mem_cons_self, h.1⟩
    · obtain ⟨x, h1, h2⟩ := showFunctions_mem ds h.2 hu
      exact ⟨x, List.mem_cons_of_mem _ h1, h2⟩

theorem decl_type {d : Decl} {j : Json} (h : ShowsDecl d j) : ∃ t, IsA t j ∧
    (t ∈ wholeTypes → t = "FunctionDef" ∨ t = "Assign") ∧ (t = "InterfaceDef" → ∃ n fs, d = .interface n fs) ∧
    (t = "Comment" → (∃ x, d = .comment x) ∨ ∃ x, d = .quote x) := by
  cases d with
  | simple s =>
    obtain ⟨t, h1, h2⟩ := showsSimple_type h
    refine ⟨t, h2, fun h3 => ?_, fun h3 => ?_, fun h3 => ?_⟩
    · have : ∀ t ∈ simpleTypes, t ∈ wholeTypes → t = "FunctionDef" ∨ t = "Assign" := by decide
      exact this t h1 h3
    · subst h3; exact absurd h1 (by decide)
    · subst h3; exact absurd h1 (by decide)
  | block k n fs =>
    refine ⟨_, h.1, fun h3 => absurd h3 (blockType_parts k).2, fun h3 => ?_, fun h3 => ?_⟩ <;>
    · unfold blockType at h3
      split at h3
      · exact absurd h3 (by decide)
      · split at h3 <;> exact absurd h3 (by decide)
  | interface n fs => exact ⟨_, h.1, fun h3 => absurd h3 (by decide), fun _ => ⟨n, fs, rfl⟩, fun h3 => absurd h3 (by decide)⟩
  | fn ds g doc b => exact ⟨_, h.1.1, fun _ => .inl rfl, fun h3 => absurd h3 (by decide), fun h3 => absurd h3 (by decide)⟩
  | comment t =>
    exact ⟨_, h.1, fun h3 => absurd h3 (by decide), fun h3 => absurd h3 (by decide), fun _ => .inl ⟨t, rfl⟩⟩
  | quote t =>
    exact ⟨_, h.1, fun h3 => absurd h3 (by decide), fun h3 => absurd h3 (by decide), fun _ => .inr ⟨t, rfl⟩⟩

theorem mem_set_cases {α : Type} {xs : List α} {i : Nat} {a x : α} (h : x ∈ xs.set i a) : x ∈ xs ∨ x = a :=
  List.mem_or_eq_of_mem_set h

/-- The id is in the body of a function of the interface, which may be quoted. -/
def BodyIn (i : Nat) (u : Json) : Prop :=
  ∃ d fs f xs x, Held u d ∧ IsA "InterfaceDef" d ∧ Json.field? "body" d = some (.arr fs) ∧ f ∈ fs ∧
    Json.field? "body" f = some (.arr xs) ∧ x ∈ xs ∧ ContainsId vyperId i x

theorem inInterface_iff {i : Nat} {j : Json} : InInterface i j ↔ ∃ bs u, Json.field? "body" j = some (.arr bs) ∧ u ∈ bs ∧ BodyIn i u := by
  constructor
  · rintro ⟨bs, d0, d, fs, f, xs, x, h1, h2, h3, h4, h5, h6, h7, h8, h9⟩
    exact ⟨bs, d0, h1, h2, d, fs, f, xs, x, h3, h4, h5, h6, h7, h8, h9⟩
  · rintro ⟨bs, d0, h1, h2, d, fs, f, xs, x, h3, h4, h5, h6, h7, h8, h9⟩
    exact ⟨bs, d0, d, fs, f, xs, x, h1, h2, h3, h4, h5, h6, h7, h8, h9⟩

/-- The bodies of functions in an interface are not touched. -/
theorem bodyIn_edit {ch : Change} {id : Option Nat} {i : Nat} (hmu : Mutates ch n n' id) (e : Decl) {u : Json} {q : Pos}
    (hsh : ShowsDecl e u) (hok : IsA "Int" n → e.Ok) (hq : PartAt n q u) (hi : BodyIn i (replaceAt q n' u)) : BodyIn i u := by
  have hc := hmu.carries
  induction e generalizing u q with
  | comment t => exact (note_edit hc hsh hq).elim
  | quote d ih =>
    obtain ⟨ht, v, hv, h1⟩ := hsh
    rcases at_node hq ht with ⟨rfl, rfl⟩ | ⟨k, w, q2, hk, hf, hq2, hs⟩
    · exact (hc.not ht (by decide)).elim
    rw [show partsOf "Comment" = ["value"] from by decide, List.mem_singleton] at hk
    subst hk
    rw [hv] at hf
    cases hf
    have ht' := (hs n').isA (by decide) ht
    obtain ⟨d1, fs, f, xs, x, h2, h3, h4⟩ := hi
    cases h2 with
    | here => exact absurd (isA_unique ht' h3) (by decide)
    | comment _ h5 h6 =>
      rw [(hs n').field] at h5
      cases h5
      obtain ⟨d2, fs2, f2, xs2, x2, h7, h8⟩ := ih h1 (fun h => (hok h).1) hq2 ⟨d1, fs, f, xs, x, h6, h3, h4⟩
      exact ⟨d2, fs2, f2, xs2, x2, .comment ht hv h7, h8⟩
  | _ =>
    obtain ⟨d, fs, f, xs, x, hheld, hdt, hfs, hf, hxs, hx, hid⟩ := hi
    obtain ⟨t, ht1, ht2, ht3, ht0⟩ := decl_type hsh
    have htc : t ≠ "Comment" := by
      intro h
      rcases ht0 h with ⟨x, h⟩ | ⟨x, h⟩ <;> cases h
    rcases at_node hq ht1 with ⟨rfl, rfl⟩ | ⟨k, w, q3, hk, hw, hq3, hs3⟩
    · exfalso
      obtain ⟨t', h5, h6⟩ := hc.whole
      have := isA_unique ht1 h6
      subst this
      have h7 := hmu.keeps t (ht2 h5) ht1
      cases hheld with
      | here =>
        have h8 := isA_unique h7 hdt
        rcases ht2 h5 with h | h <;> rw [h] at h8 <;> exact absurd h8 (by decide)
      | comment h9 => exact htc (isA_unique h7 h9)
    have ht5 := (hs3 n').isA (parts_not_type hk) ht1
    cases hheld with
    | comment h9 => exact (htc (isA_unique ht5 h9)).elim
    | here =>
    have ht4 := isA_unique ht5 hdt
    obtain ⟨nm, gs, he⟩ := ht3 ht4
    rw [he] at hsh hok
    subst ht4
    rw [show partsOf "InterfaceDef" = ["body"] from by decide, List.mem_singleton] at hk
    subst hk
    obtain ⟨_, _, fs0, hfs0, hgs⟩ := hsh
    rw [hfs0] at hw
    cases hw
    obtain ⟨i2, v, q4, h5, h6, h7⟩ := at_arr hc.typed hq3
    rw [(hs3 n').field, h7] at hfs
    cases hfs
    rcases mem_set_cases hf with hf | rfl
    · exact ⟨u, fs0, f, xs, x, .here, ht1, hfs0, hf, hxs, hx, hid⟩
    have hv : v ∈ fs0 := List.mem_of_getElem? h5
    obtain ⟨⟨g, m⟩, hgm, hshf⟩ := showFunctions_mem _ hgs hv
    have hshf' := hshf
    simp only [ShowFunctions, and_true] at hshf'
    obtain ⟨hg, _, _, b, hb, hbe, hbm⟩ := hshf'
    rcases at_node h6 hg.1 with ⟨rfl, rfl⟩ | ⟨k, w, q5, hk, hw, hq5, hs5⟩
    · exact absurd hshf (hmu.function g m)
    by_cases hkb : k = "body"
    · exfalso
      subst hkb
      rw [hb] at hw
      cases hw
      obtain ⟨i3, y, q6, h8, h9, _⟩ := at_arr hc.typed hq5
      obtain ⟨rfl, rfl⟩ := single_arr h8
      rcases at_node h9 hbe with ⟨rfl, rfl⟩ | ⟨k, w, q7, hk, hw, hq7, _⟩
      · exact hc.not hbe (by decide)
      · rw [show partsOf "Expr" = ["value"] from by decide, List.mem_singleton] at hk
        subst hk
        obtain ⟨z, hz, hzm⟩ := hbm
        rw [hz] at hw
        cases hw
        exact name_edit hc (fun hint => ((hok hint).2.2.1 _ hgm).2) hzm hq7
    · rw [(hs5 n').other (Ne.symm hkb)] at hxs
      exact ⟨u, fs0, v, xs, x, .here, ht1, hfs0, hv, hxs, hx, hid⟩

/-- The bodies of functions in interfaces are not touched. -/
theorem interface_edit {ch : Change} {id : Option Nat} {a : Program} {j : Json} {p : Pos} {i : Nat} (hmu : Mutates ch n n' id)
    (h : ShowsProgram a j) (hok : IsA "Int" n → a.Ok) (hp : PartAt n p j) (hne : p ≠ []) (hi : InInterface i (replaceAt p n' j)) :
    InInterface i j := by
  have hc := hmu.carries
  obtain ⟨ht, _, bs0, hbs0, hall⟩ := h
  rw [inInterface_iff] at hi ⊢
  obtain ⟨bs, d, hbs, hd, hbody⟩ := hi
  rcases at_node hp ht with ⟨rfl, _⟩ | ⟨k, w, q, hk, hw, hq, hs⟩
  · exact absurd rfl hne
  rw [show partsOf "Module" = ["body"] from by decide, List.mem_singleton] at hk
  subst hk
  rw [hbs0] at hw
  cases hw
  obtain ⟨i1, u, q2, h1, h2, h3⟩ := at_arr hc.typed hq
  rw [(hs n').field, h3] at hbs
  cases hbs
  rcases mem_set_cases hd with hd | rfl
  · exact ⟨bs0, d, hbs0, hd, hbody⟩
  have hu : u ∈ bs0 := List.mem_of_getElem? h1
  obtain ⟨e, he, hsh⟩ := showDecls_mem _ hall hu
  exact ⟨bs0, u, hbs0, hu, bodyIn_edit hmu e hsh (fun hint => (hok hint).2 _ he) h2 hbody⟩

/-! ### Comments -/

theorem commentNode_type (text : String) : IsA "Comment" (Vyper.commentNode text) ∧
    Json.field? "value" (Vyper.commentNode text) = some (.str text) := by
  have hj : IsVyperKind "Comment" (Vyper.commentNode text) ∧ field "value" (Vyper.commentNode text) = some (.str text) := by
    unfold Vyper.commentNode
    have hobj : IsObj (.ofFields [("node_id", Vyper.jint 9999996), ("ast_type", .str "Comment"), ("value", .null)]) := trivial
    constructor
    · unfold IsVyperKind TextField
      rw [field_setNodeForKey (k := "value") (by decide) _ _ hobj, if_neg (by decide)]
      simp [field_ofFields, lastField]
    · rw [field_setNodeForKey (k := "value") (by decide) _ _ hobj, if_pos rfl]
  exact ⟨kind_isA.1 hj.1, by rw [field?_eq_field]; exact hj.2⟩

/-- The comments about mutations are texts. -/
theorem comment_text {t : MutationType} {c : Json} (hm : Vyper.mutatorFor env t = some m) (h : m.mutate n r = .ok (n', res, some c, r')) :
    ∃ text, c = Vyper.commentNode text := by
  cases t with
  | arithmeticBinaryOp | logicalBinaryOp | bitwiseBinaryOp | bitshiftBinaryOp | comparisonBinaryOp =>
    cases hm
    simp only [Vyper.binaryOpMutate] at h
    repeat' split at h
    all_goals first | (cases h; done) | (cases h; exact ⟨_, rfl⟩)
  | assignment =>
    cases hm
    simp only [Vyper.assignmentMutate] at h
    repeat' split at h
    all_goals first | (cases h; done) | (cases h; exact ⟨_, rfl⟩)
  | deleteStatement =>
    cases hm
    simp only [Vyper.deleteStatementMutate] at h
    repeat' split at h
    all_goals first | (cases h; done) | (cases h; exact ⟨_, rfl⟩)
  | functionCall =>
    cases hm
    simp only [Vyper.functionCallMutate] at h
    repeat' split at h
    all_goals first | (cases h; done) | (cases h; exact ⟨_, rfl⟩)
  | swapFunctionArguments =>
    cases hm
    simp only [Vyper.swapArgumentsMutate] at h
    repeat' split at h
    all_goals first | (cases h; done) | (cases h; exact ⟨_, rfl⟩)
  | ifStatement =>
    cases hm
    simp only [Vyper.ifMutate] at h
    repeat' split at h
    all_goals first | (cases h; done) | (cases h; exact ⟨_, rfl⟩)
  | integer =>
    cases hm
    simp only [Vyper.integerMutate] at h
    repeat' split at h
    all_goals first | (cases h; done) | (cases h; exact ⟨_, rfl⟩)
  | swapOperatorArguments =>
    cases hm
    simp only [Vyper.swapOperandsMutate] at h
    repeat' split at h
    all_goals first | (cases h; done) | (cases h; exact ⟨_, rfl⟩)
  | swapLines =>
    cases hm
    simp only [Vyper.swapLinesMutate] at h
    repeat' split at h
    all_goals first | (cases h; done) | (cases h; exact ⟨_, rfl⟩)
  | unaryOp =>
    cases hm
    simp only [Vyper.unaryOpMutate] at h
    repeat' split at h
    all_goals first | (cases h; done) | (cases h; exact ⟨_, rfl⟩)
  | require => cases hm
  | uncheckedBlock => cases hm
  | elimDelegateCall => cases hm

end VyPrint
end Mutagenyx
