import Verif.Spec.SolidityExpr

/-!
# Reading the tokens of an expression gives the expression
-/

namespace Mutagenyx
namespace SolGrammar

/-- Operators that bind at least as strongly as `k` and suffixes do not follow. -/
def Stop (k : Nat) (rest : List String) : Prop :=
  ∀ t ts, rest = t :: ts → (∀ o, operator? t = some o → o.level < k) ∧ (t = "?" → 1 < k) ∧
    t ≠ "." ∧ t ≠ "[" ∧ t ≠ "(" ∧ t ≠ "++" ∧ t ≠ "--" ∧ t ≠ "{" ∧ t ∉ units

theorem Stop.mono {k l : Nat} {rest : List String} (h : Stop k rest) (hkl : k ≤ l) : Stop l rest :=
  fun t ts ht => ⟨fun o ho => Nat.lt_of_lt_of_le ((h t ts ht).1 o ho) hkl,
    fun hq => Nat.lt_of_lt_of_le ((h t ts ht).2.1 hq) hkl, (h t ts ht).2.2⟩

theorem stop_nil : Stop 0 [] := fun _ _ h => by cases h

theorem stop_cons {t : String} (h : t = ")" ∨ t = "]" ∨ t = "," ∨ t = ":" ∨ t = "}") (ts : List String) : Stop 0 (t :: ts) := by
  intro u us hu
  cases hu
  rcases h with rfl | rfl | rfl | rfl | rfl <;>
    exact ⟨fun o ho => absurd ho (by cases o <;> decide), by decide, by decide, by decide, by decide, by decide, by decide, by decide,
      by decide⟩

theorem operator_text (o : Operator) : operator? o.text = some o := by cases o <;> decide

theorem stop_operator {k : Nat} (o : Operator) (ts : List String) (h : o.level < k) : Stop k (o.text :: ts) := by
  intro t us ht
  cases ht
  refine ⟨fun o' ho => ?_, ?_⟩
  · rw [operator_text] at ho
    cases ho
    exact h
  · cases o <;> exact ⟨fun h => absurd h (by decide), by decide, by decide, by decide, by decide, by decide, by decide, by decide⟩

theorem stop_question {k : Nat} (ts : List String) (h : 1 < k) : Stop k ("?" :: ts) := by
  intro t us ht
  cases ht
  exact ⟨fun o ho => absurd ho (by cases o <;> decide), fun _ => h, by decide, by decide, by decide, by decide, by decide, by decide, by decide⟩

theorem suffixes_stop {k : Nat} {rest : List String} (h : Stop k rest) (e : Expr) {f : Nat} (hf : 1 ≤ f) :
    readSuffixes f e rest = some (e, rest) := by
  obtain ⟨f, rfl⟩ : ∃ g, f = g + 1 := ⟨f - 1, by omega⟩
  cases rest with
  | nil => rw [readSuffixes.eq_def]
  | cons t ts =>
    obtain ⟨_, _, h1, h2, h3, h4, h5, h6, _⟩ := h t ts rfl
    rw [readSuffixes.eq_def]
    simp [h1, h2, h3, h4, h5, h6]

theorem operators_stop {m top : Nat} {rest : List String} (h : Stop m rest) (e : Expr) {f : Nat} (hf : 1 ≤ f) :
    readOperators f m top e rest = some (e, rest) := by
  obtain ⟨f, rfl⟩ : ∃ g, f = g + 1 := ⟨f - 1, by omega⟩
  cases rest with
  | nil => rw [readOperators.eq_def]
  | cons t ts =>
    obtain ⟨h1, h2, _⟩ := h t ts rfl
    rw [readOperators.eq_def]
    simp only
    cases ho : operator? t with
    | none =>
      simp only
      rw [if_neg (fun ⟨a, b, _⟩ => by have := h2 a; omega)]
    | some o =>
      have := h1 o ho
      simp only
      rw [if_neg (by omega)]

/-- Operators up to this strength, exclusively, may follow. -/
def cap : Expr → Nat
  | .bin _ o _ => o.right
  | .cond _ _ _ => 1
  | _ => 13

/-- The strongest operator that may have the expression as its left operand. -/
def top : Expr → Nat
  | .bin _ o _ => o.next
  | .cond _ _ _ => 0
  | _ => 12

/-- The expression is read from its tokens as a left operand. -/
def ReadOps (e : Expr) : Prop := ∀ m rest f, m ≤ strength e → Stop (cap e) rest → 4 * (strE e).length + 2 ≤ f →
  ∃ g, f ≤ g + 4 * (strE e).length ∧ readExpr f m (strE e ++ rest) = readOperators g m (top e) e rest

/-- The first of the tokens does not continue the expression itself. -/
def Ready (e : Expr) (rest : List String) : Prop :=
  ∀ t ts, rest = t :: ts → t ∉ units ∧ (isNew e = true → t ≠ "." ∧ t ≠ "[")

theorem ready_stop {k : Nat} {e : Expr} {rest : List String} (h : Stop k rest) : Ready e rest := fun t ts ht => by
  obtain ⟨_, _, h1, h2, _, _, _, _, h3⟩ := h t ts ht
  exact ⟨h3, fun _ => ⟨h1, h2⟩⟩

theorem ready_cons {e : Expr} {t : String} (h : t ∈ ["(", "{"] ∨ isNew e = false ∧ t ∈ [".", "[", "++", "--"]) (ts : List String) :
    Ready e (t :: ts) := by
  intro u us hu
  cases hu
  simp only [List.mem_cons, List.not_mem_nil, or_false] at h
  rcases h with (rfl | rfl) | ⟨hn, rfl | rfl | rfl | rfl⟩ <;>
    first
      | exact ⟨by decide, fun _ => ⟨by decide, by decide⟩⟩
      | exact ⟨by decide, fun h => by rw [hn] at h; cases h⟩

/-- The expression is read from its tokens before suffixes. -/
def ReadPrimary (e : Expr) : Prop := primary e = true → ∀ rest f, Ready e rest → 4 * (strE e).length ≤ f →
  ∃ g, f + 3 ≤ g + 4 * (strE e).length ∧ readPrefix f (strE e ++ rest) = readSuffixes g e rest

/-- Both. -/
def Reads (e : Expr) : Prop := ReadOps e ∧ ReadPrimary e

/-- Arguments are read from their tokens. -/
def ReadsArgs (es : List Expr) : Prop := ∀ rest f, 4 * (strArgs es).length + 4 ≤ f →
  readArguments f (strArgs es ++ (")" :: rest)) = some (es, rest)

/-- Further arguments are read from their tokens. -/
def ReadsRest (es : List Expr) : Prop := ∀ e rest f g, 4 * (strRest es).length + 4 ≤ f →
  readExpr f 0 g = some (e, strRest es ++ (")" :: rest)) → ∀ t ts, g = t :: ts → t ≠ ")" →
  readArguments (f + 1) g = some (e :: es, rest)

theorem isLeaf_ne {t : String} (h : isLeaf t = true) : prefix? t = none ∧ t ≠ "(" ∧ t ≠ ")" ∧ t ≠ "," ∧ t ≠ "]" ∧ t ≠ "{" ∧ t ≠ "new" := by
  refine ⟨?_, ?_, ?_, ?_, ?_, ?_, ?_⟩
  · have : ∀ u : Prefix, u.text ≠ t := by
      rintro u rfl
      revert h
      cases u <;> decide
    simp [prefix?, this]
  all_goals (rintro rfl; exact absurd h (by decide))

theorem isName_leaf {t : String} (h : isName t = true) : isLeaf t = true := by
  unfold isName at h
  simp only [Bool.and_eq_true] at h
  exact h.1

theorem level_bounds (o : Operator) : 1 ≤ o.level ∧ o.level ≤ 12 := by cases o <;> decide

theorem right_bounds (o : Operator) : o.level ≤ o.right ∧ o.right ≤ 12 := by cases o <;> decide

theorem strength_cap (e : Expr) (m : Nat) (h : m ≤ strength e) (hm : m ≤ 13) : m ≤ cap e := by
  cases e <;> simp only [strength, cap] at h ⊢ <;> try omega
  rename_i o _
  have := right_bounds o
  omega

theorem primary_facts {e : Expr} (h : primary e = true) : strength e = 14 ∧ cap e = 13 ∧ top e = 12 := by
  cases e <;> first | exact ⟨rfl, rfl, rfl⟩ | cases h

/-- An operand. -/
theorem read_at {e : Expr} (h : ReadOps e) {m : Nat} {rest : List String} {f : Nat} (hm : m ≤ strength e) (hm' : m ≤ 13)
    (hs : Stop m rest) (hf : 4 * (strE e).length + 2 ≤ f) : readExpr f m (strE e ++ rest) = some (e, rest) := by
  obtain ⟨g, hg, h1⟩ := h m rest f hm (hs.mono (strength_cap e m hm hm')) hf
  rw [h1]
  exact operators_stop hs e (by omega)

theorem reads_of_primary {e : Expr} (hp : primary e = true) (h : ReadPrimary e) (hlen : 1 ≤ (strE e).length) : Reads e := by
  refine ⟨fun m rest f hm hs hf => ?_, h⟩
  obtain ⟨f, rfl⟩ : ∃ g, f = g + 1 := ⟨f - 1, by omega⟩
  obtain ⟨g, hg, h1⟩ := h hp rest f (ready_stop hs) (by omega)
  refine ⟨f, by omega, ?_⟩
  rw [readExpr.eq_2, h1, suffixes_stop hs e (by omega), (primary_facts hp).2.2]

theorem left_facts {l : Expr} {o : Operator} (h : o.left ≤ strength l) : o.level < cap l ∧ o.level ≤ top l := by
  have hb := level_bounds o
  have : o.level ≤ o.left := by unfold Operator.left; split <;> omega
  cases l with
  | bin a p b =>
    have hp := level_bounds p
    simp only [strength, cap, top, Operator.left, Operator.right, Operator.next, Operator.toRight, Bool.or_eq_true, beq_iff_eq] at h ⊢
    split at h <;> split <;> omega
  | cond a b c =>
    simp only [strength, Operator.left, Operator.toRight, Bool.or_eq_true, beq_iff_eq] at h
    split at h <;> omega
  | _ => simp only [cap, top]; omega

theorem quoted_chars (t : String) : (quoted t).toList = '"' :: (t.toList ++ ['"']) := by
  simp [quoted]

theorem quoted_ne {t u : String} (h : u.toList.head? ≠ some '"') : quoted t ≠ u := by
  rintro rfl
  rw [quoted_chars] at h
  exact h rfl

theorem literal_quoted (t : String) : literal? (quoted t) = some t := by
  simp [literal?, quoted_chars]

theorem quoted_leaf (t : String) : isLeaf (quoted t) = false := by
  have : wordChar '"' = false := by decide
  simp [isLeaf, quoted_chars, this]

theorem prefix_quoted (t : String) : prefix? (quoted t) = none := by
  have : ∀ u : Prefix, u.text ≠ quoted t := fun u h => by
    have h := congrArg (·.toList.head?) h
    simp only [quoted_chars, List.head?_cons] at h
    cases u <;> exact absurd h (by decide)
  simp [prefix?, this]

theorem strE_cons : (e : Expr) → Plain e → ∃ t ts, strE e = t :: ts ∧ t ≠ ")" ∧ t ≠ "," ∧ t ≠ "]" ∧ t ≠ "{"
  | .leaf t, h => ⟨t, [], by simp [strE], by
      obtain ⟨_, _, h1, h2, h3, h4, _⟩ := isLeaf_ne (t := t) (by simpa [Plain] using h)
      exact ⟨h1, h2, h3, h4⟩⟩
  | .unit n u, h => ⟨n, [u], by simp [strE], by
      obtain ⟨_, _, h1, h2, h3, h4, _⟩ := isLeaf_ne (t := n) (by simp only [Plain] at h; exact h.1)
      exact ⟨h1, h2, h3, h4⟩⟩
  | .str t, _ => ⟨_, _, by rw [strE], quoted_ne (by decide), quoted_ne (by decide), quoted_ne (by decide), quoted_ne (by decide)⟩
  | .new_ _ _, _ => ⟨_, _, by rw [strE], by decide⟩
  | .hole, h => by simp only [Plain] at h
  | .paren e, _ => ⟨_, _, by rw [strE], by decide⟩
  | .tuple e, _ => ⟨_, _, by rw [strE], by decide⟩
  | .member e id, h => by
    simp only [Plain] at h
    obtain ⟨t, ts, h1, h2⟩ := strE_cons e h.2.2.2
    exact ⟨t, _, by simp only [strE, h1, List.cons_append]; rfl, h2⟩
  | .index e i, h => by
    simp only [Plain] at h
    obtain ⟨t, ts, h1, h2⟩ := strE_cons e h.2.2.1
    exact ⟨t, _, by simp only [strE, h1, List.cons_append]; rfl, h2⟩
  | .emptyIndex e, h => by
    simp only [Plain] at h
    obtain ⟨t, ts, h1, h2⟩ := strE_cons e h.2.2
    exact ⟨t, _, by simp only [strE, h1, List.cons_append]; rfl, h2⟩
  | .call e i, h => by
    simp only [Plain] at h
    obtain ⟨t, ts, h1, h2⟩ := strE_cons e h.2.1
    exact ⟨t, _, by simp only [strE, h1, List.cons_append]; rfl, h2⟩
  | .named e _ i, h => by
    simp only [Plain] at h
    obtain ⟨t, ts, h1, h2⟩ := strE_cons e h.2.2.2.2.1
    exact ⟨t, _, by simp only [strE, h1, List.cons_append]; rfl, h2⟩
  | .options e _ i, h => by
    simp only [Plain] at h
    obtain ⟨t, ts, h1, h2⟩ := strE_cons e h.2.2.2.2.1
    exact ⟨t, _, by simp only [strE, h1, List.cons_append]; rfl, h2⟩
  | .post e u, h => by
    simp only [Plain] at h
    obtain ⟨t, ts, h1, h2⟩ := strE_cons e h.2.2
    exact ⟨t, _, by simp only [strE, h1, List.cons_append]; rfl, h2⟩
  | .bin l o r, h => by
    simp only [Plain] at h
    obtain ⟨t, ts, h1, h2⟩ := strE_cons l h.2.2.1
    exact ⟨t, _, by simp only [strE, h1, List.cons_append]; rfl, h2⟩
  | .cond l o r, h => by
    simp only [Plain] at h
    obtain ⟨t, ts, h1, h2⟩ := strE_cons l h.2.1
    exact ⟨t, _, by simp only [strE, h1, List.cons_append]; rfl, h2⟩
  | .pre u e, _ => ⟨_, _, by rw [strE], by cases u <;> decide⟩

theorem strE_length {e : Expr} (h : Plain e) : 1 ≤ (strE e).length := by
  obtain ⟨t, ts, h1, _⟩ := strE_cons e h
  rw [h1]
  simp

theorem readPath_toks : (p : List String) → p ≠ [] → (∀ n ∈ p, isName n = true) → (rest : List String) →
    (∀ t ts, rest = t :: ts → t ≠ ".") → readPath (pathToks p ++ rest) = some (p, rest)
  | [], h, _, _, _ => absurd rfl h
  | [n], _, hn, rest, hr => by
    have h1 := hn n (List.mem_cons_self ..)
    simp only [pathToks, List.map_cons, List.map_nil, sepBy, List.cons_append, List.nil_append]
    match rest, hr with
    | [], _ => simp [readPath, h1]
    | [t], hr => simp [readPath, h1, hr t [] rfl]
    | t :: m :: ts, hr => simp [readPath, h1, hr t _ rfl]
  | n :: m :: p, _, hn, rest, hr => by
    have h1 := hn n (List.mem_cons_self ..)
    have ih := readPath_toks (m :: p) (by simp) (fun x hx => hn x (List.mem_cons_of_mem _ hx)) rest hr
    obtain ⟨us, hus⟩ : ∃ us, pathToks (m :: p) ++ rest = m :: us := by
      cases p with
      | nil => exact ⟨_, rfl⟩
      | cons k p => exact ⟨_, rfl⟩
    have h2 : pathToks (n :: m :: p) ++ rest = n :: "." :: (pathToks (m :: p) ++ rest) := by
      simp [pathToks, sepBy]
    rw [h2, hus]
    rw [hus] at ih
    simp [readPath, h1, ih]

theorem readBrackets_toks : (n : Nat) → (rest : List String) → (∀ t ts, rest = t :: ts → t ≠ "[") →
    readBrackets (bracketToks n ++ rest) = (n, rest)
  | 0, rest, h => by
    rw [bracketToks, List.nil_append]
    unfold readBrackets
    split
    · exact absurd rfl (h _ _ rfl)
    · rfl
  | n + 1, rest, h => by
    rw [bracketToks, List.cons_append, List.cons_append, readBrackets, readBrackets_toks n rest h]

theorem bracketToks_head (n : Nat) (rest : List String) (h : ∀ t ts, rest = t :: ts → t ≠ ".") :
    ∀ t ts, bracketToks n ++ rest = t :: ts → t ≠ "." := by
  intro t ts ht
  cases n with
  | zero => exact h t ts ht
  | succ n =>
    simp only [bracketToks, List.cons_append, List.cons.injEq] at ht
    rw [← ht.1]
    decide

theorem prefix_text (u : Prefix) : prefix? u.text = some u := by cases u <;> decide

theorem reads_place {e : Expr} (hp : Plain e) (he : Reads e) (rest : List String) (f : Nat) (hf : 4 * (strE e).length + 4 ≤ f) :
    readPlaces f (strE e ++ (")" :: rest)) = some ([e], rest) := by
  obtain ⟨f, rfl⟩ : ∃ k, f = k + 1 := ⟨f - 1, by omega⟩
  obtain ⟨t, ts, h1, h2, h3, _⟩ := strE_cons e hp
  have := read_at he.1 (m := 0) (f := f) (by omega) (by omega) (stop_cons (t := ")") (Or.inl rfl) rest) (by omega)
  rw [h1, List.cons_append] at this ⊢
  rw [readPlaces.eq_3, if_neg (by simp [h2, h3]), this]
  simp

mutual
theorem reads : (e : Expr) → Plain e → Reads e
  | .leaf t, h => by
    have hl : isLeaf t = true := by simpa [Plain] using h
    obtain ⟨h1, h2, _, _, _, _, h3⟩ := isLeaf_ne hl
    have key : ∀ rest f, Ready (.leaf t) rest → 1 ≤ f → readPrefix f (t :: rest) = readSuffixes (f - 1) (.leaf t) rest := by
      intro rest f hr hf
      obtain ⟨f, rfl⟩ : ∃ g, f = g + 1 := ⟨f - 1, by omega⟩
      cases rest with
      | nil => simp [readPrefix, h1, h2, h3, hl]
      | cons u us => simp [readPrefix, h1, h2, h3, hl, (hr u us rfl).1]
    refine ⟨fun m rest f hm hs hf => ?_, fun _ rest f hr hf => ⟨f - 1, ?_, ?_⟩⟩
    · simp only [strE, List.length_cons, List.length_nil] at hf
      obtain ⟨f, rfl⟩ : ∃ g, f = g + 1 := ⟨f - 1, by omega⟩
      refine ⟨f, by simp only [strE, List.length_cons, List.length_nil]; omega, ?_⟩
      rw [readExpr.eq_2, strE, List.cons_append, List.nil_append, key rest f (ready_stop hs) (by omega), suffixes_stop hs _ (by omega)]
      rfl
    · simp only [strE, List.length_cons, List.length_nil] at hf ⊢
      omega
    · simp only [strE, List.length_cons, List.length_nil] at hf ⊢
      exact key rest f hr (by omega)
  | .unit n u, h => by
    simp only [Plain] at h
    obtain ⟨h1, h2, _, _, _, _, h3⟩ := isLeaf_ne h.1
    refine ⟨fun m rest f hm hs hf => ?_, fun h => by cases h⟩
    simp only [strE, List.length_cons, List.length_nil] at hf ⊢
    obtain ⟨f, rfl⟩ : ∃ g, f = g + 2 := ⟨f - 2, by omega⟩
    refine ⟨f + 1, by omega, ?_⟩
    rw [readExpr.eq_2]
    simp [readPrefix, h1, h2, h3, h.1, h.2, top]
  | .str t, h => by
    refine reads_of_primary rfl (fun _ rest f hr hf => ?_) (by simp [strE])
    simp only [strE, List.length_cons, List.length_nil, List.cons_append, List.nil_append] at hf ⊢
    obtain ⟨f, rfl⟩ : ∃ k, f = k + 1 := ⟨f - 1, by omega⟩
    refine ⟨f, by omega, ?_⟩
    rw [readPrefix.eq_def]
    simp [prefix_quoted, quoted_ne (t := t) (u := "(") (by decide), quoted_ne (t := t) (u := "new") (by decide), quoted_leaf,
      literal_quoted]
  | .new_ p n, h => by
    simp only [Plain] at h
    refine reads_of_primary rfl (fun _ rest f hr hf => ?_) (by simp [strE])
    simp only [strE, List.length_cons, List.cons_append, List.append_assoc] at hf ⊢
    obtain ⟨f, rfl⟩ : ∃ k, f = k + 1 := ⟨f - 1, by omega⟩
    refine ⟨f, by omega, ?_⟩
    have h1 := readPath_toks p h.1 h.2 (bracketToks n ++ rest) (bracketToks_head n rest fun t ts ht => ((hr t ts ht).2 rfl).1)
    have h2 := readBrackets_toks n rest fun t ts ht => ((hr t ts ht).2 rfl).2
    have h3 : prefix? "new" = none := by decide
    rw [readPrefix.eq_def]
    simp [h1, h2, h3]
  | .hole, h => by simp [Plain] at h
  | .tuple es, h => by
    simp only [Plain] at h
    refine reads_of_primary rfl (fun _ rest f hr hf => ?_) (by simp [strE])
    simp only [strE, List.length_append, List.length_cons, List.length_nil, List.append_assoc, List.cons_append,
      List.nil_append] at hf ⊢
    obtain ⟨f, rfl⟩ : ∃ k, f = k + 1 := ⟨f - 1, by omega⟩
    refine ⟨f, by omega, ?_⟩
    have h2 : prefix? "(" = none := by decide
    have h1 := readsPlaces es h.2 (by rintro rfl; exact absurd h.1 (by simp)) rest f (by omega)
    rw [readPrefix.eq_def]
    simp only [h2, if_true, h1]
    match es, h with
    | e :: e' :: es, h => cases e <;> rfl
    | [_], h => exact absurd h.1 (by simp)
    | [], h => exact absurd h.1 (by simp)
  | .paren e, h => by
    have hp : Plain e := by simpa [Plain] using h
    refine reads_of_primary rfl (fun _ rest f hr hf => ?_) (by simp [strE])
    simp only [strE, List.length_append, List.length_cons, List.length_nil, List.append_assoc, List.cons_append,
      List.nil_append] at hf ⊢
    obtain ⟨f, rfl⟩ : ∃ k, f = k + 1 := ⟨f - 1, by omega⟩
    refine ⟨f, by omega, ?_⟩
    have h1 := reads_place hp (reads e hp) rest f (by omega)
    have h2 : prefix? "(" = none := by decide
    rw [readPrefix.eq_def]
    simp only [h2, if_true, h1]
    cases e <;> first | rfl | exact absurd hp (by simp [Plain])
  | .member e id, h => by
    simp only [Plain] at h
    obtain ⟨hp, hnew, hid, he⟩ := h
    refine reads_of_primary rfl (fun _ rest f hr hf => ?_) (by simp [strE])
    simp only [strE, List.length_append, List.length_cons, List.length_nil, List.append_assoc, List.cons_append,
      List.nil_append] at hf ⊢
    obtain ⟨g, hg, h1⟩ := (reads e he).2 hp ("." :: id :: rest) f (ready_cons (Or.inr ⟨hnew, by decide⟩) _) (by omega)
    obtain ⟨g, rfl⟩ : ∃ k, g = k + 1 := ⟨g - 1, by omega⟩
    refine ⟨g, by omega, ?_⟩
    rw [h1, readSuffixes.eq_def]
    simp [hid]
  | .index e i, h => by
    simp only [Plain] at h
    obtain ⟨hp, hnew, he, hi⟩ := h
    obtain ⟨t, ts, ht, _, _, hne, _⟩ := strE_cons i hi
    refine reads_of_primary rfl (fun _ rest f hr hf => ?_) (by simp [strE]; omega)
    simp only [strE, List.length_append, List.length_cons, List.length_nil, List.append_assoc, List.cons_append,
      List.nil_append] at hf ⊢
    obtain ⟨g, hg, h1⟩ := (reads e he).2 hp ("[" :: (strE i ++ "]" :: rest)) f (ready_cons (Or.inr ⟨hnew, by decide⟩) _) (by omega)
    obtain ⟨g, rfl⟩ : ∃ k, g = k + 1 := ⟨g - 1, by omega⟩
    refine ⟨g, by omega, ?_⟩
    rw [h1, readSuffixes.eq_def]
    have h2 := read_at (reads i hi).1 (m := 0) (rest := "]" :: rest) (f := g) (by omega) (by omega)
      (stop_cons (Or.inr (Or.inl rfl)) _) (by omega)
    rw [ht, List.cons_append] at h2 ⊢
    simp [h2, hne]
  | .emptyIndex e, h => by
    simp only [Plain] at h
    obtain ⟨hp, hnew, he⟩ := h
    refine reads_of_primary rfl (fun _ rest f hr hf => ?_) (by simp [strE])
    simp only [strE, List.length_append, List.length_cons, List.length_nil, List.append_assoc, List.cons_append,
      List.nil_append] at hf ⊢
    obtain ⟨g, hg, h1⟩ := (reads e he).2 hp ("[" :: "]" :: rest) f (ready_cons (Or.inr ⟨hnew, by decide⟩) _) (by omega)
    obtain ⟨g, rfl⟩ : ∃ k, g = k + 1 := ⟨g - 1, by omega⟩
    refine ⟨g, by omega, ?_⟩
    rw [h1, readSuffixes.eq_def]
    simp
  | .named e ns args, h => by
    simp only [Plain] at h
    obtain ⟨hp, hne, hlen, hns, he, ha⟩ := h
    refine reads_of_primary rfl (fun _ rest f hr hf => ?_) (by simp [strE]; omega)
    simp only [strE, List.length_append, List.length_cons, List.length_nil, List.append_assoc, List.cons_append,
      List.nil_append] at hf ⊢
    obtain ⟨g, hg, h1⟩ := (reads e he).2 hp ("(" :: "{" :: (strNamed ns args ++ "}" :: ")" :: rest)) f
      (ready_cons (Or.inl (by decide)) _) (by omega)
    obtain ⟨g, rfl⟩ : ∃ k, g = k + 1 := ⟨g - 1, by omega⟩
    refine ⟨g, by omega, ?_⟩
    rw [h1, readSuffixes.eq_def]
    have h2 := readsNamed ns args hlen hne hns ha (")" :: rest) g (by omega)
    simp [h2]
  | .options e ns args, h => by
    simp only [Plain] at h
    obtain ⟨hp, hne, hlen, hns, he, ha⟩ := h
    refine reads_of_primary rfl (fun _ rest f hr hf => ?_) (by simp [strE]; omega)
    simp only [strE, List.length_append, List.length_cons, List.length_nil, List.append_assoc, List.cons_append,
      List.nil_append] at hf ⊢
    obtain ⟨g, hg, h1⟩ := (reads e he).2 hp ("{" :: (strNamed ns args ++ "}" :: rest)) f
      (ready_cons (Or.inl (by decide)) _) (by omega)
    obtain ⟨g, rfl⟩ : ∃ k, g = k + 1 := ⟨g - 1, by omega⟩
    refine ⟨g, by omega, ?_⟩
    rw [h1, readSuffixes.eq_def]
    have h2 := readsNamed ns args hlen hne hns ha rest g (by omega)
    simp [h2]
  | .call e args, h => by
    simp only [Plain] at h
    obtain ⟨hp, he, ha⟩ := h
    refine reads_of_primary rfl (fun _ rest f hr hf => ?_) (by simp [strE]; omega)
    simp only [strE, List.length_append, List.length_cons, List.length_nil, List.append_assoc, List.cons_append,
      List.nil_append] at hf ⊢
    obtain ⟨g, hg, h1⟩ := (reads e he).2 hp ("(" :: (strArgs args ++ ")" :: rest)) f (ready_cons (Or.inl (by decide)) _) (by omega)
    obtain ⟨g, rfl⟩ : ∃ k, g = k + 1 := ⟨g - 1, by omega⟩
    refine ⟨g, by omega, ?_⟩
    rw [h1, readSuffixes.eq_def]
    have h2 := readsArgs args ha rest g (by omega)
    obtain ⟨t, ts, ht, hne⟩ : ∃ t ts, strArgs args ++ ")" :: rest = t :: ts ∧ t ≠ "{" := by
      cases args with
      | nil => exact ⟨")", rest, by simp [strArgs], by decide⟩
      | cons a as =>
        simp only [PlainAll] at ha
        obtain ⟨t, ts, h1, _, _, _, h2⟩ := strE_cons a ha.1
        exact ⟨t, ts ++ strRest as ++ ")" :: rest, by simp [strArgs, h1], h2⟩
    rw [ht] at h2 ⊢
    simp [h2, hne]
  | .post e u, h => by
    simp only [Plain] at h
    obtain ⟨hp, hnew, he⟩ := h
    refine reads_of_primary rfl (fun _ rest f hr hf => ?_) (by simp [strE])
    simp only [strE, List.length_append, List.length_cons, List.length_nil, List.append_assoc, List.cons_append,
      List.nil_append] at hf ⊢
    obtain ⟨g, hg, h1⟩ := (reads e he).2 hp (u.text :: rest) f
      (ready_cons (Or.inr ⟨hnew, by cases u <;> decide⟩) _) (by omega)
    obtain ⟨g, rfl⟩ : ∃ k, g = k + 1 := ⟨g - 1, by omega⟩
    refine ⟨g, by omega, ?_⟩
    rw [h1, readSuffixes.eq_def]
    cases u <;> simp [Postfix.text]
  | .pre u e, h => by
    simp only [Plain] at h
    refine ⟨fun m rest f hm hs hf => ?_, fun h => by cases h⟩
    simp only [strE, List.length_cons, List.cons_append] at hf ⊢
    obtain ⟨f, rfl⟩ : ∃ k, f = k + 2 := ⟨f - 2, by omega⟩
    have h1 := read_at (reads e h.2.2).1 (m := prefixLevel) (rest := rest) (f := f) h.1 (by decide) hs (by omega)
    refine ⟨f + 1, by omega, ?_⟩
    rw [readExpr.eq_2, readPrefix.eq_def]
    simp only [prefix_text, h1, Option.map_some]
    rfl
  | .bin l o r, h => by
    simp only [Plain] at h
    obtain ⟨hlo, hro, hl, hr⟩ := h
    refine ⟨fun m rest f hm hs hf => ?_, fun h => by cases h⟩
    simp only [strE, List.length_append, List.length_cons, List.append_assoc, List.cons_append] at hf ⊢
    simp only [strength] at hm
    obtain ⟨h1, h2⟩ := left_facts hlo
    have h3 : o.level ≤ o.left := by unfold Operator.left; split <;> omega
    obtain ⟨g, hg, h4⟩ := (reads l hl).1 m (o.text :: (strE r ++ rest)) f (by omega) (stop_operator o _ h1) (by omega)
    obtain ⟨g, rfl⟩ : ∃ k, g = k + 1 := ⟨g - 1, by omega⟩
    have h5 := right_bounds o
    have h6 := read_at (reads r hr).1 (m := o.right) (rest := rest) (f := g) hro (by omega) hs (by omega)
    refine ⟨g, by omega, ?_⟩
    rw [h4, readOperators.eq_def]
    simp only [operator_text]
    rw [if_pos ⟨hm, h2⟩, h6]
    rfl
  | .cond c a b, h => by
    simp only [Plain] at h
    obtain ⟨hc, h1, h2, h3⟩ := h
    refine ⟨fun m rest f hm hs hf => ?_, fun h => by cases h⟩
    simp only [strE, List.length_append, List.length_cons, List.append_assoc, List.cons_append] at hf ⊢
    simp only [strength] at hm
    have hcap : 1 < cap c ∧ 1 ≤ top c := by
      have h0 := left_facts (l := c) (o := .set) (by simpa [Operator.left, Operator.toRight, Operator.level] using hc)
      exact h0
    obtain ⟨g, hg, h4⟩ := (reads c h1).1 m ("?" :: (strE a ++ ":" :: (strE b ++ rest))) f (by omega)
      (stop_question _ hcap.1) (by omega)
    obtain ⟨g, rfl⟩ : ∃ k, g = k + 1 := ⟨g - 1, by omega⟩
    have h5 := read_at (reads a h2).1 (m := 0) (rest := ":" :: (strE b ++ rest)) (f := g) (by omega) (by omega)
      (stop_cons (Or.inr (Or.inr (Or.inr (Or.inl rfl)))) _) (by omega)
    have h6 := read_at (reads b h3).1 (m := 1) (rest := rest) (f := g) (by
      cases b <;> simp only [strength, prefixLevel] <;> first | omega | exact (level_bounds _).1) (by omega) hs (by omega)
    refine ⟨g, by omega, ?_⟩
    have h7 : operator? "?" = none := by decide
    rw [h4, readOperators.eq_def]
    simp only [h7]
    rw [if_pos ⟨trivial, hm, hcap.2⟩, h5]
    simp only [if_true, h6]
    rfl
theorem readsArgs : (es : List Expr) → PlainAll es → ReadsArgs es
  | [], _ => by
    intro rest f hf
    simp only [strArgs, List.length_nil] at hf
    obtain ⟨f, rfl⟩ : ∃ k, f = k + 1 := ⟨f - 1, by omega⟩
    simp [strArgs, readArguments]
  | e :: es, h => by
    simp only [PlainAll] at h
    intro rest f hf
    simp only [strArgs, List.length_append] at hf
    obtain ⟨f, rfl⟩ : ∃ k, f = k + 1 := ⟨f - 1, by omega⟩
    obtain ⟨t, ts, h1, h2⟩ := strE_cons e h.1
    have hstop : Stop 0 (strRest es ++ (")" :: rest)) := by
      cases es with
      | nil => exact stop_cons (Or.inl rfl) _
      | cons a as =>
        simp only [strRest, List.cons_append]
        exact stop_cons (Or.inr (Or.inr (Or.inl rfl))) _
    have hlen : 1 ≤ (strE e).length := by rw [h1]; simp
    refine readsRest es h.2 e rest f (strArgs (e :: es) ++ (")" :: rest)) (by omega) ?_ t
      (ts ++ strRest es ++ (")" :: rest)) ?_ h2.1
    · simp only [strArgs, List.append_assoc]
      exact read_at (reads e h.1).1 (by omega) (by omega) hstop (by omega)
    · simp [strArgs, h1]
theorem readsRest : (es : List Expr) → PlainAll es → ReadsRest es
  | [], _ => by
    intro e rest f g hf hg t ts ht hne
    subst ht
    simp [readArguments, hne, hg, strRest]
  | a :: as, h => by
    simp only [PlainAll] at h
    intro e rest f g hf hg t ts ht hne
    subst ht
    simp only [strRest, List.length_cons, List.length_append] at hf
    obtain ⟨t', ts', h1, h2⟩ := strE_cons a h.1
    have hlen : 1 ≤ (strE a).length := by rw [h1]; simp
    have hstop : Stop 0 (strRest as ++ (")" :: rest)) := by
      cases as with
      | nil => exact stop_cons (Or.inl rfl) _
      | cons a as =>
        simp only [strRest, List.cons_append]
        exact stop_cons (Or.inr (Or.inr (Or.inl rfl))) _
    obtain ⟨f, rfl⟩ : ∃ k, f = k + 1 := ⟨f - 1, by omega⟩
    have h3 := readsRest as h.2 a rest f (strE a ++ (strRest as ++ (")" :: rest))) (by omega)
      (read_at (reads a h.1).1 (by omega) (by omega) hstop (by omega)) t' (ts' ++ (strRest as ++ (")" :: rest)))
      (by rw [h1]; rfl) h2.1
    rw [readArguments.eq_3, if_neg hne, hg]
    simp only [strRest, List.cons_append, List.append_assoc]
    rw [if_neg (by decide), if_pos trivial, h3]
    rfl
theorem readsPlaces : (es : List Expr) → PlainPlaces es → es ≠ [] → (rest : List String) → (f : Nat) →
    4 * (strArgs es).length + 4 ≤ f → readPlaces f (strArgs es ++ (")" :: rest)) = some (es, rest)
  | [], _, h, _, _, _ => absurd rfl h
  | e :: es, h, _, rest, f, hf => by
    simp only [PlainPlaces] at h
    simp only [strArgs, List.length_append] at hf
    obtain ⟨f, rfl⟩ : ∃ k, f = k + 1 := ⟨f - 1, by omega⟩
    have hstop : Stop 0 (strRest es ++ (")" :: rest)) := by
      cases es with
      | nil => exact stop_cons (Or.inl rfl) _
      | cons a as =>
        simp only [strRest, List.cons_append]
        exact stop_cons (Or.inr (Or.inr (Or.inl rfl))) _
    have h1 : ∃ t ts, strArgs (e :: es) ++ (")" :: rest) = t :: ts ∧
        (if t = "," ∨ t = ")" then some (.hole, t :: ts) else readExpr f 0 (t :: ts)) = some (e, strRest es ++ (")" :: rest)) := by
      rcases h.1 with rfl | hp
      · cases es with
        | nil => exact ⟨")", rest, by simp [strArgs, strE, strRest], by simp [strRest]⟩
        | cons a as =>
          refine ⟨",", strE a ++ strRest as ++ (")" :: rest), by simp [strArgs, strE, strRest], by simp [strRest]⟩
      · obtain ⟨t, ts, h1, h2, h3, _⟩ := strE_cons e hp
        refine ⟨t, ts ++ strRest es ++ (")" :: rest), by simp [strArgs, h1], ?_⟩
        rw [if_neg (by simp [h2, h3])]
        have := read_at (reads e hp).1 (m := 0) (f := f) (by omega) (by omega) hstop (by omega)
        rw [h1] at this
        simpa using this
    obtain ⟨t, ts, h2, h3⟩ := h1
    have ih := readsPlaces es h.2
    rw [h2, readPlaces.eq_3, h3]
    cases es with
    | nil => simp [strRest]
    | cons a as =>
      have ih := ih (by simp) rest f (by simp only [strRest, strArgs, List.length_cons, List.length_append] at hf ⊢; omega)
      simp only [strArgs, List.append_assoc] at ih
      simp [strRest, ih]
theorem readsNamed : (ns : List String) → (es : List Expr) → ns.length = es.length → ns ≠ [] → (∀ n ∈ ns, isName n = true) →
    PlainAll es → (rest : List String) → (f : Nat) → 4 * (strNamed ns es).length + 4 ≤ f →
    readNamed f (strNamed ns es ++ ("}" :: rest)) = some (ns, es, rest)
  | [], _, _, h, _, _, _, _, _ => absurd rfl h
  | _ :: _, [], h, _, _, _, _, _, _ => by simp at h
  | n :: ns, e :: es, hlen, _, hns, h, rest, f, hf => by
    simp only [PlainAll] at h
    simp only [strNamed, List.length_append, List.length_cons] at hf
    obtain ⟨f, rfl⟩ : ∃ k, f = k + 1 := ⟨f - 1, by omega⟩
    have hn := hns n (List.mem_cons_self ..)
    simp only [List.length_cons, Nat.add_right_cancel_iff] at hlen
    have hstop : Stop 0 (strNamedRest ns es ++ ("}" :: rest)) := by
      match ns, es, hlen with
      | [], [], _ => exact stop_cons (Or.inr (Or.inr (Or.inr (Or.inr rfl)))) _
      | _ :: _, _ :: _, _ =>
        simp only [strNamedRest, List.cons_append]
        exact stop_cons (Or.inr (Or.inr (Or.inl rfl))) _
    have h1 := read_at (reads e h.1).1 (m := 0) (f := f) (by omega) (by omega) hstop (by omega)
    simp only [strNamed, List.cons_append, List.append_assoc]
    rw [readNamed.eq_def]
    simp only [hn, decide_true, Bool.and_self, if_true, h1]
    have ih := readsNamed ns es hlen
    match ns, es, hlen with
    | [], [], _ => simp [strNamedRest]
    | m :: ms, a :: as, hlen =>
      have ih := ih (by simp) (fun x hx => hns x (List.mem_cons_of_mem _ hx)) h.2 rest f
        (by simp only [strNamedRest, strNamed, List.length_cons, List.length_append] at hf ⊢; omega)
      simp only [strNamed, List.cons_append, List.append_assoc] at ih
      simp [strNamedRest, ih]
end

/-- Reading the tokens of an expression gives the expression. -/
theorem readExpr_strE {e : Expr} (h : Plain e) :
    readExpr (4 * (strE e).length + 4) 0 (strE e) = some (e, []) := by
  have := read_at (reads e h).1 (m := 0) (rest := []) (f := 4 * (strE e).length + 4) (by omega) (by omega) stop_nil (by omega)
  simpa using this

end SolGrammar
end Mutagenyx
