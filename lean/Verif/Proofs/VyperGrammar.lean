import Verif.Spec.VyperExpr

/-!
# Reading the tokens of an expression gives the expression
-/

namespace Mutagenyx
namespace VyGrammar

/-- The words of an operator. -/
def Operator.words : Operator → List String
  | .notIn => ["not", "in"]
  | o => [o.text]

/-- In parentheses if needed. -/
def wrap (b : Bool) (ts : List String) : List String := if b then "(" :: ts ++ [")"] else ts

mutual
/-- The tokens of an expression. -/
def strE : Expr → List String
  | .leaf t => [t]
  | .attr e id => strE e ++ [".", id]
  | .str t => [quoted t]
  | .index e is => strE e ++ ("[" :: (strArgs is ++ ["]"]))
  | .call f args => strE f ++ ("(" :: (strArgs args ++ [")"]))
  | .list es => "[" :: (strArgs es ++ ["]"])
  | .dict es => "{" :: (strArgs es ++ ["}"])
  | .named k e => k :: "=" :: strE e
  | .entry k v => strE k ++ (":" :: strE v)
  | .bin l o r => wrap (isBin l) (strE l) ++ (o.words ++ wrap (isBin r) (strE r))
  | .not e => "not" :: wrap (isBin e) (strE e)
  | .inv e => "~" :: wrap (isBin e) (strE e)
  | .neg e => "-" :: strE e
/-- The tokens of arguments. -/
def strArgs : List Expr → List String
  | [] => []
  | e :: es => strE e ++ strRest es
/-- The tokens of further arguments. -/
def strRest : List Expr → List String
  | [] => []
  | e :: es => "," :: (strE e ++ strRest es)
end

/-- The tokens of an expression as an operand. -/
def opd (e : Expr) : List String := wrap (isBin e) (strE e)

/-- Operators that bind at least as strongly as `k` and suffixes do not follow. -/
def Stop (k : Nat) (rest : List String) : Prop :=
  (∀ o r, operator? rest = some (o, r) → o.level < k) ∧ ∀ t ts, rest = t :: ts → t ≠ "." ∧ t ≠ "[" ∧ t ≠ "("

theorem Stop.mono {k l : Nat} {rest : List String} (h : Stop k rest) (hkl : k ≤ l) : Stop l rest :=
  ⟨fun o r ho => Nat.lt_of_lt_of_le (h.1 o r ho) hkl, h.2⟩

theorem stop_nil : Stop 0 [] := ⟨fun _ _ h => (by cases h), fun _ _ h => (by cases h)⟩

theorem operator_none {t : String} (h1 : t ≠ "not") (h2 : operators.find? (·.text = t) = none) (ts : List String) :
    operator? (t :: ts) = none := by
  cases ts with
  | nil => simp [operator?, h2]
  | cons u ts => simp [operator?, h1, h2]

/-- Tokens that end an expression. -/
def enders : List String := [")", "]", "}", ",", "=", ":"]

theorem stop_cons {t : String} (h : t ∈ enders) (ts : List String) : Stop 0 (t :: ts) := by
  simp only [enders, List.mem_cons, List.not_mem_nil, or_false] at h
  refine ⟨fun o r ho => ?_, fun u us hu => ?_⟩
  · rw [operator_none] at ho
    · cases ho
    · rcases h with rfl | rfl | rfl | rfl | rfl | rfl <;> decide
    · rcases h with rfl | rfl | rfl | rfl | rfl | rfl <;> decide
  · cases hu
    rcases h with rfl | rfl | rfl | rfl | rfl | rfl <;> decide

theorem operator_words (o : Operator) (ts : List String) : operator? (o.words ++ ts) = some (o, ts) := by
  cases o with
  | notIn => cases ts <;> simp [Operator.words, operator?]
  | _ => cases ts <;> (simp only [Operator.words, operator?, List.cons_append, List.nil_append]; rfl)

theorem suffixes_stop {k : Nat} {rest : List String} (h : Stop k rest) (e : Expr) {f : Nat} (hf : 1 ≤ f) :
    readSuffixes f e rest = some (e, rest) := by
  obtain ⟨f, rfl⟩ : ∃ g, f = g + 1 := ⟨f - 1, by omega⟩
  cases rest with
  | nil => rw [readSuffixes.eq_def]
  | cons t ts =>
    obtain ⟨h1, h2, h3⟩ := h.2 t ts rfl
    rw [readSuffixes.eq_def]
    simp [h1, h2, h3]

theorem operators_stop {m top : Nat} {rest : List String} (h : Stop m rest) (e : Expr) {f : Nat} (hf : 1 ≤ f) :
    readOperators f m top e rest = some (e, rest) := by
  obtain ⟨f, rfl⟩ : ∃ g, f = g + 1 := ⟨f - 1, by omega⟩
  simp only [readOperators]
  cases ho : operator? rest with
  | none => rfl
  | some p =>
    obtain ⟨o, r⟩ := p
    have := h.1 o r ho
    simp only
    rw [if_neg (by omega)]

/-- The expression is read from its tokens as an operand. -/
def ReadOperand (e : Expr) : Prop := ∀ m rest f, m ≤ strength e → Stop (strength e) rest → 4 * (opd e).length ≤ f →
  readPrefix f m (opd e ++ rest) = some (e, rest)

/-- The expression is read from its tokens. -/
def ReadWhole (e : Expr) : Prop := ∀ rest f, Stop 0 rest → 4 * (strE e).length + 2 ≤ f →
  readExpr f 0 (strE e ++ rest) = some (e, rest)

/-- The expression is read from its tokens before suffixes. -/
def ReadPrimary (e : Expr) : Prop := primary e = true → ∀ m rest f, 4 * (strE e).length ≤ f →
  ∃ g, f + 3 ≤ g + 4 * (strE e).length ∧ readPrefix f m (strE e ++ rest) = readSuffixes g e rest

/-- All three. -/
def Reads (e : Expr) : Prop := ReadOperand e ∧ ReadWhole e ∧ ReadPrimary e

/-- What is between brackets is read from its tokens. -/
def ReadsItem (close : String) (e : Expr) : Prop := ∀ t rest f, t = close ∨ t = "," → 4 * (strE e).length + 3 ≤ f →
  readItem f close (strE e ++ t :: rest) = some (e, t :: rest)

/-- All that is between brackets is read from its tokens. -/
def ReadsArgs (close : String) (es : List Expr) : Prop := ∀ rest f, 4 * (strArgs es).length + 4 ≤ f →
  readItems f close (strArgs es ++ (close :: rest)) = some (es, rest)

/-- What is further between brackets is read from its tokens. -/
def ReadsRest (close : String) (es : List Expr) : Prop := ∀ e rest f g, 4 * (strRest es).length + 4 ≤ f →
  readItem f close g = some (e, strRest es ++ (close :: rest)) → ∀ t ts, g = t :: ts → t ≠ close →
  readItems (f + 1) close g = some (e :: es, rest)

/-- A closing bracket. -/
def closers : List String := [")", "]", "}"]

theorem isLeaf_ne {t : String} (h : isLeaf t = true) : t ≠ "not" ∧ t ≠ "~" ∧ t ≠ "(" ∧ t ∉ closers ∧ t ≠ "[" ∧ t ≠ "{" ∧ t ≠ "-" := by
  have hc : t ∉ closers := by
    intro hm
    simp only [closers, List.mem_cons, List.not_mem_nil, or_false] at hm
    rcases hm with rfl | rfl | rfl <;> exact absurd h (by decide)
  refine ⟨?_, ?_, ?_, hc, ?_, ?_, ?_⟩ <;> (rintro rfl; exact absurd h (by decide))

theorem isNumber_leaf {e : Expr} (h : isNumber e = true) : ∃ t, e = .leaf t ∧ isLeaf t = true := by
  cases e with
  | leaf t =>
    simp only [isNumber, Bool.and_eq_true] at h
    exact ⟨t, rfl, h.1⟩
  | _ => cases h

theorem unquote_quoted (t : String) : unquote (quoted t) = some t := by
  simp [unquote, quoted]

theorem quoted_ne {t u : String} (h : u.toList.head? ≠ some '"') : quoted t ≠ u := by
  rintro rfl
  exact h (by simp [quoted])

theorem quoted_leaf (t : String) : isLeaf (quoted t) = false := by
  simp [isLeaf, quoted, wordChar]

theorem proper_of_strength {e : Expr} (h : 0 < strength e) : proper e = true := by
  cases e <;> first | rfl | exact absurd h (by simp [strength])

theorem isName_leaf {t : String} (h : isName t = true) : isLeaf t = true := by
  unfold isName at h
  simp only [Bool.and_eq_true] at h
  exact h.1

theorem strength_le {e : Expr} (h : proper e = true) : notLevel ≤ strength e := by
  cases e <;> first | cases h; done | simp [strength, notLevel, invLevel]

theorem strength_bin {e : Expr} (h : isBin e = true) : strength e = 13 := by
  cases e <;> first | rfl | cases h

theorem strength_primary {e : Expr} (h : primary e = true) : strength e = 13 := by
  cases e <;> first | rfl | cases h

theorem isBin_primary {e : Expr} (h : primary e = true) : isBin e = false := by
  cases e <;> first | rfl | cases h

/-- From the whole expression in parentheses. -/
theorem operand_of_whole {e : Expr} (hb : isBin e = true) (h : ReadWhole e) : ReadOperand e := by
  intro m rest f _ hs hf
  simp only [opd, wrap, hb, if_true, List.cons_append, List.length_cons, List.length_append, List.length_nil,
    List.append_assoc, List.nil_append] at hf ⊢
  obtain ⟨f, rfl⟩ : ∃ g, f = g + 1 := ⟨f - 1, by omega⟩
  simp only [readPrefix]
  rw [h _ f (stop_cons (by decide) _) (by omega)]
  simp [suffixes_stop hs e (f := f) (by omega)]

/-- From the operand. -/
theorem whole_of_operand {e : Expr} (hb : isBin e = false) (h : ReadOperand e) : ReadWhole e := by
  intro rest f hs hf
  obtain ⟨f, rfl⟩ : ∃ g, f = g + 1 := ⟨f - 1, by omega⟩
  have h1 := h 0 rest f (by omega) (hs.mono (by omega))
  simp only [opd, wrap, hb, Bool.false_eq_true, if_false] at h1
  simp only [readExpr, h1 (by omega)]
  exact operators_stop hs e (by omega)

theorem operand_of_primary {e : Expr} (hp : primary e = true) (h : ReadPrimary e) : ReadOperand e := by
  intro m rest f _ hs hf
  simp only [opd, wrap, isBin_primary hp, Bool.false_eq_true, if_false] at hf ⊢
  obtain ⟨g, hg, h1⟩ := h hp m rest f hf
  rw [h1]
  exact suffixes_stop hs e (by omega)

theorem reads_of_primary {e : Expr} (hp : primary e = true) (h : ReadPrimary e) : Reads e :=
  ⟨operand_of_primary hp h, whole_of_operand (isBin_primary hp) (operand_of_primary hp h), h⟩

theorem quoted_closers (t : String) : quoted t ∉ closers := by
  intro hm
  simp only [closers, List.mem_cons, List.not_mem_nil, or_false] at hm
  rcases hm with h | h | h <;> exact absurd h (quoted_ne (by decide))

theorem strE_cons : (e : Expr) → Plain e → ∃ t ts, strE e = t :: ts ∧ t ∉ closers
  | .leaf t, h => ⟨t, [], by simp [strE], (isLeaf_ne (by simpa [Plain] using h)).2.2.2.1⟩
  | .str t, _ => ⟨quoted t, [], by simp [strE], quoted_closers t⟩
  | .attr e id, h => by
    simp only [Plain] at h
    obtain ⟨t, ts, h1, h2⟩ := strE_cons e h.2.2
    exact ⟨t, _, by simp only [strE, h1, List.cons_append]; rfl, h2⟩
  | .index e i, h => by
    simp only [Plain] at h
    obtain ⟨t, ts, h1, h2⟩ := strE_cons e h.2.1
    exact ⟨t, _, by simp only [strE, h1, List.cons_append]; rfl, h2⟩
  | .call e i, h => by
    simp only [Plain] at h
    obtain ⟨t, ts, h1, h2⟩ := strE_cons e h.2.1
    exact ⟨t, _, by simp only [strE, h1, List.cons_append]; rfl, h2⟩
  | .list es, _ => ⟨_, _, by rw [strE], by decide⟩
  | .dict es, _ => ⟨_, _, by rw [strE], by decide⟩
  | .named k e, h => by
    simp only [Plain] at h
    exact ⟨_, _, by rw [strE], (isLeaf_ne (isName_leaf h.1)).2.2.2.1⟩
  | .entry k v, h => by
    simp only [Plain] at h
    obtain ⟨t, ts, h1, h2⟩ := strE_cons k h.2.1
    exact ⟨t, _, by simp only [strE, h1, List.cons_append]; rfl, h2⟩
  | .bin l o r, h => by
    simp only [Plain] at h
    obtain ⟨t, ts, h1, h2⟩ := strE_cons l h.1
    by_cases hl : isBin l = true
    · exact ⟨"(", _, by simp only [strE, wrap, hl, if_true, List.cons_append]; rfl, by decide⟩
    · exact ⟨t, _, by simp only [strE, wrap, hl, Bool.false_eq_true, if_false, h1, List.cons_append]; rfl, h2⟩
  | .not e, _ => ⟨_, _, by rw [strE], by decide⟩
  | .inv e, _ => ⟨_, _, by rw [strE], by decide⟩
  | .neg e, _ => ⟨_, _, by rw [strE], by decide⟩

theorem level_le (o : Operator) : o.level ≤ 12 := by cases o <;> decide

theorem words_head (o : Operator) : ∃ t ts, o.words = t :: ts ∧ t ≠ "." ∧ t ≠ "[" ∧ t ≠ "(" := by
  cases o <;> exact ⟨_, _, rfl, by decide, by decide, by decide⟩

/-- What there is to read of an expression. -/
def Good : Expr → Prop
  | .named _ e => Reads e
  | .entry k v => Reads k ∧ Reads v
  | e => Reads e

theorem Good.reads {e : Expr} (h : Good e) (hp : proper e = true) : Reads e := by
  cases e <;> first | exact h | cases hp

theorem Reads.whole {e : Expr} (h : Reads e) : ReadWhole e := h.2.1

theorem readsProper {close : String} (hc : close ∈ closers) {e : Expr} (hp : proper e = true) (hf : fitting close e = true)
    (hr : Reads e) : ReadsItem close e := by
  have hf' : close ≠ "}" := by
    cases e <;> first | cases hp; done | simpa [fitting] using hf
  intro t rest f ht hlen
  obtain ⟨f, rfl⟩ : ∃ k, f = k + 1 := ⟨f - 1, by omega⟩
  have hs : Stop 0 (t :: rest) := stop_cons (by
    rcases ht with rfl | rfl
    · simp only [closers, List.mem_cons, List.not_mem_nil, or_false] at hc
      rcases hc with rfl | rfl | rfl <;> decide
    · decide) rest
  have hne : t ≠ "=" ∧ t ≠ ":" := by
    rcases ht with rfl | rfl
    · simp only [closers, List.mem_cons, List.not_mem_nil, or_false] at hc
      rcases hc with rfl | rfl | rfl <;> decide
    · decide
  have h6 := hr.2.1 (t :: rest) f hs (by omega)
  rw [readItem.eq_def]
  simp only [h6]
  split
  · rename_i he
    simp only [Option.some.injEq, Prod.mk.injEq, List.cons.injEq] at he
    exact absurd he.2.1 hne.1
  · rename_i he
    simp only [Option.some.injEq, Prod.mk.injEq, List.cons.injEq] at he
    exact absurd he.2.1 hne.2
  · rename_i he
    cases he
    rw [if_neg hf']
  · rename_i he
    cases he

theorem readsItem : (close : String) → close ∈ closers → (e : Expr) → fitting close e = true → Plain e → Good e → ReadsItem close e
  | close, hc, .named k e, hf, h, hr => by
    simp only [Plain] at h
    simp only [fitting, beq_iff_eq] at hf
    intro t rest f ht hlen
    simp only [strE, List.length_cons] at hlen
    obtain ⟨f, rfl⟩ : ∃ k, f = k + 1 := ⟨f - 1, by omega⟩
    have hl := isName_leaf h.1
    obtain ⟨h1, h2, h3, _, h4, h5, h9⟩ := isLeaf_ne hl
    obtain ⟨f, rfl⟩ : ∃ k, f = k + 3 := ⟨f - 3, by omega⟩
    have h6 : readExpr (f + 3) 0 (k :: "=" :: (strE e ++ t :: rest)) = some (.leaf k, "=" :: (strE e ++ t :: rest)) := by
      have hs := stop_cons (t := "=") (by decide) (strE e ++ t :: rest)
      simp only [readExpr, readPrefix, h1, h2, h3, h4, h5, h9, hl, if_true, if_false]
      rw [suffixes_stop hs _ (by omega)]
      exact operators_stop hs _ (by omega)
    have hs : Stop 0 (t :: rest) := stop_cons (by
      rcases ht with rfl | rfl
      · rw [hf]; decide
      · decide) rest
    have h7 := Reads.whole hr (t :: rest) (f + 3) hs (by omega)
    simp only [strE, List.cons_append, readItem, h6, hf, h.1, h7, true_and, if_true, Option.map_some]
  | close, hc, .entry k v, hf, h, hr => by
    simp only [Plain] at h
    simp only [fitting, beq_iff_eq] at hf
    intro t rest f ht hlen
    simp only [strE, List.length_append, List.length_cons] at hlen
    obtain ⟨f, rfl⟩ : ∃ k, f = k + 1 := ⟨f - 1, by omega⟩
    have hs : Stop 0 (t :: rest) := stop_cons (by
      rcases ht with rfl | rfl
      · rw [hf]; decide
      · decide) rest
    have h6 := Reads.whole hr.1 (":" :: (strE v ++ t :: rest)) f (stop_cons (by decide) _) (by omega)
    have h7 := Reads.whole hr.2 (t :: rest) f hs (by omega)
    simp only [strE, List.cons_append, List.append_assoc, readItem, h6, hf, h7, if_true, Option.map_some]
  | _, hc, .leaf t, hf, _, hr => readsProper hc rfl hf hr
  | _, hc, .str t, hf, _, hr => readsProper hc rfl hf hr
  | _, hc, .attr e i, hf, _, hr => readsProper hc rfl hf hr
  | _, hc, .index e i, hf, _, hr => readsProper hc rfl hf hr
  | _, hc, .call f a, hf, _, hr => readsProper hc rfl hf hr
  | _, hc, .list e, hf, _, hr => readsProper hc rfl hf hr
  | _, hc, .dict e, hf, _, hr => readsProper hc rfl hf hr
  | _, hc, .bin l o r, hf, _, hr => readsProper hc rfl hf hr
  | _, hc, .not e, hf, _, hr => readsProper hc rfl hf hr
  | _, hc, .inv e, hf, _, hr => readsProper hc rfl hf hr
  | _, hc, .neg e, hf, _, hr => readsProper hc rfl hf hr

mutual
theorem reads : (e : Expr) → Plain e → Good e
  | .named _ e, h => by
    simp only [Plain] at h
    exact (reads e h.2.2).reads h.2.1
  | .entry k v, h => by
    simp only [Plain] at h
    exact ⟨(reads k h.2.1).reads h.1, (reads v h.2.2.2).reads h.2.2.1⟩
  | .leaf t, h => by
    change Reads _
    have hl : isLeaf t = true := by simpa [Plain] using h
    obtain ⟨h1, h2, h3, _, h4, h5, h9⟩ := isLeaf_ne hl
    have key : ∀ m rest f, 1 ≤ f → readPrefix f m (t :: rest) = readSuffixes (f - 1) (.leaf t) rest := by
      intro m rest f hf
      obtain ⟨f, rfl⟩ : ∃ g, f = g + 1 := ⟨f - 1, by omega⟩
      simp [readPrefix, h1, h2, h3, h4, h5, h9, hl]
    have ho : ReadOperand (.leaf t) := by
      intro m rest f _ hs hf
      simp only [opd, wrap, isBin, Bool.false_eq_true, if_false, strE, List.cons_append, List.nil_append,
        List.length_cons, List.length_nil] at hf ⊢
      rw [key m rest f (by omega)]
      exact suffixes_stop hs _ (by omega)
    refine ⟨ho, whole_of_operand rfl ho, fun _ m rest f hf => ⟨f - 1, ?_, ?_⟩⟩
    · simp only [strE, List.length_cons, List.length_nil] at hf ⊢
      omega
    · simp only [strE, List.length_cons, List.length_nil] at hf ⊢
      exact key m rest f (by omega)
  | .str t, h => by
    change Reads _
    have key : ∀ m rest f, 1 ≤ f → readPrefix f m (quoted t :: rest) = readSuffixes (f - 1) (.str t) rest := by
      intro m rest f hf
      obtain ⟨f, rfl⟩ : ∃ g, f = g + 1 := ⟨f - 1, by omega⟩
      simp [readPrefix, quoted_ne (t := t) (u := "not") (by decide), quoted_ne (t := t) (u := "~") (by decide),
        quoted_ne (t := t) (u := "(") (by decide), quoted_ne (t := t) (u := "[") (by decide),
        quoted_ne (t := t) (u := "{") (by decide), quoted_ne (t := t) (u := "-") (by decide), quoted_leaf, unquote_quoted]
    refine reads_of_primary rfl fun _ m rest f hf => ⟨f - 1, ?_, ?_⟩
    · simp only [strE, List.length_cons, List.length_nil] at hf ⊢
      omega
    · simp only [strE, List.length_cons, List.length_nil] at hf ⊢
      exact key m rest f (by omega)
  | .list es, h => by
    change Reads _
    simp only [Plain] at h
    refine reads_of_primary rfl fun _ m rest f hf => ⟨f - 1, ?_, ?_⟩
    · simp only [strE, List.length_append, List.length_cons, List.length_nil] at hf ⊢
      omega
    · simp only [strE, List.length_append, List.length_cons, List.length_nil, List.append_assoc, List.cons_append,
        List.nil_append] at hf ⊢
      obtain ⟨f, rfl⟩ : ∃ g, f = g + 1 := ⟨f - 1, by omega⟩
      have h2 := readsArgs "]" (by decide) es h rest f (by omega)
      simp [readPrefix, h2]
  | .dict es, h => by
    change Reads _
    simp only [Plain] at h
    have ho : ReadOperand (.dict es) := by
      intro m rest f _ hs hf
      simp only [opd, wrap, isBin, Bool.false_eq_true, if_false, strE, List.length_append, List.length_cons, List.length_nil,
        List.append_assoc, List.cons_append, List.nil_append] at hf ⊢
      obtain ⟨f, rfl⟩ : ∃ g, f = g + 1 := ⟨f - 1, by omega⟩
      have h2 := readsArgs "}" (by decide) es h rest f (by omega)
      simp [readPrefix, h2, suffixes_stop hs (.dict es) (f := f) (by omega)]
    exact ⟨ho, whole_of_operand rfl ho, fun h => by cases h⟩
  | .attr e id, h => by
    change Reads _
    simp only [Plain] at h
    obtain ⟨hp, hid, he⟩ := h
    refine reads_of_primary rfl fun _ m rest f hf => ?_
    simp only [strE, List.length_append, List.length_cons, List.length_nil, List.append_assoc, List.cons_append,
      List.nil_append] at hf ⊢
    obtain ⟨g, hg, h1⟩ := ((reads e he).reads (proper_of_strength (by rw [strength_primary hp]; decide))).2.2 hp m ("." :: id :: rest) f (by omega)
    obtain ⟨g, rfl⟩ : ∃ k, g = k + 1 := ⟨g - 1, by omega⟩
    refine ⟨g, by omega, ?_⟩
    rw [h1, readSuffixes.eq_def]
    simp [hid]
  | .index e is, h => by
    change Reads _
    simp only [Plain] at h
    obtain ⟨hp, he, hn, hi⟩ := h
    refine reads_of_primary rfl fun _ m rest f hf => ?_
    simp only [strE, List.length_append, List.length_cons, List.length_nil, List.append_assoc, List.cons_append,
      List.nil_append] at hf ⊢
    obtain ⟨g, hg, h1⟩ := ((reads e he).reads (proper_of_strength (by rw [strength_primary hp]; decide))).2.2 hp m
      ("[" :: (strArgs is ++ "]" :: rest)) f (by omega)
    obtain ⟨g, rfl⟩ : ∃ k, g = k + 1 := ⟨g - 1, by omega⟩
    refine ⟨g, by omega, ?_⟩
    rw [h1, readSuffixes.eq_def]
    have h2 := readsArgs "]" (by decide) is hi rest g (by omega)
    cases is with
    | nil => exact absurd rfl hn
    | cons i is => simp [h2]
  | .call e args, h => by
    change Reads _
    simp only [Plain] at h
    obtain ⟨hp, he, ha⟩ := h
    refine reads_of_primary rfl fun _ m rest f hf => ?_
    simp only [strE, List.length_append, List.length_cons, List.length_nil, List.append_assoc, List.cons_append,
      List.nil_append] at hf ⊢
    obtain ⟨g, hg, h1⟩ := ((reads e he).reads (proper_of_strength (by rw [strength_primary hp]; decide))).2.2 hp m
      ("(" :: (strArgs args ++ ")" :: rest)) f (by omega)
    obtain ⟨g, rfl⟩ : ∃ k, g = k + 1 := ⟨g - 1, by omega⟩
    refine ⟨g, by omega, ?_⟩
    rw [h1, readSuffixes.eq_def]
    have h2 := readsArgs ")" (by decide) args ha rest g (by omega)
    simp [h2]
  | .bin l o r, h => by
    change Reads _
    simp only [Plain] at h
    obtain ⟨hl, hr, hlo, hro⟩ := h
    have hpl := proper_of_strength (Nat.lt_of_le_of_lt (Nat.zero_le _) hlo)
    have hpr : proper r = true := proper_of_strength (Nat.lt_of_lt_of_le (by cases o <;> decide) hro)
    have hw : ReadWhole (.bin l o r) := by
      intro rest f hs hf
      have hwl : 1 ≤ o.words.length := by cases o <;> decide
      change 4 * (opd l ++ (o.words ++ opd r)).length + 2 ≤ f at hf
      change readExpr f 0 ((opd l ++ (o.words ++ opd r)) ++ rest) = _
      simp only [List.length_append] at hf
      obtain ⟨f, rfl⟩ : ∃ k, f = k + 3 := ⟨f - 3, by omega⟩
      have hstop : Stop (strength l) (o.words ++ (opd r ++ rest)) := by
        refine ⟨fun o' r' ho => ?_, fun t ts ht => ?_⟩
        · rw [operator_words] at ho
          cases ho
          exact hlo
        · obtain ⟨u, us, h1, h2⟩ := words_head o
          rw [h1] at ht
          cases ht
          exact h2
      have h1 := ((reads l hl).reads hpl).1 0 (o.words ++ (opd r ++ rest)) (f + 2) (by omega) hstop (by omega)
      have h2 := ((reads r hr).reads hpr).1 o.right rest f hro (hs.mono (by omega)) (by omega)
      have h3 := operators_stop (top := 12) (hs.mono (Nat.zero_le o.right)) r (f := f) (by omega)
      have h4 := operators_stop (top := o.left) hs (.bin l o r) (f := f + 1) (by omega)
      have := level_le o
      have h5 : readExpr (f + 1) o.right (opd r ++ rest) = some (r, rest) := by
        simp only [readExpr, h2, h3]
      rw [List.append_assoc, List.append_assoc, readExpr.eq_2, h1]
      simp only
      rw [readOperators.eq_2, operator_words]
      simp only
      rw [if_pos ⟨by omega, by omega⟩, h5]
      exact h4
    exact ⟨operand_of_whole rfl hw, hw, fun h => by cases h⟩
  | .not e, h => by
    change Reads _
    simp only [Plain] at h
    have he := (reads e h.2).reads h.1
    have ho : ReadOperand (.not e) := by
      intro m rest f hm hs hf
      change 4 * ("not" :: opd e).length ≤ f at hf
      change readPrefix f m ("not" :: (opd e ++ rest)) = _
      simp only [List.length_cons] at hf
      obtain ⟨f, rfl⟩ : ∃ k, f = k + 2 := ⟨f - 2, by omega⟩
      have h1 := he.1 notLevel rest f (strength_le h.1) (hs.mono (strength_le h.1)) (by omega)
      have h2 := operators_stop (top := 12) hs e (f := f) (by omega)
      simp only [strength] at hm h2
      simp only [readPrefix, if_true, hm, readExpr, h1, h2, Option.map_some]
    exact ⟨ho, whole_of_operand rfl ho, fun h => by cases h⟩
  | .inv e, h => by
    change Reads _
    simp only [Plain] at h
    have he := (reads e h.1).reads (proper_of_strength (Nat.lt_of_lt_of_le (by decide) h.2))
    have ho : ReadOperand (.inv e) := by
      intro m rest f hm hs hf
      change 4 * ("~" :: opd e).length ≤ f at hf
      change readPrefix f m ("~" :: (opd e ++ rest)) = _
      simp only [List.length_cons] at hf
      obtain ⟨f, rfl⟩ : ∃ k, f = k + 2 := ⟨f - 2, by omega⟩
      have h1 := he.1 invLevel rest f h.2 (hs.mono h.2) (by omega)
      have h2 := operators_stop (top := 12) hs e (f := f) (by omega)
      simp only [strength] at hm h2
      have hne : ("~" : String) ≠ "not" := by decide
      simp only [readPrefix, if_true, hne, if_false, hm, readExpr, h1, h2, Option.map_some]
    exact ⟨ho, whole_of_operand rfl ho, fun h => by cases h⟩
  | .neg e, h => by
    change Reads _
    simp only [Plain] at h
    obtain ⟨t, rfl, hl⟩ := isNumber_leaf h
    obtain ⟨h1, h2, h3, _, h4, h5, h9⟩ := isLeaf_ne hl
    have ho : ReadOperand (.neg (.leaf t)) := by
      intro m rest f hm hs hf
      simp only [opd, wrap, isBin, Bool.false_eq_true, if_false, strE, List.cons_append, List.nil_append,
        List.length_cons, List.length_nil] at hf ⊢
      obtain ⟨f, rfl⟩ : ∃ k, f = k + 3 := ⟨f - 3, by omega⟩
      have h6 := suffixes_stop hs (.leaf t) (f := f) (by omega)
      have h7 := operators_stop (top := 12) hs (.leaf t) (f := f + 1) (by omega)
      simp only [strength] at hm h7
      have hne : ("-" : String) ≠ "not" ∧ ("-" : String) ≠ "~" := by decide
      simp only [readPrefix, if_true, hne.1, hne.2, if_false, hm, readExpr, h1, h2, h3, h4, h5, h9, hl, h6, h7, Option.map_some]
    exact ⟨ho, whole_of_operand rfl ho, fun h => by cases h⟩
theorem readsArgs : (close : String) → close ∈ closers → (es : List Expr) → PlainAll close es → ReadsArgs close es
  | close, hc, [], _ => by
    intro rest f hf
    simp only [strArgs, List.length_nil] at hf
    obtain ⟨f, rfl⟩ : ∃ k, f = k + 1 := ⟨f - 1, by omega⟩
    simp [strArgs, readItems]
  | close, hc, e :: es, h => by
    simp only [PlainAll] at h
    intro rest f hf
    simp only [strArgs, List.length_append] at hf
    obtain ⟨f, rfl⟩ : ∃ k, f = k + 1 := ⟨f - 1, by omega⟩
    obtain ⟨t, ts, h1, h2⟩ := strE_cons e h.2.1
    have hne : t ≠ close := fun hh => h2 (hh ▸ hc)
    have hlen : 1 ≤ (strE e).length := by rw [h1]; simp
    refine readsRest close hc es h.2.2 e rest f (strArgs (e :: es) ++ (close :: rest)) (by omega) ?_ t
      (ts ++ strRest es ++ (close :: rest)) ?_ hne
    · simp only [strArgs, List.append_assoc]
      have := readsItem close hc e h.1 h.2.1 (reads e h.2.1)
      cases es with
      | nil => exact this close rest f (Or.inl rfl) (by omega)
      | cons a as =>
        simp only [strRest, List.cons_append]
        exact this "," _ f (Or.inr rfl) (by omega)
    · simp [strArgs, h1]
theorem readsRest : (close : String) → close ∈ closers → (es : List Expr) → PlainAll close es → ReadsRest close es
  | close, hc, [], _ => by
    intro e rest f g hf hg t ts ht hne
    subst ht
    simp [readItems, hne, hg, strRest]
  | close, hc, a :: as, h => by
    simp only [PlainAll] at h
    intro e rest f g hf hg t ts ht hne
    subst ht
    simp only [strRest, List.length_cons, List.length_append] at hf
    obtain ⟨t', ts', h1, h2⟩ := strE_cons a h.2.1
    have hne' : t' ≠ close := fun hh => h2 (hh ▸ hc)
    have hlen : 1 ≤ (strE a).length := by rw [h1]; simp
    obtain ⟨f, rfl⟩ : ∃ k, f = k + 1 := ⟨f - 1, by omega⟩
    have hcomma : "," ≠ close := by
      rintro rfl
      exact absurd hc (by decide)
    have hi : readItem f close (strE a ++ (strRest as ++ (close :: rest))) = some (a, strRest as ++ (close :: rest)) := by
      have := readsItem close hc a h.1 h.2.1 (reads a h.2.1)
      cases as with
      | nil => exact this close rest f (Or.inl rfl) (by omega)
      | cons b bs =>
        simp only [strRest, List.cons_append]
        exact this "," _ f (Or.inr rfl) (by omega)
    have h3 := readsRest close hc as h.2.2 a rest f (strE a ++ (strRest as ++ (close :: rest))) (by omega)
      hi t' (ts' ++ (strRest as ++ (close :: rest))) (by rw [h1]; rfl) hne'
    rw [readItems.eq_3, if_neg hne, hg]
    simp only [strRest, List.cons_append, List.append_assoc]
    rw [if_neg hcomma, if_pos trivial, h3]
    rfl
end

/-- Reading the tokens of an expression gives the expression. -/
theorem readExpr_strE {e : Expr} (h : Plain e) (hp : proper e = true) :
    readExpr (4 * (strE e).length + 4) 0 (strE e) = some (e, []) := by
  have := ((reads e h).reads hp).2.1 [] (4 * (strE e).length + 4) stop_nil (by omega)
  simpa using this

end VyGrammar
end Mutagenyx
