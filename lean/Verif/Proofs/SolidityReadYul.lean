import Verif.Proofs.SolidityRead

/-!
# Reading the tokens of inline assembly gives the statements
-/

namespace Mutagenyx
namespace SolGrammar

/-! ### Expressions -/

/-- What may follow an expression. -/
def YulAfter (t : String) : Prop := t ≠ "(" ∧ t ≠ "."

theorem yul_name_ne {t u : String} (h : YulName t) (hu : isName u = false ∨ u ∈ yulWords) : t ≠ u := by
  rintro rfl
  rcases hu with hu | hu
  · rw [h.1] at hu; cases hu
  · exact h.2 hu

theorem yulExpr_cons : (e : YulExpr) → e.Clear → ∃ t ts, e.toks = t :: ts ∧ t ≠ ")"
  | .name p, h => by
    obtain ⟨ts, hts⟩ := pathToks_cons h.1
    exact ⟨_, ts, hts, yul_name_ne (h.2 _ (List.head_mem h.1)) (Or.inl (by decide))⟩
  | .lit t, h => ⟨t, [], rfl, (isLeaf_ne h.1).2.2.1⟩
  | .str t, _ => ⟨_, [], rfl, quoted_ne (by decide)⟩
  | .call f args, h => ⟨f, _, rfl, yul_name_ne h.1 (Or.inl (by decide))⟩

mutual
theorem reads_yulExpr : (e : YulExpr) → e.Clear → (n : Nat) → (rest : List String) → e.toks.length ≤ n → Heads YulAfter rest →
    readYulExpr n (e.toks ++ rest) = some (e, rest)
  | .name p, h, n, rest, hn, hr => by
    obtain ⟨ts, hts⟩ := pathToks_cons h.1
    have hf := h.2 _ (List.head_mem h.1)
    have hp := readPath_toks p h.1 (fun n hn => (h.2 n hn).1) rest (fun u us hu => (hr u us hu).2)
    simp only [YulExpr.toks, hts, List.length_cons] at hn
    obtain ⟨n, rfl⟩ : ∃ m, n = m + 1 := ⟨n - 1, by omega⟩
    have hd : (ts ++ rest).head? ≠ some "(" := by
      cases p with
      | nil => exact absurd rfl h.1
      | cons a q =>
        cases q with
        | nil =>
          simp only [pathToks, List.map_cons, List.map_nil, sepBy, List.cons.injEq] at hts
          rw [← hts.2]
          exact (hr.imp fun _ h => h.1).head_ne
        | cons b q =>
          simp only [pathToks, List.map_cons, sepBy, List.cons_append, List.nil_append, List.cons.injEq] at hts
          rw [← hts.2]
          simp
    simp only [YulExpr.toks]
    rw [hts] at hp ⊢
    rw [List.cons_append] at hp ⊢
    rw [readYulExpr, if_pos ⟨hf.1, yul_name_ne hf (Or.inr (by decide)), yul_name_ne hf (Or.inr (by decide))⟩, if_neg hd, hp]
    rfl
  | .lit t, h, n, rest, hn, hr => by
    simp only [YulExpr.toks, List.length_cons] at hn
    obtain ⟨n, rfl⟩ : ∃ m, n = m + 1 := ⟨n - 1, by omega⟩
    simp only [YulExpr.toks, List.cons_append, List.nil_append]
    rw [readYulExpr, if_neg (by
      rintro ⟨h1, h2, h3⟩
      rcases h.2 h1 with h | h
      · exact h2 h
      · exact h3 h), if_pos h.1]
  | .str t, h, n, rest, hn, hr => by
    simp only [YulExpr.toks, List.length_cons] at hn
    obtain ⟨n, rfl⟩ : ∃ m, n = m + 1 := ⟨n - 1, by omega⟩
    simp only [YulExpr.toks, List.cons_append, List.nil_append]
    have hl := quoted_leaf t
    rw [readYulExpr, if_neg (fun hx => by rw [isName_leaf hx.1] at hl; cases hl), if_neg (by rw [hl]; decide), literal_quoted]
    rfl
  | .call f args, h, n, rest, hn, hr => by
    simp only [YulExpr.toks, List.length_cons, List.length_append, List.length_nil] at hn
    obtain ⟨n, rfl⟩ : ∃ m, n = m + 1 := ⟨n - 1, by omega⟩
    simp only [YulExpr.toks, List.cons_append, List.append_assoc, List.nil_append]
    rw [readYulExpr, if_pos ⟨h.1.1, yul_name_ne h.1 (Or.inr (by decide)), yul_name_ne h.1 (Or.inr (by decide))⟩,
      if_pos (by rfl), List.tail_cons, reads_yulArgs args h.2 n rest (by omega)]
    rfl
theorem reads_yulArgs : (es : List YulExpr) → yulArgsClear es → (n : Nat) → (rest : List String) → (yulArgs es).length + 1 ≤ n →
    readYulArgs n (yulArgs es ++ ")" :: rest) = some (es, rest)
  | [], _, n, rest, hn => by
    obtain ⟨n, rfl⟩ : ∃ m, n = m + 1 := ⟨n - 1, by omega⟩
    simp [yulArgs, readYulArgs]
  | [e], h, n, rest, hn => by
    obtain ⟨n, rfl⟩ : ∃ m, n = m + 1 := ⟨n - 1, by omega⟩
    obtain ⟨t, ts, hts, ht⟩ := yulExpr_cons e h.1
    simp only [yulArgs, yulRest, List.append_nil] at hn ⊢
    rw [readYulArgs, if_neg (by rw [hts]; simpa using ht),
      reads_yulExpr e h.1 n (")" :: rest) (by omega) (heads_cons ⟨by decide, by decide⟩)]
    simp
  | e :: e' :: es, h, n, rest, hn => by
    obtain ⟨n, rfl⟩ : ∃ m, n = m + 1 := ⟨n - 1, by omega⟩
    obtain ⟨t, ts, hts, ht⟩ := yulExpr_cons e h.1
    have ih := reads_yulArgs (e' :: es) h.2 n rest (by
      simp only [yulArgs, yulRest, List.length_append, List.length_cons] at hn ⊢; omega)
    have h1 := reads_yulExpr e h.1 n ("," :: (yulArgs (e' :: es) ++ ")" :: rest)) (by
      simp only [yulArgs, yulRest, List.length_append, List.length_cons] at hn; omega) (heads_cons ⟨by decide, by decide⟩)
    simp only [yulArgs, yulRest, List.append_assoc, List.cons_append] at ih h1 ⊢
    rw [readYulArgs, if_neg (by rw [hts]; simpa using ht), h1]
    simp [ih]
end

theorem yulExprAt_toks {e : YulExpr} (h : e.Clear) {rest : List String} (hr : Heads YulAfter rest) :
    yulExprAt (e.toks ++ rest) = some (e, rest) :=
  reads_yulExpr e h _ rest (by simp only [List.length_append]; omega) hr

/-! ### Names -/

theorem namesAt_toks {ns : List String} (hne : ns ≠ []) (h : ∀ n ∈ ns, isName n = true) {rest : List String} (hr : rest.head? ≠ some ",") {n : Nat}
    (hn : ns.length ≤ n) : commas nameAt n (namesToks ns ++ rest) = some (ns, rest) :=
  commas_toks (p := nameAt) (fun n => [n]) hr ns hne (fun x hx r _ => nameAt_cons (h x hx) r) n hn

theorem namesToks_length : (ns : List String) → ns.length ≤ (namesToks ns).length
  | [] => by simp
  | [n] => by simp [namesToks, sepBy]
  | n :: m :: ns => by
    have := namesToks_length (m :: ns)
    simp only [namesToks, List.map_cons, sepBy, List.length_append, List.length_cons, List.length_nil] at this ⊢
    omega

theorem yulParamsAt_toks {ps : List String} (h : ∀ p ∈ ps, YulName p) (rest : List String) :
    yulParamsAt ("(" :: (namesToks ps ++ ")" :: rest)) = some (ps, rest) := by
  cases ps with
  | nil => simp [yulParamsAt, namesToks, sepBy]
  | cons p ps =>
    have hl := namesToks_length (p :: ps)
    have hc := namesAt_toks (ns := p :: ps) (by simp) (fun n hn => (h n hn).1) (rest := ")" :: rest) (by simp)
      (n := (namesToks (p :: ps) ++ ")" :: rest).length) (by simp only [List.length_append] at hl ⊢; omega)
    have hd : (namesToks (p :: ps) ++ ")" :: rest).head? ≠ some ")" := by
      have : (namesToks (p :: ps)).head? = some p := by cases ps <;> simp [namesToks, sepBy]
      simp only [List.head?_append, this, Option.some_or]
      intro hx
      cases hx
      exact absurd (h _ (List.mem_cons_self ..)).1 (by decide)
    rw [yulParamsAt, expect_cons]
    simp only [Option.bind_eq_bind, Option.bind_some]
    rw [if_neg hd, hc]
    simp

theorem yulReturnsAt_toks {rs : List String} (h : ∀ r ∈ rs, YulName r) (rest : List String) :
    yulReturnsAt (yulReturns rs ++ "{" :: rest) = some (rs, "{" :: rest) := by
  cases rs with
  | nil => simp [yulReturns, yulReturnsAt]
  | cons r rs =>
    have hl := namesToks_length (r :: rs)
    simp only [yulReturns, yulReturnsAt, List.cons_append, List.head?_cons, if_true, List.tail_cons]
    exact namesAt_toks (by simp) (fun n hn => (h n hn).1) (by simp) (by simp only [List.length_append, List.length_cons] at hl ⊢; omega)

/-! ### Statements -/

/-- What may follow a statement. -/
def YulNext (t : String) : Prop := t ∉ ["(", ".", ",", ":=", "case", "default"]

theorem YulNext.after {ts : List String} (h : Heads YulNext ts) : Heads YulAfter ts := h.imp fun t ht => by
  unfold YulNext at ht
  exact ⟨fun h => ht (by simp [h]), fun h => ht (by simp [h])⟩

theorem YulNext.ne {ts : List String} (h : Heads YulNext ts) {t : String} (ht : t ∈ ["(", ".", ",", ":=", "case", "default"]) :
    ts.head? ≠ some t := (h.imp (Q := (· ≠ t)) fun u hu h => hu (by rw [h]; exact ht)).head_ne

theorem yulName_next {t : String} (h : YulName t) : YulNext t ∧ t ≠ "}" := by
  refine ⟨fun hm => ?_, yul_name_ne h (Or.inl (by decide))⟩
  exact (by
    intro u hu
    revert u
    decide : ∀ u ∈ ["(", ".", ",", ":=", "case", "default"], isName u = false ∨ u ∈ yulWords) t hm |>.elim
      (fun h' => by rw [h.1] at h'; cases h') h.2

theorem yul_cons : (s : YulStmt) → s.Clear → ∃ t ts, s.toks = t :: ts ∧ YulNext t ∧ t ≠ "}"
  | .expr (.call f args), h => ⟨f, _, rfl, yulName_next h.1⟩
  | .expr (.name _), h => h.elim
  | .expr (.lit _), h => h.elim
  | .expr (.str _), h => h.elim
  | .let_ vs none, _ => ⟨"let", _, rfl, by unfold YulNext; decide⟩
  | .let_ vs (some _), _ => ⟨"let", _, rfl, by unfold YulNext; decide⟩
  | .assign [] _, h => absurd rfl h.1
  | .assign (p :: vs) e, h => by
    obtain ⟨hne, hn⟩ := h.2.1 p (List.mem_cons_self ..)
    obtain ⟨ts, hts⟩ := pathToks_cons hne
    refine ⟨p.head hne, ?_⟩
    cases vs with
    | nil => exact ⟨_, by simp only [YulStmt.toks, List.map_cons, List.map_nil, sepBy, hts]; rfl, yulName_next (hn _ (List.head_mem hne))⟩
    | cons q vs => exact ⟨_, by simp only [YulStmt.toks, List.map_cons, sepBy, hts]; rfl, yulName_next (hn _ (List.head_mem hne))⟩
  | .block _, _ => ⟨"{", _, rfl, by unfold YulNext; decide⟩
  | .if_ _ _, _ => ⟨"if", _, rfl, by unfold YulNext; decide⟩
  | .switch _ _, _ => ⟨"switch", _, rfl, by unfold YulNext; decide⟩
  | .case_ _ _, h => h.elim
  | .for_ _ _ _ _, _ => ⟨"for", _, rfl, by unfold YulNext; decide⟩
  | .function _ _ _ _, _ => ⟨"function", _, rfl, by unfold YulNext; decide⟩
  | .break_, _ => ⟨"break", _, rfl, by unfold YulNext; decide⟩
  | .continue_, _ => ⟨"continue", _, rfl, by unfold YulNext; decide⟩
  | .leave, _ => ⟨"leave", _, rfl, by unfold YulNext; decide⟩

/-- A statement that begins with a name. -/
theorem readYul_name {t : String} (h : YulName t) (n : Nat) (ts : List String) :
    readYul (n + 1) (t :: ts) = (commas readPath (ts.length + 1) (t :: ts)).bind fun (vs, us) =>
      if us.head? = some ":=" then (yulExprAt us.tail).map fun (e, ts) => (.assign vs e, ts)
      else (yulExprAt (t :: ts)).map fun (e, ts) => (.expr e, ts) := by
  rw [readYul, if_neg (yul_name_ne h (Or.inl (by decide))), if_neg (yul_name_ne h (Or.inr (by decide))),
    if_neg (yul_name_ne h (Or.inr (by decide))), if_neg (yul_name_ne h (Or.inr (by decide))), if_neg (yul_name_ne h (Or.inr (by decide))),
    if_neg (yul_name_ne h (Or.inr (by decide))), if_neg (yul_name_ne h (Or.inr (by decide))), if_neg (yul_name_ne h (Or.inr (by decide))),
    if_neg (yul_name_ne h (Or.inr (by decide)))]
  rfl

theorem paths_next {vs : List (List String)} (hne : vs ≠ []) (h : ∀ p ∈ vs, p ≠ [] ∧ ∀ n ∈ p, YulName n) (rest : List String) :
    ∃ t ts, sepBy "," (vs.map pathToks) ++ rest = t :: ts ∧ YulName t := by
  cases vs with
  | nil => exact absurd rfl hne
  | cons p vs =>
    obtain ⟨hp, hn⟩ := h p (List.mem_cons_self ..)
    obtain ⟨ts, hts⟩ := pathToks_cons hp
    cases vs with
    | nil => exact ⟨p.head hp, _, by simp only [List.map_cons, List.map_nil, sepBy, hts]; rfl, hn _ (List.head_mem hp)⟩
    | cons q vs => exact ⟨p.head hp, _, by simp only [List.map_cons, sepBy, hts]; rfl, hn _ (List.head_mem hp)⟩

theorem cases_heads {cs : List YulStmt} (h : casesClear cs) {rest : List String} (hr : Heads YulAfter rest) : Heads YulAfter (yulToks cs ++ rest) := by
  cases cs with
  | nil => exact hr
  | cons c cs =>
    cases c with
    | case_ v ss => cases v <;> exact heads_cons ⟨by decide, by decide⟩
    | _ => exact absurd h (by simp [casesClear])

mutual
theorem reads_yul : (s : YulStmt) → s.Clear → (n : Nat) → (rest : List String) → s.toks.length ≤ n → Heads YulNext rest →
    readYul n (s.toks ++ rest) = some (s, rest)
  | .expr (.name _), h, _, _, _, _ => h.elim
  | .expr (.lit _), h, _, _, _, _ => h.elim
  | .expr (.str _), h, _, _, _, _ => h.elim
  | .case_ _ _, h, _, _, _, _ => h.elim
  | .expr (.call f args), h, n, rest, hn, hr => by
    simp only [YulStmt.toks, YulExpr.toks, List.length_cons] at hn
    obtain ⟨n, rfl⟩ : ∃ m, n = m + 1 := ⟨n - 1, by omega⟩
    have h1 := yulExprAt_toks (e := .call f args) h (YulNext.after hr)
    have h2 : ∀ ts : List String, readPath (f :: "(" :: ts) = some ([f], "(" :: ts) := fun ts =>
      readPath_toks [f] (by simp) (by simpa using h.1.1) ("(" :: ts) (by intro t ts ht; cases ht; decide)
    simp only [YulStmt.toks, YulExpr.toks, List.cons_append, List.append_assoc, List.nil_append] at h1 ⊢
    rw [readYul_name h.1, commas, h2]
    simp [h1]
  | .let_ vs none, h, n, rest, hn, hr => by
    simp only [YulStmt.toks, List.length_cons] at hn
    obtain ⟨n, rfl⟩ : ∃ m, n = m + 1 := ⟨n - 1, by omega⟩
    have hl := namesToks_length vs
    have h1 := namesAt_toks h.1 (fun n hn => (h.2.1 n hn).1) (YulNext.ne hr (by decide)) (n := (namesToks vs ++ rest).length)
      (by simp only [List.length_append]; omega)
    have h2 := YulNext.ne hr (t := ":=") (by decide)
    simp only [YulStmt.toks, List.cons_append]
    rw [readYul, if_neg (by decide), if_pos rfl, h1]
    simp [h2]
  | .let_ vs (some e), h, n, rest, hn, hr => by
    simp only [YulStmt.toks, List.length_cons] at hn
    obtain ⟨n, rfl⟩ : ∃ m, n = m + 1 := ⟨n - 1, by omega⟩
    have hl := namesToks_length vs
    have h1 := namesAt_toks h.1 (fun n hn => (h.2.1 n hn).1) (rest := ":=" :: (e.toks ++ rest)) (by simp)
      (n := (namesToks vs ++ ":=" :: (e.toks ++ rest)).length) (by simp only [List.length_append]; omega)
    have h2 := yulExprAt_toks (h.2.2 e rfl) (YulNext.after hr)
    simp only [YulStmt.toks, List.cons_append, List.append_assoc]
    rw [readYul, if_neg (by decide), if_pos rfl, h1]
    simp [h2]
  | .assign vs e, h, n, rest, hn, hr => by
    obtain ⟨n, rfl⟩ : ∃ m, n = m + 1 := ⟨n - 1, by
      simp only [YulStmt.toks, List.length_append, List.length_cons] at hn; omega⟩
    obtain ⟨t, ts, hts, ht⟩ := paths_next h.1 h.2.1 (":=" :: (e.toks ++ rest))
    have hl := sepBy_length "," (vs.map pathToks)
    have h1 := commas_toks (p := readPath) pathToks (rest := ":=" :: (e.toks ++ rest)) (by simp) vs h.1
      (fun p hp r hr' => readPath_toks p (h.2.1 p hp).1 (fun n hn => ((h.2.1 p hp).2 n hn).1) r (by
        intro u us hu
        rcases hr' with hr' | hr'
        · rw [hu] at hr'
          simp only [List.head?_cons, Option.some.injEq] at hr'
          rw [hr']
          decide
        · rw [hu] at hr'
          cases hr'
          decide)) (sepBy "," (vs.map pathToks) ++ ":=" :: (e.toks ++ rest)).length (by
        simp only [List.length_map] at hl
        simp only [List.length_append, List.length_cons]
        omega)
    have h2 := yulExprAt_toks h.2.2 (YulNext.after hr)
    simp only [YulStmt.toks, List.append_assoc, List.cons_append]
    rw [hts, List.length_cons] at h1
    rw [hts, readYul_name ht, h1]
    simp [h2]
  | .block ss, h, n, rest, hn, hr => by
    simp only [YulStmt.toks, List.length_cons, List.length_append, List.length_nil] at hn
    obtain ⟨n, rfl⟩ : ∃ m, n = m + 1 := ⟨n - 1, by omega⟩
    simp only [YulStmt.toks, List.cons_append, List.append_assoc, List.nil_append]
    rw [readYul, if_pos rfl, reads_yuls ss h n rest (by omega)]
    rfl
  | .if_ c ss, h, n, rest, hn, hr => by
    simp only [YulStmt.toks, List.length_cons, List.length_append, List.length_nil] at hn
    obtain ⟨n, rfl⟩ : ∃ m, n = m + 1 := ⟨n - 1, by omega⟩
    simp only [YulStmt.toks, List.cons_append, List.append_assoc, List.nil_append]
    rw [readYul, if_neg (by decide), if_neg (by decide), if_pos rfl, yulExprAt_toks h.1 (heads_cons ⟨by decide, by decide⟩)]
    simp [reads_yuls ss h.2 n rest (by omega)]
  | .switch e cs, h, n, rest, hn, hr => by
    simp only [YulStmt.toks, List.length_cons, List.length_append] at hn
    obtain ⟨n, rfl⟩ : ∃ m, n = m + 1 := ⟨n - 1, by omega⟩
    obtain ⟨t, ts, hts, _⟩ := yulExpr_cons e h.1
    have hl : 1 ≤ e.toks.length := by rw [hts]; simp
    simp only [YulStmt.toks, List.cons_append, List.append_assoc]
    rw [readYul, if_neg (by decide), if_neg (by decide), if_neg (by decide), if_pos rfl,
      yulExprAt_toks h.1 (cases_heads h.2 (YulNext.after hr))]
    simp [reads_cases cs h.2 n rest (by omega) hr]
  | .for_ pre c post body, h, n, rest, hn, hr => by
    simp only [YulStmt.toks, List.length_cons, List.length_append, List.length_nil] at hn
    obtain ⟨n, rfl⟩ : ∃ m, n = m + 1 := ⟨n - 1, by omega⟩
    simp only [YulStmt.toks, List.cons_append, List.append_assoc, List.nil_append]
    rw [readYul, if_neg (by decide), if_neg (by decide), if_neg (by decide), if_neg (by decide), if_pos rfl]
    simp [reads_yuls pre h.1 n _ (by omega), yulExprAt_toks h.2.1 (heads_cons (P := YulAfter) (t := "{") ⟨by decide, by decide⟩),
      reads_yuls post h.2.2.1 n _ (by omega), reads_yuls body h.2.2.2 n _ (by omega)]
  | .function f ps rs ss, h, n, rest, hn, hr => by
    simp only [YulStmt.toks, List.length_cons, List.length_append, List.length_nil] at hn
    obtain ⟨n, rfl⟩ : ∃ m, n = m + 1 := ⟨n - 1, by omega⟩
    simp only [YulStmt.toks, List.cons_append, List.append_assoc, List.nil_append]
    rw [readYul, if_neg (by decide), if_neg (by decide), if_neg (by decide), if_neg (by decide), if_neg (by decide), if_pos rfl,
      nameAt_cons h.1.1]
    simp [yulParamsAt_toks h.2.1, yulReturnsAt_toks h.2.2.1, reads_yuls ss h.2.2.2 n _ (by omega)]
  | .break_, h, n, rest, hn, hr => by
    simp only [YulStmt.toks, List.length_cons] at hn
    obtain ⟨n, rfl⟩ : ∃ m, n = m + 1 := ⟨n - 1, by omega⟩
    simp [YulStmt.toks, readYul]
  | .continue_, h, n, rest, hn, hr => by
    simp only [YulStmt.toks, List.length_cons] at hn
    obtain ⟨n, rfl⟩ : ∃ m, n = m + 1 := ⟨n - 1, by omega⟩
    simp [YulStmt.toks, readYul]
  | .leave, h, n, rest, hn, hr => by
    simp only [YulStmt.toks, List.length_cons] at hn
    obtain ⟨n, rfl⟩ : ∃ m, n = m + 1 := ⟨n - 1, by omega⟩
    simp [YulStmt.toks, readYul]
theorem reads_yuls : (ss : List YulStmt) → yulsClear ss → (n : Nat) → (rest : List String) → (yulToks ss).length + 1 ≤ n →
    readYuls n (yulToks ss ++ "}" :: rest) = some (ss, rest)
  | [], _, n, rest, hn => by
    obtain ⟨n, rfl⟩ : ∃ m, n = m + 1 := ⟨n - 1, by omega⟩
    simp [yulToks, readYuls]
  | s :: ss, h, n, rest, hn => by
    obtain ⟨n, rfl⟩ : ∃ m, n = m + 1 := ⟨n - 1, by omega⟩
    obtain ⟨t, ts, hts, _, ht⟩ := yul_cons s h.1
    have hl : 1 ≤ s.toks.length := by rw [hts]; simp
    simp only [yulToks, List.length_append] at hn
    have hh : Heads YulNext (yulToks ss ++ "}" :: rest) := by
      cases ss with
      | nil => exact heads_cons (by unfold YulNext; decide)
      | cons s' ss' =>
        obtain ⟨t', ts', hts', ht', _⟩ := yul_cons s' h.2.1
        rw [yulToks, hts']
        exact heads_cons ht'
    simp only [yulToks, List.append_assoc]
    rw [readYuls, if_neg (by rw [hts]; simpa using ht), reads_yul s h.1 n _ (by omega) hh]
    simp [reads_yuls ss h.2 n rest (by omega)]
theorem reads_cases : (cs : List YulStmt) → casesClear cs → (n : Nat) → (rest : List String) → (yulToks cs).length + 1 ≤ n →
    Heads YulNext rest → readCases n (yulToks cs ++ rest) = some (cs, rest)
  | [], _, n, rest, hn, hr => by
    obtain ⟨n, rfl⟩ : ∃ m, n = m + 1 := ⟨n - 1, by omega⟩
    simp [yulToks, readCases, YulNext.ne hr (t := "case") (by decide), YulNext.ne hr (t := "default") (by decide)]
  | .case_ none ss :: cs, h, n, rest, hn, hr => by
    obtain ⟨n, rfl⟩ : ∃ m, n = m + 1 := ⟨n - 1, by omega⟩
    simp only [yulToks, YulStmt.toks, List.length_append, List.length_cons, List.length_nil] at hn
    simp only [yulToks, YulStmt.toks, List.append_assoc, List.cons_append, List.nil_append]
    rw [readCases, if_neg (by simp), if_pos (by rfl)]
    simp [reads_yuls ss h.2.1 n _ (by omega), reads_cases cs h.2.2 n rest (by omega) hr]
  | .case_ (some v) ss :: cs, h, n, rest, hn, hr => by
    obtain ⟨n, rfl⟩ : ∃ m, n = m + 1 := ⟨n - 1, by omega⟩
    simp only [yulToks, YulStmt.toks, List.length_append, List.length_cons, List.length_nil] at hn
    simp only [yulToks, YulStmt.toks, List.append_assoc, List.cons_append, List.nil_append]
    rw [readCases, if_pos (by rfl)]
    simp [yulExprAt_toks (h.1 v rfl) (heads_cons (P := YulAfter) (t := "{") ⟨by decide, by decide⟩), reads_yuls ss h.2.1 n _ (by omega),
      reads_cases cs h.2.2 n rest (by omega) hr]
  | .expr _ :: _, h, _, _, _, _ => h.elim
  | .let_ _ _ :: _, h, _, _, _, _ => h.elim
  | .assign _ _ :: _, h, _, _, _, _ => h.elim
  | .block _ :: _, h, _, _, _, _ => h.elim
  | .if_ _ _ :: _, h, _, _, _, _ => h.elim
  | .switch _ _ :: _, h, _, _, _, _ => h.elim
  | .for_ _ _ _ _ :: _, h, _, _, _, _ => h.elim
  | .function _ _ _ _ :: _, h, _, _, _, _ => h.elim
  | .break_ :: _, h, _, _, _, _ => h.elim
  | .continue_ :: _, h, _, _, _, _ => h.elim
  | .leave :: _, h, _, _, _, _ => h.elim
end

end SolGrammar
end Mutagenyx
