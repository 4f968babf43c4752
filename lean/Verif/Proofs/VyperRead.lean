import Verif.Proofs.VyperBlocks

/-!
# Reading the lines of Vyper statements
-/

namespace Mutagenyx
namespace VyPrint

open NodePrinter Printer VyGrammar Lex

/-! ### First words -/

/-- Words that statements and declarations start with. -/
def firstWords : List String :=
  ["pass", "break", "continue", "return", "raise", "assert", "log", "import", "from", "for", "if", "else", "def", "struct", "event",
   "enum", "interface", "@"]

theorem leaf_first {t : String} (h : isLeaf t = true) : t ∉ firstWords := by
  intro hm
  simp only [firstWords, List.mem_cons, List.not_mem_nil, or_false] at hm
  rcases hm with rfl | rfl | rfl | rfl | rfl | rfl | rfl | rfl | rfl | rfl | rfl | rfl | rfl | rfl | rfl | rfl | rfl | rfl <;>
    exact absurd h (by decide)

theorem quoted_first (t : String) : quoted t ∉ firstWords := by
  intro hm
  simp only [firstWords, List.mem_cons, List.not_mem_nil, or_false] at hm
  rcases hm with h | h | h | h | h | h | h | h | h | h | h | h | h | h | h | h | h | h <;> exact absurd h (quoted_ne (by decide))

theorem strE_first : (e : Expr) → Plain e → ∃ t ts, strE e = t :: ts ∧ t ∉ firstWords
  | .leaf t, h => ⟨t, [], by simp [strE], leaf_first (by simpa [Plain] using h)⟩
  | .str t, _ => ⟨quoted t, [], by simp [strE], quoted_first t⟩
  | .attr e id, h => by
    simp only [Plain] at h
    obtain ⟨t, ts, h1, h2⟩ := strE_first e h.2.2
    exact ⟨t, _, by simp only [strE, h1, List.cons_append]; rfl, h2⟩
  | .index e i, h => by
    simp only [Plain] at h
    obtain ⟨t, ts, h1, h2⟩ := strE_first e h.2.1
    exact ⟨t, _, by simp only [strE, h1, List.cons_append]; rfl, h2⟩
  | .call e i, h => by
    simp only [Plain] at h
    obtain ⟨t, ts, h1, h2⟩ := strE_first e h.2.1
    exact ⟨t, _, by simp only [strE, h1, List.cons_append]; rfl, h2⟩
  | .list es, _ => ⟨_, _, by rw [strE], by decide⟩
  | .dict es, _ => ⟨_, _, by rw [strE], by decide⟩
  | .named k e, h => by
    simp only [Plain] at h
    exact ⟨_, _, by rw [strE], leaf_first (isName_leaf h.1)⟩
  | .entry k v, h => by
    simp only [Plain] at h
    obtain ⟨t, ts, h1, h2⟩ := strE_first k h.2.1
    exact ⟨t, _, by simp only [strE, h1, List.cons_append]; rfl, h2⟩
  | .bin l o r, h => by
    simp only [Plain] at h
    obtain ⟨t, ts, h1, h2⟩ := strE_first l h.1
    by_cases hl : isBin l = true
    · exact ⟨"(", _, by simp only [strE, wrap, hl, if_true, List.cons_append]; rfl, by decide⟩
    · exact ⟨t, _, by simp only [strE, wrap, hl, Bool.false_eq_true, if_false, h1, List.cons_append]; rfl, h2⟩
  | .not e, _ => ⟨_, _, by rw [strE], by decide⟩
  | .inv e, _ => ⟨_, _, by rw [strE], by decide⟩
  | .neg e, _ => ⟨_, _, by rw [strE], by decide⟩

theorem primary_first : (e : Expr) → Plain e → primary e = true → ∃ t ts, strE e = t :: ts ∧ t ≠ "("
  | .leaf t, h, _ => ⟨t, [], by simp [strE], (isLeaf_ne (by simpa [Plain] using h)).2.2.1⟩
  | .str t, _, _ => ⟨quoted t, [], by simp [strE], quoted_ne (by decide)⟩
  | .attr e id, h, _ => by
    simp only [Plain] at h
    obtain ⟨t, ts, h1, h2⟩ := primary_first e h.2.2 h.1
    exact ⟨t, _, by simp only [strE, h1, List.cons_append]; rfl, h2⟩
  | .index e i, h, _ => by
    simp only [Plain] at h
    obtain ⟨t, ts, h1, h2⟩ := primary_first e h.2.1 h.1
    exact ⟨t, _, by simp only [strE, h1, List.cons_append]; rfl, h2⟩
  | .call e i, h, _ => by
    simp only [Plain] at h
    obtain ⟨t, ts, h1, h2⟩ := primary_first e h.2.1 h.1
    exact ⟨t, _, by simp only [strE, h1, List.cons_append]; rfl, h2⟩
  | .list es, _, _ => ⟨_, _, by rw [strE], by decide⟩
  | .dict _, _, h => by cases h
  | .named _ _, _, h => by cases h
  | .entry _ _, _, h => by cases h
  | .bin _ _ _, _, h => by cases h
  | .not _, _, h => by cases h
  | .inv _, _, h => by cases h
  | .neg _, _, h => by cases h

/-! ### Expressions -/

theorem expr_read {e : Expr} (h : Fine e) {rest : List String} (hs : Stop 0 rest) : expr? (strE e ++ rest) = some (e, rest) := by
  unfold expr?
  refine ((reads e h.1).reads h.2).whole rest _ hs ?_
  simp only [List.length_append]
  omega

theorem whole_read {e : Expr} (h : Fine e) : whole? (strE e) = some e := by
  have := expr_read h stop_nil
  rw [List.append_nil] at this
  simp [whole?, this]

theorem strRest_cons (e : Expr) (es : List Expr) : strRest (e :: es) = "," :: strArgs (e :: es) := by
  rw [strRest, strArgs]

theorem readRow_args : (es : List Expr) → FineAll es → es ≠ [] → (rest : List String) → Stop 0 rest → rest.head? ≠ some "," → (f : Nat) →
    es.length ≤ f → readRow f (strArgs es ++ rest) = some (es, rest)
  | [], _, h, _, _, _, _, _ => absurd rfl h
  | [e], h, _, rest, hs, hc, f, hf => by
    obtain ⟨f, rfl⟩ : ∃ g, f = g + 1 := ⟨f - 1, by simp at hf; omega⟩
    have he := expr_read (h e (List.mem_cons_self ..)) hs
    rw [strArgs, strRest, List.append_nil, readRow, he]
    cases rest with
    | nil => rfl
    | cons u us =>
      have : u ≠ "," := by simpa using hc
      simp [this]
  | e :: e' :: es, h, _, rest, hs, hc, f, hf => by
    obtain ⟨f, rfl⟩ : ∃ g, f = g + 1 := ⟨f - 1, by simp at hf; omega⟩
    have ih := readRow_args (e' :: es) (fun x hx => h x (List.mem_cons_of_mem _ hx)) (by simp) rest hs hc f (by simpa using hf)
    have he := expr_read (h e (List.mem_cons_self ..)) (stop_cons (t := ",") (by decide) (strArgs (e' :: es) ++ rest))
    rw [strArgs, strRest_cons, List.append_assoc, List.cons_append, readRow, he]
    simp [ih]

theorem args_length : (es : List Expr) → FineAll es → es.length ≤ (strArgs es).length
  | [], _ => by simp
  | [e], h => by
    obtain ⟨t, ts, h1, _⟩ := strE_cons e (h e (List.mem_cons_self ..)).1
    simp [strArgs, h1]
  | e :: e' :: es, h => by
    have ih := args_length (e' :: es) fun x hx => h x (List.mem_cons_of_mem _ hx)
    rw [strArgs, strRest_cons]
    simp only [List.length_cons, List.length_append] at ih ⊢
    omega

theorem row_read {es : List Expr} (h : FineAll es) (hne : es ≠ []) {rest : List String} (hs : Stop 0 rest) (hc : rest.head? ≠ some ",") :
    row? (strArgs es ++ rest) = some (es, rest) := by
  unfold row?
  refine readRow_args es h hne rest hs hc _ ?_
  have := args_length es h
  simp only [List.length_append]
  omega

theorem wholeRow_read {es : List Expr} (h : FineAll es) (hne : es ≠ []) : wholeRow? (strArgs es) = some es := by
  have := row_read h hne stop_nil (by simp)
  rw [List.append_nil] at this
  simp [wholeRow?, this]

theorem row_one {e : Expr} (h : Fine e) {rest : List String} (hs : Stop 0 rest) (hc : rest.head? ≠ some ",") :
    row? (strE e ++ rest) = some ([e], rest) := by
  have := row_read (es := [e]) (fun x hx => by rw [List.mem_singleton.1 hx]; exact h) (by simp) hs hc
  simpa [strArgs, strRest] using this

/-! ### Statements on one line -/

theorem stop_aug {o : Operator} (h : o ∈ augmented) (ts : List String) :
    Stop 0 ((o.text ++ "=") :: ts) ∧ o.text ++ "=" ≠ "," ∧ o.text ++ "=" ≠ "=" ∧ o.text ++ "=" ≠ ":" ∧
      augmented.find? (fun x => x.text ++ "=" = o.text ++ "=") = some o := by
  simp only [augmented, List.mem_cons, List.not_mem_nil, or_false] at h
  rcases h with rfl | rfl | rfl | rfl | rfl | rfl | rfl | rfl | rfl <;>
    refine ⟨⟨fun o r ho => ?_, fun u us hu => ?_⟩, by decide, by decide, by decide, by decide⟩ <;>
    first
      | (rw [operator_none (by decide) (by decide)] at ho; cases ho)
      | (cases hu; decide)

theorem path_read : (p : List String) → Names p → p ≠ [] → (rest : List String) → rest.head? ≠ some "." →
    readPath (strPath p ++ rest) = some (p, rest)
  | [], _, h, _, _ => absurd rfl h
  | [n], h, _, rest, hr => by
    have hn := h n (List.mem_cons_self ..)
    cases rest with
    | nil => simp [strPath, readPath, hn]
    | cons u us =>
      have : u ≠ "." := by simpa using hr
      simp [strPath, readPath, hn, this]
  | n :: m :: ns, h, _, rest, hr => by
    have hn := h n (List.mem_cons_self ..)
    have ih := path_read (m :: ns) (fun x hx => h x (List.mem_cons_of_mem _ hx)) (by simp) rest hr
    have hs : strPath (n :: m :: ns) = n :: "." :: strPath (m :: ns) := rfl
    rw [hs]
    simp [readPath, hn, ih]

theorem alias_read {a : Option String} (h : Names a.toList) : alias? (strAlias a) = some a := by
  cases a with
  | none => rfl
  | some a =>
    have := h a (by simp)
    simp [strAlias, alias?, this]

theorem alias_head (a : Option String) : (strAlias a).head? ≠ some "." := by
  cases a with
  | none => simp [strAlias]
  | some a => simp [strAlias]

theorem names_read {level : Nat} {path : List String} {n : String} {a : Option String} (hn : isName n = true) (ha : Names a.toList) :
    readNames level path (n :: strAlias a) = some (.from_ level path n a) := by
  simp [readNames, hn, alias_read ha]

theorem path_cons : (p : List String) → Names p → p ≠ [] → ∃ t ts, strPath p = t :: ts ∧ isName t = true
  | [], _, h => absurd rfl h
  | [n], h, _ => ⟨n, [], rfl, h n (List.mem_cons_self ..)⟩
  | n :: _ :: _, h, _ => ⟨n, _, rfl, h n (List.mem_cons_self ..)⟩

theorem from_read {level : Nat} {p : List String} {n : String} {a : Option String} (h : (Simple.from_ level p n a).Ok) :
    readFrom (List.replicate level "." ++ (strPath p ++ ("import" :: n :: strAlias a))) = some (.from_ level p n a) := by
  obtain ⟨h1, h2, h3, h4⟩ := h
  rcases h1 with ⟨rfl, hne⟩ | ⟨rfl, rfl⟩
  · obtain ⟨t, ts, hp, ht⟩ := path_cons p h2 hne
    have hd : t ≠ "." := by rintro rfl; exact absurd ht (by decide)
    have hr := path_read p h2 hne ("import" :: n :: strAlias a) (by simp)
    rw [hp, List.cons_append] at hr
    rw [List.replicate_zero, List.nil_append, hp, List.cons_append]
    unfold readFrom
    simp only [dots, hd, if_false]
    rw [if_neg (by omega), hr]
    simp [names_read h3 h4]
  · unfold readFrom
    simp [dots, strPath, names_read h3 h4]

theorem other_read {t : String} {ts : List String} (h : t ∉ firstWords) : readSimple (t :: ts) = readOther (t :: ts) := by
  simp only [firstWords, List.mem_cons, List.not_mem_nil, or_false, not_or] at h
  unfold readSimple
  simp [h]

theorem other_E {e : Expr} (h : Fine e) (rest : List String) : readSimple (strE e ++ rest) = readOther (strE e ++ rest) := by
  obtain ⟨t, ts, h1, h2⟩ := strE_first e h.1
  rw [h1]
  exact other_read h2

theorem simple_read {x : Simple} (h : x.Ok) : readSimple (strSimple x) = some x := by
  cases x with
  | expr e =>
    have h1 := row_one h stop_nil (by simp)
    have h2 := other_E h []
    rw [List.append_nil] at h1 h2
    rw [strSimple, h2, readOther, h1]
  | assign ts vs =>
    obtain ⟨h1, h2, h3, h4⟩ := h
    have hr := row_read h3 h1 (stop_cons (t := "=") (by decide) (strArgs vs)) (by simp)
    have ho : readSimple (strArgs ts ++ "=" :: strArgs vs) = readOther (strArgs ts ++ "=" :: strArgs vs) := by
      cases ts with
      | nil => exact absurd rfl h1
      | cons e es =>
        rw [strArgs, List.append_assoc]
        exact other_E (h3 e (List.mem_cons_self ..)) _
    rw [strSimple, ho, readOther, hr]
    simp [wholeRow_read h4 h2]
  | aug t o v =>
    obtain ⟨h1, h2, h3⟩ := h
    obtain ⟨hs, n1, n2, n3, hf⟩ := stop_aug h2 (strE v)
    have hr := row_one h1 hs (by simpa using n1)
    rw [strSimple, other_E h1, readOther, hr]
    simp only [n2, n3, if_false, hf, whole_read h3, Option.map_some]
  | ann t ty v =>
    obtain ⟨h1, h2, h3⟩ := h
    have hr := row_one h1 (stop_cons (t := ":") (by decide) (strE ty ++ strOption ["="] v)) (by simp)
    rw [strSimple, other_E h1, readOther, hr]
    cases v with
    | none =>
      have he := expr_read h2 stop_nil
      rw [List.append_nil] at he
      simp [strOption, readAnn, he]
    | some v =>
      have he := expr_read h2 (stop_cons (t := "=") (by decide) (strE v))
      simp [strOption, readAnn, he, whole_read (h3 v rfl)]
  | ret vs =>
    by_cases hv : vs = []
    · subst hv
      rfl
    · have hne := strArgs_ne h hv
      have : readSimple ("return" :: strArgs vs) = (wholeRow? (strArgs vs)).map .ret := by
        unfold readSimple
        simp [hne]
      rw [strSimple, this, wholeRow_read h hv]
      rfl
  | raise e =>
    cases e with
    | none => rfl
    | some e =>
      have he := h e rfl
      have hne := strE_ne he.1
      have : readSimple ("raise" :: strE e) = (whole? (strE e)).map fun e => .raise (some e) := by
        unfold readSimple
        simp [hne]
      rw [strSimple, strOption, List.nil_append, this, whole_read he]
      rfl
  | assert e m =>
    have h0 : ∀ us, readSimple ("assert" :: us) = readAssert us := fun us => by
      unfold readSimple
      simp
    rw [strSimple, h0]
    cases m with
    | none =>
      have he := expr_read h.1 stop_nil
      rw [List.append_nil] at he
      simp [strOption, readAssert, he]
    | some m =>
      have he := expr_read h.1 (stop_cons (t := ",") (by decide) (strE m))
      simp [strOption, readAssert, he, whole_read (h.2 m rfl)]
  | pass => rfl
  | «break» => rfl
  | «continue» => rfl
  | log e =>
    have h0 : ∀ us, readSimple ("log" :: us) = (whole? us).map .log := fun us => by
      unfold readSimple
      simp
    rw [strSimple, h0, whole_read h]
    rfl
  | import_ p a =>
    rw [strSimple]
    unfold readSimple
    simp [path_read p h.2.1 h.1 _ (alias_head a), alias_read h.2.2]
  | from_ level p n a =>
    have h0 : ∀ us, readSimple ("from" :: us) = readFrom us := fun us => by
      unfold readSimple
      simp
    rw [strSimple, h0, from_read h]

/-! ### Statements -/

theorem simple_first {x : Simple} (h : x.Ok) : ∃ t ts, strSimple x = t :: ts ∧
    t ∉ ["for", "if", "else", "def", "struct", "event", "enum", "interface", "@"] := by
  have key : ∀ {t : String}, t ∉ firstWords → t ∉ ["for", "if", "else", "def", "struct", "event", "enum", "interface", "@"] := by
    intro t ht hm
    apply ht
    simp only [firstWords, List.mem_cons, List.not_mem_nil, or_false] at hm ⊢
    simp only [hm, or_true]
  have hE : ∀ e rest, Plain e → ∃ t ts, strE e ++ rest = t :: ts ∧
      t ∉ ["for", "if", "else", "def", "struct", "event", "enum", "interface", "@"] := by
    intro e rest he
    obtain ⟨t, ts, h1, h2⟩ := strE_first e he
    exact ⟨t, ts ++ rest, by rw [h1]; rfl, key h2⟩
  cases x with
  | expr e =>
    have := hE e [] h.1
    rw [List.append_nil] at this
    exact this
  | assign ts vs =>
    cases ts with
    | nil => exact absurd rfl h.1
    | cons e es =>
      rw [strSimple, strArgs, List.append_assoc]
      exact hE e _ (h.2.2.1 e (List.mem_cons_self ..)).1
  | aug t o v => exact hE t _ h.1.1
  | ann t ty v => exact hE t _ h.1.1
  | _ => exact ⟨_, _, rfl, by decide⟩

theorem for_read {x : String} {ty : Option Expr} {it : Expr} (hx : isName x = true) (hty : ∀ t, ty = some t → Fine t ∧ primary t = true)
    (hit : Fine it) : readFor (x :: (strOption [":"] ty ++ "in" :: (strE it ++ [":"]))) = some (x, ty, it) := by
  have hi := expr_read hit (stop_cons (t := ":") (by decide) [])
  cases ty with
  | none => simp [strOption, readFor, hx, hi]
  | some ty =>
    obtain ⟨h1, h2⟩ := hty ty rfl
    have hop := ((reads ty h1.1).reads h1.2).1 5 ("in" :: (strE it ++ [":"])) (4 * (strE ty ++ "in" :: (strE it ++ [":"])).length + 3) (by
      rw [strength_primary h2]; omega) ⟨fun o r ho => by
        rw [strength_primary h2]
        exact Nat.lt_of_le_of_lt (level_le o) (by omega), fun t ts ht => by cases ht; decide⟩ (by
      simp only [opd, wrap, isBin_primary h2, Bool.false_eq_true, if_false, List.length_append, List.length_cons]
      omega)
    simp only [opd, wrap, isBin_primary h2, Bool.false_eq_true, if_false] at hop
    have hin : operator? ("in" :: (strE it ++ [":"])) = some (.in_, strE it ++ [":"]) := by
      obtain ⟨t, ts, ht, _⟩ := strE_cons it hit.1
      rw [ht]
      rfl
    have hr : readExpr (4 * (strE ty ++ "in" :: (strE it ++ [":"])).length + 4) 5 (strE ty ++ "in" :: (strE it ++ [":"])) =
        some (ty, "in" :: (strE it ++ [":"])) := by
      rw [readExpr, hop]
      simp only [readOperators, hin]
      rw [if_neg (by decide)]
    show readFor (x :: ":" :: (strE ty ++ "in" :: (strE it ++ [":"]))) = _
    unfold readFor
    simp only [hx, if_true]
    rw [if_neg (by decide), hr]
    simp [hi]

/-- What may follow statements of level `d`. -/
def Under (d : Nat) (rest : List Line) : Prop := ∀ l ls, rest = l :: ls → l.1 < 4 * d

/-- What may follow a statement of level `d`. -/
def Beside (d : Nat) (rest : List Line) : Prop := ∀ l ls, rest = l :: ls → l ≠ (4 * d, ["else", ":"])

theorem stmt_lines {d : Nat} (s : Stmt) (h : s.Ok) : ∃ t ts L, linesStmt d s = (4 * d, t :: ts) :: L ∧ t ≠ "else" := by
  have key : ∀ cs, String.ofList ('#' :: cs) ≠ "else" := by
    intro cs hc
    have := congrArg (fun t : String => t.toList.head?) hc
    simp at this
  cases s with
  | simple x =>
    rw [Stmt.Ok] at h
    obtain ⟨t, ts, h1, h2⟩ := simple_first h
    refine ⟨t, ts, [], by rw [linesStmt, h1], ?_⟩
    rintro rfl
    exact h2 (by decide)
  | for_ x ty it body => exact ⟨_, _, _, by rw [linesStmt, strFor], by decide⟩
  | if_ c body els => exact ⟨_, _, _, by rw [linesStmt], by decide⟩
  | comment t => exact ⟨_, _, _, by rw [linesStmt], key _⟩
  | quote t => exact ⟨_, _, _, by rw [linesStmt], key _⟩

theorem lines_first {d : Nat} (ss : List Stmt) (h : OkAll ss) :
    (ss = [] ∧ linesAll d ss = []) ∨ ∃ t ts L, linesAll d ss = (4 * d, t :: ts) :: L ∧ t ≠ "else" := by
  cases ss with
  | nil => exact Or.inl ⟨rfl, by rw [linesAll]⟩
  | cons s ss =>
    rw [OkAll] at h
    obtain ⟨t, ts, L, h2, h3⟩ := stmt_lines (d := d) s h.1
    exact Or.inr ⟨t, ts, L ++ linesAll d ss, by rw [linesAll, h2]; rfl, h3⟩

theorem note_read (t : List Char) : note? (String.ofList ('#' :: ' ' :: t)) = some (String.ofList t) := by
  simp [note?]

theorem isNote_note (t : List Char) : isNote [String.ofList ('#' :: t)] = true := by
  simp [isNote]

theorem bareAll_ne {ss : List Stmt} (h : bareAll ss ≠ []) : ss ≠ [] := by
  rintro rfl
  exact h (by rw [bareAll])

mutual
theorem stmt_read : (s : Stmt) → s.Ok → (d : Nat) → (ts : List String) → (L : List Line) →
    linesStmt d s = (4 * d, ts) :: L → (rest : List Line) → Beside d rest → Under (d + 1) rest → (f : Nat) → 3 * L.length + 3 ≤ f →
    readStmt f (4 * d) ts (L ++ rest) = some (notedStmt s, rest)
  | .simple x, h, d, ts, L, hL, rest, _, _, f, hf => by
    rw [Stmt.Ok] at h
    rw [linesStmt] at hL
    rw [notedStmt]
    cases hL
    obtain ⟨f, rfl⟩ : ∃ g, f = g + 1 := ⟨f - 1, by omega⟩
    obtain ⟨t, ts, h1, h2⟩ := simple_first h
    have hr := simple_read h
    have hm := (matter_simple h).2.2
    rw [h1] at hr hm ⊢
    have n1 : t ≠ "for" := by rintro rfl; exact h2 (by decide)
    have n2 : t ≠ "if" := by rintro rfl; exact h2 (by decide)
    simp [readStmt, n1, n2, hr, hm]
  | .for_ x ty it body, h, d, ts, L, hL, rest, _, hu, f, hf => by
    rw [Stmt.Ok] at h
    rw [linesStmt, strFor] at hL
    rw [notedStmt]
    cases hL
    obtain ⟨f, rfl⟩ : ∃ g, f = g + 1 := ⟨f - 1, by omega⟩
    have hb := body_read body h.2.2.2.1 (bareAll_ne h.2.2.2.2) d rest hu f (by omega)
    simp [readStmt, isNote, for_read h.1 h.2.1 h.2.2.1, hb]
  | .if_ c body els, h, d, ts, L, hL, rest, hbeside, hu, f, hf => by
    rw [Stmt.Ok] at h
    obtain ⟨h1, h2, h3, h4, h5⟩ := h
    rw [linesStmt] at hL
    rw [notedStmt]
    cases hL
    obtain ⟨f, rfl⟩ : ∃ g, f = g + 1 := ⟨f - 1, by omega⟩
    have hc := expr_read h1 (stop_cons (t := ":") (by decide) [])
    have hm : isNote ("if" :: (strE c ++ [":"])) = false := (matter_key (by decide) _).2.2
    by_cases hels : els = []
    · subst hels
      simp only [if_true, List.append_nil] at hf ⊢
      have hb := body_read body h2 (bareAll_ne h3) d rest hu f (by omega)
      have : notedAll [] = [] := by rw [notedAll]
      rw [this]
      cases rest with
      | nil =>
        rw [List.append_nil] at hb ⊢
        simp [readStmt, hc, hb, hm]
      | cons l ls =>
        have := hbeside l ls rfl
        simp [readStmt, hc, hb, this, hm]
    · simp only [hels, if_false, List.length_append, List.length_cons] at hf ⊢
      have he := body_read els h4 hels d rest hu f (by omega)
      have hb := body_read body h2 (bareAll_ne h3) d ((4 * d, ["else", ":"]) :: (linesAll (d + 1) els ++ rest)) (by
        intro l ls hl
        cases hl
        simp only
        omega) f (by omega)
      simp [readStmt, hc, hb, he, hm]
  | .comment t, h, d, ts, L, hL, rest, _, _, f, hf => by
    rw [linesStmt] at hL
    rw [notedStmt]
    cases hL
    obtain ⟨f, rfl⟩ : ∃ g, f = g + 1 := ⟨f - 1, by omega⟩
    rw [readStmt, if_pos (isNote_note _), note_read]
    simp
  | .quote t, h, d, ts, L, hL, rest, _, _, f, hf => by
    rw [linesStmt] at hL
    rw [notedStmt]
    cases hL
    obtain ⟨f, rfl⟩ : ∃ g, f = g + 1 := ⟨f - 1, by omega⟩
    rw [readStmt, if_pos (isNote_note _), note_read]
    simp
theorem stmts_read : (ss : List Stmt) → OkAll ss → (d : Nat) → (rest : List Line) → Under d rest → (f : Nat) →
    3 * (linesAll d ss).length + 1 ≤ f → readStmts f (4 * d) (linesAll d ss ++ rest) = some (notedAll ss, rest)
  | [], _, d, rest, hu, f, hf => by
    obtain ⟨f, rfl⟩ : ∃ g, f = g + 1 := ⟨f - 1, by omega⟩
    rw [linesAll, notedAll, List.nil_append]
    cases rest with
    | nil => rw [readStmts]
    | cons l ls =>
      have := hu l ls rfl
      obtain ⟨i, ts⟩ := l
      rw [readStmts, if_pos this]
  | s :: ss, h, d, rest, hu, f, hf => by
    rw [OkAll] at h
    rw [linesAll, List.length_append] at hf
    rw [linesAll, notedAll]
    obtain ⟨t, ts, L, h2, h3⟩ := stmt_lines (d := d) s h.1
    obtain ⟨f, rfl⟩ : ∃ g, f = g + 1 := ⟨f - 1, by omega⟩
    rw [h2, List.length_cons] at hf
    have hfirst := lines_first (d := d) ss h.2
    have ih := stmts_read ss h.2 d rest hu f (by omega)
    have hs := stmt_read s h.1 d (t :: ts) L h2 (linesAll d ss ++ rest) (by
      intro l ls hl
      rcases hfirst with ⟨_, h5⟩ | ⟨u, us, M, h5, h6⟩
      · rw [h5, List.nil_append] at hl
        have := hu l ls hl
        rintro rfl
        simp at this
      · rw [h5] at hl
        cases hl
        intro hh
        cases hh
        exact h6 rfl) (by
      intro l ls hl
      rcases hfirst with ⟨_, h5⟩ | ⟨u, us, M, h5, h6⟩
      · rw [h5, List.nil_append] at hl
        have := hu l ls hl
        omega
      · rw [h5] at hl
        cases hl
        simp only
        omega) f (by omega)
    rw [h2, List.cons_append, List.cons_append, List.append_assoc, readStmts, if_neg (by omega), if_neg (by omega), hs]
    simp [ih]
theorem body_read : (ss : List Stmt) → OkAll ss → ss ≠ [] → (d : Nat) → (rest : List Line) → Under (d + 1) rest → (f : Nat) →
    3 * (linesAll (d + 1) ss).length + 2 ≤ f → readBody f (4 * d) (linesAll (d + 1) ss ++ rest) = some (notedAll ss, rest)
  | ss, h, hne, d, rest, hu, f, hf => by
    obtain ⟨f, rfl⟩ : ∃ g, f = g + 1 := ⟨f - 1, by omega⟩
    have h1 := stmts_read ss h (d + 1) rest hu f (by omega)
    rcases lines_first (d := d + 1) ss h with ⟨h2, _⟩ | ⟨t, ts, L, h2, _⟩
    · exact absurd h2 hne
    · rw [h2, List.cons_append] at h1 ⊢
      rw [readBody, if_pos (by omega), h1]
end

/-! ### Lines without comments -/

mutual
theorem bare_bare : ∀ s : Stmt, bareAll (bare s) = bare s
  | .simple s => rfl
  | .for_ x ty it body => by simp [bare, bareAll, bareAll_bareAll body]
  | .if_ c body els => by simp [bare, bareAll, bareAll_bareAll body, bareAll_bareAll els]
  | .comment _ => rfl
  | .quote _ => rfl
theorem bareAll_bareAll : ∀ ss : List Stmt, bareAll (bareAll ss) = bareAll ss
  | [] => rfl
  | s :: ss => by rw [bareAll, bareAll_append, bare_bare s, bareAll_bareAll ss]
end

theorem okAll_append {a b : List Stmt} : OkAll (a ++ b) ↔ OkAll a ∧ OkAll b := by
  induction a with
  | nil => simp [OkAll]
  | cons s a ih => simp [OkAll, ih, and_assoc]

mutual
theorem ok_bare : ∀ s : Stmt, s.Ok → OkAll (bare s)
  | .simple s, h => by simp only [bare, OkAll]; exact ⟨h, trivial⟩
  | .for_ x ty it body, h => by
    simp only [Stmt.Ok] at h
    simp only [bare, OkAll, Stmt.Ok]
    exact ⟨⟨h.1, h.2.1, h.2.2.1, ok_bares body h.2.2.2.1, by rw [bareAll_bareAll]; exact h.2.2.2.2⟩, trivial⟩
  | .if_ c body els, h => by
    simp only [Stmt.Ok] at h
    simp only [bare, OkAll, Stmt.Ok]
    refine ⟨⟨h.1, ok_bares body h.2.1, by rw [bareAll_bareAll]; exact h.2.2.1, ok_bares els h.2.2.2.1, ?_⟩, trivial⟩
    rcases h.2.2.2.2 with he | he
    · exact .inl (by rw [he]; rfl)
    · exact .inr (by rw [bareAll_bareAll]; exact he)
  | .comment _, _ => by simp [bare, OkAll]
  | .quote _, _ => by simp [bare, OkAll]
theorem ok_bares : ∀ ss : List Stmt, OkAll ss → OkAll (bareAll ss)
  | [], _ => by simp [bareAll, OkAll]
  | s :: ss, h => by
    simp only [OkAll] at h
    rw [bareAll, okAll_append]
    exact ⟨ok_bare s h.1, ok_bares ss h.2⟩
end

theorem linesAll_append (d : Nat) : ∀ a b : List Stmt, linesAll d (a ++ b) = linesAll d a ++ linesAll d b
  | [], b => by rw [linesAll]; rfl
  | s :: a, b => by rw [List.cons_append, linesAll, linesAll, linesAll_append d a b, List.append_assoc]

theorem matter_code {i : Nat} {ts : List String} (h : Matter ts) : isCode (i, ts) = true := by
  simp [isCode, h.2.1, h.2.2]

theorem note_code (i : Nat) (t : List Char) : isCode (i, [String.ofList ('#' :: t)]) = false := by
  simp only [isCode, isNote_note, Bool.not_true, Bool.and_false]

mutual
theorem code_stmt (d : Nat) : (s : Stmt) → s.Ok → (linesStmt d s).filter isCode = linesAll d (bare s)
  | .simple x, h => by
    rw [Stmt.Ok] at h
    simp [linesStmt, bare, linesAll, matter_code (matter_simple h)]
  | .for_ x ty it body, h => by
    rw [Stmt.Ok] at h
    have hm : isCode (4 * d, strFor x ty it) = true := matter_code matter_long
    simp [linesStmt, bare, linesAll, hm, code_all (d + 1) body h.2.2.2.1]
  | .if_ c body els, h => by
    rw [Stmt.Ok] at h
    have hm : isCode (4 * d, "if" :: (strE c ++ [":"])) = true := matter_code (matter_key (by decide) _)
    have he : isCode (4 * d, ["else", ":"]) = true := matter_code matter_long
    by_cases hels : els = []
    · subst hels
      have : bareAll [] = [] := by rw [bareAll]
      simp [linesStmt, bare, linesAll, hm, code_all (d + 1) body h.2.1, this]
    · have := h.2.2.2.2.resolve_left hels
      simp [linesStmt, bare, linesAll, hm, he, code_all (d + 1) body h.2.1, code_all (d + 1) els h.2.2.2.1, this, hels]
  | .comment t, _ => by rw [linesStmt, bare, linesAll, List.filter_cons, note_code]; rfl
  | .quote s, _ => by rw [linesStmt, bare, linesAll, List.filter_cons, note_code]; rfl
theorem code_all (d : Nat) : (ss : List Stmt) → OkAll ss → (linesAll d ss).filter isCode = linesAll d (bareAll ss)
  | [], _ => by rw [bareAll, linesAll]; rfl
  | s :: ss, h => by
    rw [OkAll] at h
    rw [bareAll, linesAll, linesAll_append, List.filter_append, code_stmt d s h.1, code_all d ss h.2]
end

theorem notedAll_append : ∀ a b : List Stmt, notedAll (a ++ b) = notedAll a ++ notedAll b
  | [], b => by rw [notedAll]; rfl
  | s :: a, b => by rw [List.cons_append, notedAll, notedAll, notedAll_append a b]; rfl

mutual
/-- Without comments there is nothing commented out. -/
theorem noted_bare : ∀ s : Stmt, notedAll (bare s) = bare s
  | .simple s => by simp [bare, notedAll, notedStmt]
  | .for_ x ty it body => by simp [bare, notedAll, notedStmt, noted_bares body]
  | .if_ c body els => by simp [bare, notedAll, notedStmt, noted_bares body, noted_bares els]
  | .comment _ => by simp [bare, notedAll]
  | .quote _ => by simp [bare, notedAll]
theorem noted_bares : ∀ ss : List Stmt, notedAll (bareAll ss) = bareAll ss
  | [] => by rw [bareAll, notedAll]
  | s :: ss => by rw [bareAll, notedAll_append, noted_bare s, noted_bares ss]
end

end VyPrint
end Mutagenyx
