import Verif.Proofs.VyperRead

/-!
# Reading the lines of Vyper declarations
-/

namespace Mutagenyx
namespace VyPrint

open NodePrinter Printer VyGrammar Lex

/-! ### Signatures -/

theorem param_split (x : Param) : x = ⟨x.name, x.type, x.value⟩ := rfl

theorem params_read : (ps : List Param) → (∀ x ∈ ps, x.Ok) → (rest : List String) → (f : Nat) → ps.length + 1 ≤ f →
    readParams f (strParams ps ++ ")" :: rest) = some (ps, rest)
  | [], _, rest, f, hf => by
    obtain ⟨f, rfl⟩ : ∃ g, f = g + 1 := ⟨f - 1, by omega⟩
    simp [strParams, readParams]
  | [x], h, rest, f, hf => by
    obtain ⟨f, rfl⟩ : ∃ g, f = g + 1 := ⟨f - 1, by omega⟩
    obtain ⟨n, ty, v⟩ := x
    obtain ⟨h1, h2, h3⟩ := h _ (List.mem_cons_self ..)
    simp only at h1 h2 h3
    have hn : n ≠ ")" := by rintro rfl; exact absurd h1 (by decide)
    cases v with
    | none =>
      have he := expr_read h2 (stop_cons (t := ")") (by decide) rest)
      simp [strParams, strParam, strOption, readParams, hn, h1, he]
    | some v =>
      have he := expr_read h2 (stop_cons (t := "=") (by decide) (strE v ++ ")" :: rest))
      have hv := expr_read (h3 v rfl) (stop_cons (t := ")") (by decide) rest)
      simp [strParams, strParam, strOption, readParams, hn, h1, he, hv]
  | x :: y :: ps, h, rest, f, hf => by
    obtain ⟨f, rfl⟩ : ∃ g, f = g + 1 := ⟨f - 1, by omega⟩
    have ih := params_read (y :: ps) (fun z hz => h z (List.mem_cons_of_mem _ hz)) rest f (by simpa using hf)
    obtain ⟨n, ty, v⟩ := x
    obtain ⟨h1, h2, h3⟩ := h _ (List.mem_cons_self ..)
    simp only at h1 h2 h3
    have hn : n ≠ ")" := by rintro rfl; exact absurd h1 (by decide)
    have hs : strParams (⟨n, ty, v⟩ :: y :: ps) = strParam ⟨n, ty, v⟩ ++ "," :: strParams (y :: ps) := rfl
    rw [hs]
    cases v with
    | none =>
      have he := expr_read h2 (stop_cons (t := ",") (by decide) (strParams (y :: ps) ++ ")" :: rest))
      simp [strParam, strOption, readParams, hn, h1, he, ih]
    | some v =>
      have he := expr_read h2 (stop_cons (t := "=") (by decide) (strE v ++ "," :: (strParams (y :: ps) ++ ")" :: rest)))
      have hv := expr_read (h3 v rfl) (stop_cons (t := ",") (by decide) (strParams (y :: ps) ++ ")" :: rest))
      simp [strParam, strOption, readParams, hn, h1, he, hv, ih]

theorem params_length : (ps : List Param) → ps.length ≤ (strParams ps).length
  | [] => by simp
  | [x] => by simp [strParams, strParam]
  | x :: y :: ps => by
    have ih := params_length (y :: ps)
    have hs : strParams (x :: y :: ps) = strParam x ++ "," :: strParams (y :: ps) := rfl
    rw [hs]
    simp only [List.length_cons, List.length_append] at ih ⊢
    omega

theorem fineAll_args : {es : List Expr} → FineAll es → PlainAll ")" es
  | [], _ => by simp [PlainAll]
  | e :: es, h => by
    have he := h e (List.mem_cons_self ..)
    simp only [PlainAll]
    refine ⟨?_, he.1, fineAll_args fun x hx => h x (List.mem_cons_of_mem _ hx)⟩
    cases e <;> first | rfl | cases he.2

theorem results_read {rs : List Expr} (h : FineAll rs) (h1 : ∀ r, rs = [r] → primary r = true) (hne : rs ≠ []) (rest : List String) :
    ∃ us, strResults rs = "->" :: us ∧ readResults (us ++ ":" :: rest) = some (rs, ":" :: rest) := by
  cases rs with
  | nil => exact absurd rfl hne
  | cons e es =>
    cases es with
    | nil =>
      have he := h e (List.mem_cons_self ..)
      obtain ⟨t, ts, h2, h3⟩ := primary_first e he.1 (h1 e rfl)
      refine ⟨strE e, rfl, ?_⟩
      have := expr_read he (stop_cons (t := ":") (by decide) rest)
      rw [h2] at this ⊢
      rw [List.cons_append] at this ⊢
      simp [readResults, h3, this]
    | cons e' es =>
      refine ⟨"(" :: (strArgs (e :: e' :: es) ++ [")"]), rfl, ?_⟩
      have := readsArgs ")" (by decide) (e :: e' :: es) (fineAll_args h) (":" :: rest)
        (4 * (strArgs (e :: e' :: es) ++ ")" :: ":" :: rest).length + 4) (by simp only [List.length_append]; omega)
      simp only [List.cons_append, List.append_assoc, List.nil_append]
      rw [readResults, if_pos rfl, this]

theorem sig_read {g : Sig} (h : g.Ok) (rest : List String) : readSig (strSig g ++ rest) = some (g, rest) := by
  obtain ⟨n, ps, rs⟩ := g
  obtain ⟨h1, h2, h3, h4⟩ := h
  simp only at h1 h2 h3 h4
  have hp := params_read ps h2 (strResults rs ++ ":" :: rest)
    ((strParams ps ++ ")" :: (strResults rs ++ ":" :: rest)).length + 1) (by
      have := params_length ps
      simp only [List.length_append]
      omega)
  have hs : strSig ⟨n, ps, rs⟩ ++ rest = n :: "(" :: (strParams ps ++ ")" :: (strResults rs ++ ":" :: rest)) := by
    simp [strSig]
  rw [hs, readSig, if_pos ⟨h1, rfl⟩, hp]
  by_cases hr : rs = []
  · subst hr
    rfl
  · obtain ⟨us, h5, h6⟩ := results_read h3 h4 hr rest
    rw [h5]
    simp only [List.cons_append]
    rw [if_neg (by decide), if_pos trivial, h6]
    simp

/-! ### Declarations -/

/-- What may follow a declaration. -/
def Starter (rest : List Line) : Prop := ∀ l ls, rest = l :: ls → l.1 = 0

theorem decorators_read : (ds : List Expr) → FineAll ds → (t : String) → (ts : List String) → (rest : List Line) → t ≠ "@" →
    readDecorators (ds.map (fun e => (0, "@" :: strE e)) ++ (0, t :: ts) :: rest) = some (ds, (0, t :: ts) :: rest)
  | [], _, t, ts, rest, ht => by simp [readDecorators, ht]
  | e :: ds, h, t, ts, rest, ht => by
    have ih := decorators_read ds (fun x hx => h x (List.mem_cons_of_mem _ hx)) t ts rest ht
    simp [readDecorators, whole_read (h e (List.mem_cons_self ..)), ih]

theorem functions_read : (fs : List (Sig × String)) → (∀ f ∈ fs, f.1.Ok ∧ isName f.2 = true) → (rest : List Line) → Starter rest →
    readFunctions 4 (fs.map (fun f => (4, strFunction f)) ++ rest) = some (fs, rest)
  | [], _, rest, hr => by
    cases rest with
    | nil => rfl
    | cons l ls =>
      obtain ⟨i, ts⟩ := l
      have : i = 0 := hr _ _ rfl
      subst this
      simp [readFunctions]
  | (g, m) :: fs, h, rest, hr => by
    have ih := functions_read fs (fun f hf => h f (List.mem_cons_of_mem _ hf)) rest hr
    obtain ⟨h1, h2⟩ := h _ (List.mem_cons_self ..)
    simp only at h1 h2
    rw [List.map_cons, List.cons_append, strFunction]
    simp [readFunctions, sig_read h1, h2, ih]

theorem simples_read : (fs : List Simple) → simples? (fs.map .simple) = some fs
  | [] => rfl
  | s :: fs => by simp [simples?, simples_read fs]

theorem bare_simples : (fs : List Simple) → bareAll (fs.map .simple) = fs.map .simple
  | [] => by rw [List.map_nil, bareAll]
  | s :: fs => by rw [List.map_cons, bareAll, bare, bare_simples fs]; rfl

theorem starter_under {rest : List Line} (h : Starter rest) : Under 1 rest := by
  intro l ls hl
  rw [h l ls hl]
  omega

/-- What a declaration has to be so that its lines are read. -/
def Decl.Legible : Decl → Prop
  | .simple s => s.Ok
  | .block k n fs => k ∈ keywords ∧ isName n = true ∧ fs ≠ [] ∧ ∀ s ∈ fs, s.Ok
  | .interface n fs => isName n = true ∧ fs ≠ [] ∧ ∀ f ∈ fs, f.1.Ok ∧ isName f.2 = true
  | .fn ds g _ body => FineAll ds ∧ g.Ok ∧ OkAll body ∧ body ≠ []
  | .comment _ => True
  | .quote _ => True

theorem legible_ok {x : Decl} (h : x.Ok) : Decl.Legible x := by
  cases x with
  | simple s => exact h.1
  | block k n fs => exact ⟨h.1, h.2.1, h.2.2.1, h.2.2.2.1⟩
  | interface n fs => exact ⟨h.1, h.2.1, h.2.2.1⟩
  | fn ds g doc body => exact ⟨h.1, h.2.1, h.2.2.2.1, bareAll_ne h.2.2.2.2.1⟩
  | comment t => trivial
  | quote x => trivial

theorem legible_bare {x y : Decl} (h : x.Ok) (hy : y ∈ x.bare) : Decl.Legible y := by
  cases x with
  | fn ds g doc body =>
    simp only [Decl.bare, List.mem_singleton] at hy
    subst hy
    exact ⟨h.1, h.2.1, ok_bares body h.2.2.2.1, h.2.2.2.2.1⟩
  | simple s => simp only [Decl.bare, List.mem_singleton] at hy; subst hy; exact legible_ok h
  | block k n fs => simp only [Decl.bare, List.mem_singleton] at hy; subst hy; exact legible_ok h
  | interface n fs => simp only [Decl.bare, List.mem_singleton] at hy; subst hy; exact legible_ok h
  | comment t => simp [Decl.bare] at hy
  | quote d => simp [Decl.bare] at hy

theorem doc_read (t : String) : doc? (String.ofList (tripled t.toList)) = some t := by
  simp only [doc?, String.toList_ofList, tripled]
  simp

/-- The line is no documentation. -/
def NoDoc (rest : List Line) : Prop := ∀ i t ls, rest = (i, [t]) :: ls → doc? t = none

theorem readDoc_none {rest : List Line} (h : NoDoc rest) : readDoc rest = (none, rest) := by
  match rest with
  | [] => rfl
  | (i, []) :: ls => rfl
  | (i, [t]) :: ls => simp only [readDoc, h i t ls rfl]
  | (i, t :: u :: ts) :: ls => rfl

theorem readDoc_lines (d : Nat) (doc : Option String) {rest : List Line} (h : NoDoc rest) :
    readDoc (linesDoc d doc ++ rest) = (doc, rest) := by
  cases doc with
  | none => exact readDoc_none h
  | some t => simp only [linesDoc, List.cons_append, List.nil_append, readDoc, doc_read]

theorem isDoc_doc {t : String} (h : isDoc [t] = false) : doc? t = none := by
  unfold doc?
  simp only [isDoc] at h
  split at h
  · cases h
  · rfl

theorem noDoc_matter {i : Nat} {ts : List String} (L : List Line) (h : Matter ts) : NoDoc ((i, ts) :: L) := by
  intro i t ls hl
  cases hl
  exact isDoc_doc h.2.1

theorem noDoc_note {i : Nat} (t : List Char) (L : List Line) : NoDoc ((i, [String.ofList ('#' :: t)]) :: L) := by
  intro i t ls hl
  cases hl
  simp [doc?]

theorem noDoc_stmt (d : Nat) (s : Stmt) (h : s.Ok) (L : List Line) : NoDoc (linesStmt d s ++ L) := by
  cases s with
  | simple x => rw [Stmt.Ok] at h; rw [linesStmt]; exact noDoc_matter _ (matter_simple h)
  | for_ x ty it body => rw [linesStmt]; exact noDoc_matter _ matter_long
  | if_ c body els => rw [linesStmt]; exact noDoc_matter _ (matter_key (by decide) _)
  | comment t => rw [linesStmt]; exact noDoc_note _ _
  | quote x => rw [linesStmt]; exact noDoc_note _ _

theorem noDoc_all (d : Nat) {ss : List Stmt} (h : OkAll ss) (hne : ss ≠ []) (L : List Line) : NoDoc (linesAll d ss ++ L) := by
  cases ss with
  | nil => exact absurd rfl hne
  | cons s ss =>
    rw [OkAll] at h
    rw [linesAll, List.append_assoc]
    exact noDoc_stmt d s h.1 _

theorem noted_simples : (fs : List Simple) → notedAll (fs.map .simple) = fs.map .simple
  | [] => by rw [List.map_nil, notedAll]
  | s :: fs => by rw [List.map_cons, notedAll, notedStmt, noted_simples fs]

theorem note_decl (f : Nat) (t : List Char) (rest : List Line) :
    readDecls (f + 1) ((0, [String.ofList ('#' :: ' ' :: t)]) :: rest) = (readDecls f rest).map (.comment (String.ofList t) :: ·) := by
  rw [readDecls, if_neg (by simp), if_pos (isNote_note _), List.head?_cons, Option.bind_some, note_read, Option.bind_some]

theorem decl_read {x : Decl} (h : Decl.Legible x) {rest : List Line} (hr : Starter rest) (f : Nat) (hf : 3 * (linesDecl x).length ≤ f) :
    readDecls (f + 1) (linesDecl x ++ rest) = (readDecls f rest).map (x.noted :: ·) := by
  cases x with
  | simple s =>
    obtain ⟨t, ts, h1, h2⟩ := simple_first h
    have hs := simple_read h
    have hm := (matter_simple h).2.2
    simp only [List.mem_cons, List.not_mem_nil, or_false, not_or] at h2
    rw [linesDecl, h1]
    rw [h1] at hs hm
    have hk : keywords.contains t = false := by simp [keywords, h2]
    have hd := decorators_read [] (fun _ hx => by cases hx) t ts rest h2.2.2.2.2.2.2.2.2
    simp only [List.map_nil, List.nil_append] at hd
    simp only [List.cons_append, List.nil_append, readDecls, ne_eq, not_true_eq_false, if_false, hm, Bool.false_eq_true, hd, h2,
      List.isEmpty_nil, if_true]
    simp only [readDecl, hk, Bool.false_eq_true, if_false, h2, hs, Option.map_some, Decl.noted]
  | block k n fs =>
    obtain ⟨h1, h2, h3, h4⟩ := h
    have hk : keywords.contains k = true := by simpa using h1
    have hne : k ≠ "@" ∧ k ≠ "def" := by
      simp only [keywords, List.mem_cons, List.not_mem_nil, or_false] at h1
      rcases h1 with rfl | rfl | rfl <;> decide
    rw [linesDecl, List.length_cons] at hf
    have hb := body_read (fs.map .simple) (okAll_simples fs h4) (by simpa using h3) 0 rest (starter_under hr) f (by rw [Nat.zero_add]; omega)
    rw [noted_simples, Nat.mul_zero] at hb
    have hd := decorators_read [] (fun _ hx => by cases hx) k [n, ":"] (linesAll 1 (fs.map .simple) ++ rest) hne.1
    simp only [List.map_nil, List.nil_append] at hd
    rw [linesDecl]
    simp only [List.cons_append, readDecls, isNote, Bool.false_eq_true, ne_eq, not_true_eq_false, if_false, hd, hne.2, List.isEmpty_nil, if_true]
    simp only [Nat.zero_add] at hb
    simp only [readDecl, hk, if_true, name?, h2, and_self, hb, simples_read, Option.map_some, Decl.noted]
  | interface n fs =>
    obtain ⟨h1, h2, h3⟩ := h
    have hd := decorators_read [] (fun _ hx => by cases hx) "interface" [n, ":"] (fs.map (fun f => (4, strFunction f)) ++ rest) (by decide)
    have hfn := functions_read fs h3 rest hr
    simp only [List.map_nil, List.nil_append] at hd
    rw [linesDecl]
    simp only [List.cons_append, readDecls, isNote, Bool.false_eq_true, ne_eq, not_true_eq_false, if_false, hd, List.isEmpty_nil, if_true]
    rw [if_neg (by decide)]
    cases fs with
    | nil => exact absurd rfl h2
    | cons g fs =>
      simp only [List.map_cons, List.cons_append] at hfn ⊢
      have hk : keywords.contains "interface" = false := by decide
      simp only [readDecl, hk, Bool.false_eq_true, if_false, if_true, name?, h1, and_self, Nat.zero_lt_succ, hfn, Option.map_some, Decl.noted]
  | fn ds g doc body =>
    obtain ⟨h1, h2, h4, h5⟩ := h
    rw [linesDecl, List.length_append, List.length_cons, List.length_append] at hf
    have hb := body_read body h4 h5 0 rest (starter_under hr) f (by rw [Nat.zero_add]; omega)
    have hd := decorators_read ds h1 "def" (strSig g) (linesDoc 1 doc ++ (linesAll 1 body ++ rest)) (by decide)
    have hdoc := readDoc_lines 1 doc (noDoc_all 1 h4 h5 rest)
    have hg := sig_read h2 []
    rw [List.append_nil] at hg
    simp only [Nat.zero_add, Nat.mul_zero] at hb
    rw [linesDecl, List.append_assoc, List.cons_append, List.append_assoc]
    have key : ∃ ts ls, ds.map (fun e => (0, "@" :: strE e)) ++ (0, "def" :: strSig g) :: (linesDoc 1 doc ++ (linesAll 1 body ++ rest)) =
        (0, ts) :: ls ∧ isNote ts = false := by
      cases ds with
      | nil => exact ⟨_, _, rfl, rfl⟩
      | cons e ds => exact ⟨_, _, rfl, (matter_key (by decide) _).2.2⟩
    obtain ⟨ts, ls, hkey, hm⟩ := key
    rw [hkey] at hd ⊢
    simp only [readDecls, hm, Bool.false_eq_true, ne_eq, not_true_eq_false, if_false, hd, if_true, hg, hdoc, hb, Decl.noted]
  | comment t =>
    have := note_decl f t.toList rest
    rwa [String.ofList_toList] at this
  | quote x => exact note_decl f _ rest

theorem decl_lines (x : Decl) : ∃ ts L, linesDecl x = (0, ts) :: L := by
  cases x with
  | fn ds g doc body =>
    rw [linesDecl]
    cases ds with
    | nil => exact ⟨_, _, rfl⟩
    | cons e ds => exact ⟨_, _, rfl⟩
  | _ => exact ⟨_, _, rfl⟩

theorem decls_starter (xs : List Decl) : Starter (xs.flatMap linesDecl) := by
  intro l ls hl
  cases xs with
  | nil => cases hl
  | cons x xs =>
    obtain ⟨ts, L, hx⟩ := decl_lines x
    rw [List.flatMap_cons, hx] at hl
    cases hl
    rfl

theorem decls_read : (xs : List Decl) → (∀ x ∈ xs, Decl.Legible x) → (f : Nat) → 3 * (xs.flatMap linesDecl).length + 1 ≤ f →
    readDecls f (xs.flatMap linesDecl) = some (xs.map Decl.noted)
  | [], _, f, hf => by
    obtain ⟨f, rfl⟩ : ∃ g, f = g + 1 := ⟨f - 1, by omega⟩
    rfl
  | x :: xs, h, f, hf => by
    obtain ⟨ts, L, hx⟩ := decl_lines x
    obtain ⟨f, rfl⟩ : ∃ g, f = g + 1 := ⟨f - 1, by omega⟩
    have hlen : 1 ≤ (linesDecl x).length := by rw [hx]; simp
    rw [List.flatMap_cons, List.length_append] at hf
    have ih := decls_read xs (fun y hy => h y (List.mem_cons_of_mem _ hy)) f (by omega)
    rw [List.flatMap_cons, decl_read (h x (List.mem_cons_self ..)) (decls_starter xs) f (by omega), ih]
    rfl

theorem noDoc_decls {xs : List Decl} (h : ∀ x ∈ xs, Decl.Legible x) : NoDoc (xs.flatMap linesDecl) := by
  cases xs with
  | nil => intro i t ls hl; cases hl
  | cons x xs =>
    have hx := h x (List.mem_cons_self ..)
    rw [List.flatMap_cons]
    cases x with
    | simple s => exact noDoc_matter _ (matter_simple hx)
    | block k n fs => exact noDoc_matter _ matter_long
    | interface n fs => exact noDoc_matter _ matter_long
    | fn ds g doc body =>
      cases ds with
      | nil => exact noDoc_matter _ matter_long
      | cons e ds => exact noDoc_matter _ (matter_key (by decide) _)
    | comment t => exact noDoc_note _ _
    | quote x => exact noDoc_note _ _

/-! ### Declarations without comments -/

theorem doc_code (i : Nat) (t : List Char) : isCode (i, [String.ofList (tripled t)]) = false := by
  have : isDoc [String.ofList (tripled t)] = true := by
    simp only [isDoc, String.toList_ofList]
    rfl
  simp only [isCode, this, Bool.not_true, Bool.false_and]

theorem code_doc (d : Nat) (doc : Option String) : (linesDoc d doc).filter isCode = [] := by
  cases doc with
  | none => rfl
  | some t => rw [linesDoc, List.filter_cons, doc_code]; rfl

theorem code_matters {L : List Line} (h : ∀ l ∈ L, Matter l.2) : L.filter isCode = L :=
  List.filter_eq_self.2 fun l hl => matter_code (i := l.1) (h l hl)

theorem code_decl {x : Decl} (h : x.Ok) : (linesDecl x).filter isCode = x.bare.flatMap linesDecl := by
  cases x with
  | simple s => simp [linesDecl, Decl.bare, matter_code (matter_simple h.1)]
  | block k n fs =>
    have h1 := code_all 1 _ (okAll_simples fs h.2.2.2.1)
    rw [bare_simples] at h1
    have h2 : isCode (0, [k, n, ":"]) = true := matter_code matter_long
    simp [linesDecl, Decl.bare, h1, h2]
  | interface n fs =>
    have : (linesDecl (.interface n fs)).filter isCode = linesDecl (.interface n fs) := by
      refine code_matters ?_
      intro l hl
      rw [linesDecl] at hl
      rcases List.mem_cons.1 hl with rfl | hl
      · exact matter_long
      · obtain ⟨f, _, rfl⟩ := List.mem_map.1 hl
        exact matter_long
    rw [this]
    simp [Decl.bare]
  | fn ds g doc body =>
    have h1 : (ds.map (fun e => ((0, "@" :: strE e) : Line))).filter isCode = ds.map (fun e => (0, "@" :: strE e)) := by
      refine code_matters ?_
      intro l hl
      obtain ⟨f, _, rfl⟩ := List.mem_map.1 hl
      exact matter_key (by decide) _
    have h2 : isCode (0, "def" :: strSig g) = true := matter_code matter_long
    have h3 := code_all 1 body h.2.2.2.1
    rw [linesDecl, List.filter_append, h1, List.filter_cons, if_pos h2, List.filter_append, code_doc, h3]
    simp [Decl.bare, linesDecl, linesDoc]
  | comment t => rw [linesDecl, List.filter_cons, note_code]; rfl
  | quote x => rw [linesDecl, List.filter_cons, note_code]; rfl

theorem code_decls : (xs : List Decl) → (∀ x ∈ xs, x.Ok) →
    (xs.flatMap linesDecl).filter isCode = (xs.flatMap Decl.bare).flatMap linesDecl
  | [], _ => rfl
  | x :: xs, h => by
    rw [List.flatMap_cons, List.flatMap_cons, List.filter_append, List.flatMap_append, code_decl (h x (List.mem_cons_self ..)),
      code_decls xs fun y hy => h y (List.mem_cons_of_mem _ hy)]

theorem noted_bare_decl {x y : Decl} (hy : y ∈ x.bare) : y.noted = y := by
  cases x with
  | fn ds g doc body =>
    simp only [Decl.bare, List.mem_singleton] at hy
    subst hy
    simp only [Decl.noted, noted_bares]
  | simple s => simp only [Decl.bare, List.mem_singleton] at hy; subst hy; rfl
  | block k n fs => simp only [Decl.bare, List.mem_singleton] at hy; subst hy; rfl
  | interface n fs => simp only [Decl.bare, List.mem_singleton] at hy; subst hy; rfl
  | comment t => simp [Decl.bare] at hy
  | quote d => simp [Decl.bare] at hy

theorem noted_bare_program (p : Program) : p.bare.noted = p.bare := by
  simp only [Program.noted, Program.bare, Program.mk.injEq, true_and]
  conv => rhs; rw [← List.map_id' (p.decls.flatMap Decl.bare)]
  refine List.map_congr_left ?_
  intro y hy
  obtain ⟨x, _, hy⟩ := List.mem_flatMap.1 hy
  exact noted_bare_decl hy

theorem cutLines_length (t : List Char) : ∀ s cur, (cutLines s cur t).length ≤ t.length + 1 := by
  induction t with
  | nil => intro s cur; simp [cutLines]
  | cons c t ih =>
    intro s cur
    rw [cutLines]
    split
    · have := ih {} []
      simp only [List.length_cons]
      omega
    · have := ih (s.step c) (cur ++ [c])
      simp only [List.length_cons]
      omega

theorem logical_length (t : List Char) : (logical t).length ≤ t.length + 1 := by
  unfold logical
  have h1 := List.length_filter_le matters ((cutLines {} [] t).map VyGrammar.lineOf)
  rw [List.length_map] at h1
  exact Nat.le_trans h1 (cutLines_length t _ _)

theorem wholeLines_length (t : List Char) : (wholeLines t).length ≤ t.length + 1 := by
  unfold wholeLines
  refine Nat.le_trans (List.length_filter_le ..) ?_
  rw [List.length_map]
  exact cutLines_length t _ _

theorem program_read {p : Program} (h : p.Ok) (hd : p.Shallow) : readProgram (textProgram p) = some p.bare := by
  have hl := logical_length (textProgram p)
  have hp := (lines_program h hd).1
  unfold readProgram
  rw [linesProgram, List.filter_append, code_doc, List.nil_append, code_decls p.decls h.2] at hp
  rw [hp] at hl ⊢
  have hleg : ∀ y ∈ p.decls.flatMap Decl.bare, Decl.Legible y := by
    intro y hy
    obtain ⟨x, hx, hy⟩ := List.mem_flatMap.1 hy
    exact legible_bare (h.2 x hx) hy
  rw [decls_read _ hleg _ (by omega)]
  have := noted_bare_program p
  simp only [Program.noted, Program.bare] at this
  rw [Option.map_some, Program.bare, this]

/-- The text of a program is read as the program. -/
theorem program_readWhole {p : Program} (h : p.Ok) (hd : p.Shallow) : readWhole (textProgram p) = some p.noted := by
  have hl := wholeLines_length (textProgram p)
  have hp := (lines_program h hd).2
  have hleg : ∀ x ∈ p.decls, Decl.Legible x := fun x hx => legible_ok (h.2 x hx)
  unfold readWhole
  rw [hp] at hl ⊢
  rw [linesProgram, List.length_append] at hl
  rw [linesProgram, readDoc_lines 0 p.doc (noDoc_decls hleg), decls_read _ hleg _ (by omega)]
  rfl

end VyPrint
end Mutagenyx
