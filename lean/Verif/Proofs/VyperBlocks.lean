import Verif.Proofs.VyperHeads

/-!
# The lines of Vyper statements and declarations
-/

namespace Mutagenyx
namespace VyPrint

open NodePrinter Printer VyGrammar Lex

/-! ### Statements -/

mutual
/-- The lines of a statement of level `d`. -/
def linesStmt (d : Nat) : Stmt → List Line
  | .simple s => [(4 * d, strSimple s)]
  | .for_ x ty it body => (4 * d, strFor x ty it) :: linesAll (d + 1) body
  | .if_ c body els =>
    (4 * d, "if" :: (strE c ++ [":"])) :: (linesAll (d + 1) body ++
      if els = [] then [] else (4 * d, ["else", ":"]) :: linesAll (d + 1) els)
  | .comment t => [(4 * d, [String.ofList ('#' :: ' ' :: t.toList)])]
  | .quote s => [(4 * d, [String.ofList ('#' :: ' ' :: onOneLine (textStmt 0 s))])]
/-- The lines of statements of level `d`. -/
def linesAll (d : Nat) : List Stmt → List Line
  | [] => []
  | s :: ss => linesStmt d s ++ linesAll d ss
end

theorem further_body (d : Nat) (s : Stmt) (ss : List Stmt) : textFurther d (s :: ss) = '\n' :: textBody d (s :: ss) := by
  rw [textFurther, textBody]

/-- The calls print the text, and it has these lines. -/
structure Block (d : Nat) (ops : List Op) (before t : List Char) (L : List Line) : Prop where
  paint : paint d ops = some (t, d)
  rows : Rows (before ++ t) L

theorem text_for (d : Nat) (x : String) (ty : Option Expr) (it : Expr) (body : List Stmt) :
    textStmt d (.for_ x ty it body) = textFor d x ty it ++ '\n' :: textLines (d + 1) body := by
  rw [textStmt, textFor]
  simp only [List.append_assoc, List.cons_append, List.nil_append]

theorem text_if (d : Nat) (c : Expr) (body els : List Stmt) :
    textStmt d (.if_ c body els) = "if ".toList ++ (textE d c ++ [':']) ++ '\n' :: (textBody (d + 1) body ++
      if els = [] then [] else '\n' :: (blanks d ++ ("else:".toList ++ '\n' :: textBody (d + 1) els))) := by
  rw [textStmt]
  have : "else:\n".toList = "else:".toList ++ ['\n'] := rfl
  simp only [this, List.append_assoc, List.cons_append, List.nil_append]

theorem paint_incr {d e : Nat} {ops : List Op} {t : List Char} (hd : d < 36) (h : paint (d + 1) ops = some (t, e)) :
    paint d ([.incr] ++ ops) = some (t, e) := by simp [paint, hd, h]

theorem paint_newline {d e : Nat} {ops : List Op} {t : List Char} (h : paint d ops = some (t, e)) :
    paint d ([.newline] ++ ops) = some ('\n' :: t, e) := by simp [paint, h]

theorem paint_indent {d e : Nat} {ops : List Op} {t : List Char} (h : paint d ops = some (t, e)) :
    paint d ([.indent] ++ ops) = some (blanks d ++ t, e) := by simp [paint, h]

/-- Something of a further level. -/
theorem paint_inner {d : Nat} {ops : List Op} {t : List Char} (hd : d < 36) (h : paint (d + 1) ops = some (t, d + 1)) :
    paint d ([.incr] ++ (ops ++ [.decr])) = some (t, d) := by
  have := paint_append h (b := [.decr]) (u := []) (f := d) rfl
  rw [List.append_nil] at this
  exact paint_incr hd this

theorem rows_head {q p : Bool} {d : Nat} {ops : List Op} {t u : List Char} {ts : List String} {P : Char → Prop} {L : List Line}
    (h : Part q p d ops t ts P) (hh : Heads t) (hm : Matter ts) (hL : Rows u L) :
    Rows (blanks d ++ (t ++ '\n' :: u)) ((4 * d, ts) :: L) := by
  have := (rows_line (d := d) h hh hm).append hL
  simpa using this

mutual
theorem block_stmt : (s : Stmt) → s.Ok → (d : Nat) → d + s.depth ≤ 36 → Block d (opsStmt s) (blanks d) (textStmt d s) (linesStmt d s)
  | .simple s, h, d, hd => by
    rw [Stmt.Ok] at h
    rw [Stmt.depth] at hd
    have hp := part_simple h hd
    rw [opsStmt, textStmt, linesStmt]
    exact ⟨hp.paint, rows_line hp (heads_simple h d) (matter_simple h)⟩
  | .for_ x ty it body, h, d, hd => by
    rw [Stmt.Ok] at h
    obtain ⟨h1, h2, h3, h4, _⟩ := h
    rw [Stmt.depth] at hd
    have hp := part_for (d := d) h1 (fun t ht => (h2 t ht).1) h3 (by omega)
    have hb := block_lines body h4 (d + 1) (by omega)
    rw [opsStmt, text_for, linesStmt]
    refine ⟨?_, rows_head hp ⟨'f', _, rfl, by decide⟩ matter_long hb.rows⟩
    have := paint_append hp.paint (paint_newline (paint_inner (by omega) hb.paint))
    simpa only [List.append_assoc] using this
  | .if_ c body els, h, d, hd => by
    rw [Stmt.Ok] at h
    obtain ⟨h1, h2, h3, h4, h5⟩ := h
    rw [Stmt.depth] at hd
    have hp := part_if (d := d) h1 (by omega)
    have hb := block_body body h2 (d + 1) (by omega)
    have he := block_body els h4 (d + 1) (by omega)
    rw [opsStmt, text_if, linesStmt]
    by_cases hels : els = []
    · simp only [hels, if_true, List.append_nil]
      refine ⟨?_, rows_head hp ⟨'i', _, rfl, by decide⟩ (matter_key (by decide) _) hb.rows⟩
      have := paint_append hp.paint (paint_newline (paint_inner (by omega) hb.paint))
      simpa only [List.append_assoc] using this
    · simp only [hels, if_false]
      refine ⟨?_, rows_head hp ⟨'i', _, rfl, by decide⟩ (matter_key (by decide) _)
        (hb.rows.append (rows_head (part_else d) ⟨'e', _, rfl, by decide⟩ matter_long he.rows))⟩
      have h6 := paint_newline (paint_indent (paint_append (part_else d).paint (paint_newline (paint_inner (by omega) he.paint))))
      have := paint_append hp.paint (paint_newline (paint_append (paint_inner (by omega) hb.paint) h6))
      simpa only [List.append_assoc] using this
  | .comment t, h, d, _ => by
    rw [Stmt.Ok] at h
    rw [opsStmt, textStmt, linesStmt]
    have hc : calm (String.ofList t.toList) = true := by simpa using h
    refine ⟨?_, by simpa using rows_comment (calm_iff.1 hc).1 d⟩
    simp [word, paint, calm_line hc]
  | .quote x, h, d, _ => by
    rw [opsStmt, textStmt, linesStmt]
    refine ⟨?_, by simpa using rows_comment (line_onOneLine (textStmt 0 x)) d⟩
    simp [word, paint]
theorem block_body : (ss : List Stmt) → OkAll ss → (d : Nat) → d + depthStmts ss ≤ 36 →
    Block d (opsBody ss) [] (textBody d ss) (linesAll d ss)
  | [], _, d, _ => by
    rw [opsBody, textBody, linesAll]
    exact ⟨rfl, rows_nil⟩
  | s :: ss, h, d, hd => by
    rw [OkAll] at h
    rw [depthStmts] at hd
    have h1 := block_stmt s h.1 d (by omega)
    have h2 := block_further ss h.2 d (by omega)
    rw [opsBody, textBody, linesAll]
    refine ⟨paint_indent (paint_append h1.paint h2.1), ?_⟩
    have := h2.2 _ _ h1.rows
    simpa only [List.append_assoc, List.nil_append] using this
theorem block_further : (ss : List Stmt) → OkAll ss → (d : Nat) → d + depthStmts ss ≤ 36 →
    paint d (opsFurther ss) = some (textFurther d ss, d) ∧ ∀ t L, Rows t L → Rows (t ++ textFurther d ss) (L ++ linesAll d ss)
  | [], _, d, _ => by
    rw [opsFurther, textFurther, linesAll]
    exact ⟨rfl, fun t L h => by simpa using h⟩
  | s :: ss, h, d, hd => by
    rw [OkAll] at h
    rw [depthStmts] at hd
    have h1 := block_stmt s h.1 d (by omega)
    have h2 := block_further ss h.2 d (by omega)
    rw [opsFurther, textFurther, linesAll]
    refine ⟨paint_newline (paint_indent (paint_append h1.paint h2.1)), fun t L h => ?_⟩
    have := h.append (h2.2 _ _ h1.rows)
    simpa only [List.append_assoc] using this
theorem block_lines : (ss : List Stmt) → OkAll ss → (d : Nat) → d + depthStmts ss ≤ 36 →
    Block d (opsLines ss) [] (textLines d ss) (linesAll d ss)
  | [], _, d, _ => by
    rw [opsLines, textLines, linesAll]
    exact ⟨rfl, rows_nil⟩
  | s :: ss, h, d, hd => by
    rw [OkAll] at h
    rw [depthStmts] at hd
    have h1 := block_stmt s h.1 d (by omega)
    have h2 := block_lines ss h.2 d (by omega)
    rw [opsLines, textLines, linesAll]
    refine ⟨paint_indent (paint_append h1.paint (paint_newline h2.paint)), ?_⟩
    have := h1.rows.append h2.rows
    simpa only [List.append_assoc, List.nil_append] using this
end

/-! ### Declarations -/

/-- The lines of documentation of level `d`. -/
def linesDoc (d : Nat) : Option String → List Line
  | none => []
  | some t => [(4 * d, [String.ofList (tripled t.toList)])]

/-- The lines of a declaration. -/
def linesDecl : Decl → List Line
  | .simple s => [(0, strSimple s)]
  | .block k n fs => (0, [k, n, ":"]) :: linesAll 1 (fs.map .simple)
  | .interface n fs => (0, ["interface", n, ":"]) :: fs.map fun f => (4, strFunction f)
  | .fn ds g doc body => ds.map (fun e => (0, "@" :: strE e)) ++ (0, "def" :: strSig g) :: (linesDoc 1 doc ++ linesAll 1 body)
  | .comment t => [(0, [String.ofList ('#' :: ' ' :: t.toList)])]
  | .quote x => [(0, [String.ofList ('#' :: ' ' :: onOneLine (textDecl x))])]

/-- The lines of a program. -/
def linesProgram (p : Program) : List Line := linesDoc 0 p.doc ++ p.decls.flatMap linesDecl

theorem fields_lines : (fs : List Simple) → textFields fs = textLines 1 (fs.map .simple)
  | [] => rfl
  | s :: fs => by
    rw [textFields, List.map_cons, textLines, textStmt, fields_lines fs]

theorem depth_simples : (fs : List Simple) → depthStmts (fs.map .simple) = depthSimples fs
  | [] => rfl
  | s :: fs => by
    rw [List.map_cons, depthStmts, depthSimples, Stmt.depth, depth_simples fs]

theorem block_functions : (fs : List (Sig × String)) → (∀ f ∈ fs, f.1.Ok ∧ isName f.2 = true) → 1 + depthFunctions fs ≤ 36 →
    Block 1 (opsFunctions fs) [] (textFunctions fs) (fs.map fun f => (4, strFunction f))
  | [], _, _ => ⟨rfl, rows_nil⟩
  | (g, m) :: fs, h, hd => by
    rw [depthFunctions] at hd
    have h0 := h (g, m) (List.mem_cons_self ..)
    have h1 := part_function (d := 1) (f := (g, m)) h0.1 h0.2 (by simp only at hd ⊢; omega)
    have h2 := block_functions fs (fun f hf => h f (List.mem_cons_of_mem _ hf)) (by omega)
    rw [opsFunctions, textFunctions]
    refine ⟨?_, ?_⟩
    · have := paint_indent (paint_append h1.paint (paint_newline h2.paint))
      simpa only [List.append_assoc, List.cons_append] using this
    · have := rows_head h1 ⟨'d', _, rfl, by decide⟩ matter_long h2.rows
      simpa only [List.append_assoc, List.cons_append, List.nil_append, List.map_cons] using this

theorem block_head {k n : String} {inner : List Op} {t : List Char} {L : List Line} (hk : isKey k = true) (hh : Heads k.toList)
    (hn : isName n = true) (h : Block 1 inner [] t L) :
    Block 0 (opsBlock k n inner) [] (textHead k n ++ t) ((0, [k, n, ":"]) :: L) := by
  have h1 := part_head hk hn 0
  refine ⟨?_, ?_⟩
  · have := paint_append h1.paint (paint_newline (paint_inner (by omega) h.paint))
    simpa [opsBlock, textHead] using this
  · have := rows_head h1 (hh.append _) matter_long h.rows
    simpa [textHead, blanks] using this

theorem block_marks : (ds : List Expr) → FineAll ds → depthAll ds ≤ 36 →
    paint 0 (opsMarks ds) = some (textDecorators ds, 0) ∧
      ∀ t L, Rows t L → Rows (textDecorators ds ++ t) (ds.map (fun e => (0, "@" :: strE e)) ++ L)
  | [], _, _ => ⟨rfl, fun t L h => h⟩
  | e :: ds, h, hd => by
    rw [depthAll] at hd
    have h1 := part_mark (d := 0) (h e (List.mem_cons_self ..)) (by omega)
    have h2 := block_marks ds (fun x hx => h x (List.mem_cons_of_mem _ hx)) (by omega)
    rw [opsMarks, textDecorators]
    refine ⟨?_, fun t L ht => ?_⟩
    · have := paint_indent (paint_append h1.paint (paint_newline h2.1))
      simpa [blanks] using this
    · have hm : Matter ("@" :: strE e) := matter_key (by decide) _
      have := rows_head h1 ⟨'@', _, rfl, by decide⟩ hm (h2.2 t L ht)
      simpa [blanks] using this

theorem paint_decorators {ds : List Expr} (h : FineAll ds) (hd : depthAll ds ≤ 36) :
    paint 0 (opsDecorators ds) = some (textDecorators ds, 0) := by
  cases ds with
  | nil => rfl
  | cons e ds =>
    rw [depthAll] at hd
    have h1 := part_mark (d := 0) (h e (List.mem_cons_self ..)) (by omega)
    have h2 := block_marks ds (fun x hx => h x (List.mem_cons_of_mem _ hx)) (by omega)
    rw [opsDecorators, textDecorators]
    have := paint_append h1.paint (paint_newline (paint_append h2.1 (paint_indent (ops := []) rfl)))
    simpa [blanks] using this

/-- The documentation of a function and what is around it. -/
def textFnDoc : Option String → List Char
  | none => []
  | some t => '\n' :: (blanks 1 ++ (textDoc 1 t ++ ['\n']))

theorem text_fn (ds : List Expr) (g : Sig) (doc : Option String) (body : List Stmt) :
    textDecl (.fn ds g doc body) = textFront ds g ++ (textFnDoc doc ++ '\n' :: textBody 1 body) := by
  cases doc <;> rfl

theorem rows_fn {ds : List Expr} {g : Sig} {doc : Option String} {body : List Stmt} (h : (Decl.fn ds g doc body).Ok)
    (hd : (Decl.fn ds g doc body).depth ≤ 36) : Rows (textDecl (.fn ds g doc body)) (linesDecl (.fn ds g doc body)) := by
  obtain ⟨h1, h2, h3, h4, h5, _⟩ := h
  rw [Decl.depth] at hd
  have hs := part_sig (d := 0) h2 (by omega)
  have hb := block_body body h4 1 (by omega)
  rw [text_fn, linesDecl, textFront, List.append_assoc]
  refine (block_marks ds h1 (by omega)).2 _ _ ?_
  have key : ∀ u L, Rows u L → Rows (textSig 0 g ++ '\n' :: u) ((0, "def" :: strSig g) :: L) := by
    intro u L hu
    have := rows_head hs ⟨'d', _, rfl, by decide⟩ matter_long hu
    simpa [blanks] using this
  cases doc with
  | none => exact key _ _ hb.rows
  | some t =>
    have := key _ _ ((rows_doc (h3 t rfl)).append (rows_nil.append hb.rows))
    simpa [textFnDoc, linesDoc] using this

/-- The declaration is no function. -/
def Decl.flat : Decl → Bool
  | .fn .. => false
  | _ => true

theorem block_flat {x : Decl} (h : x.Ok) (hd : x.depth ≤ 36) (hf : Decl.flat x = true) : Block 0 (opsDecl x) [] (textDecl x) (linesDecl x) := by
  cases x with
  | simple s =>
    rw [Decl.depth] at hd
    have hp := part_simple (d := 0) h.1 (by omega)
    have := rows_line (d := 0) hp (heads_simple h.1 0) (matter_simple h.1)
    exact ⟨hp.paint, by simpa [blanks, textDecl, linesDecl] using this⟩
  | block k n fs =>
    obtain ⟨h1, h2, h3, h4, _⟩ := h
    rw [Decl.depth] at hd
    have hok := okAll_simples fs h4
    have hdep : 1 + depthStmts (fs.map .simple) ≤ 36 := by rw [depth_simples]; omega
    have hk : isKey k = true ∧ Heads k.toList := by
      simp only [keywords, List.mem_cons, List.not_mem_nil, or_false] at h1
      rcases h1 with rfl | rfl | rfl <;> exact ⟨by decide, ⟨_, _, rfl, by decide⟩⟩
    rw [opsDecl, textDecl, linesDecl, fields_lines]
    split
    · exact block_head hk.1 hk.2 h2 (block_lines _ hok 1 hdep)
    · exact block_head hk.1 hk.2 h2 (block_body _ hok 1 hdep)
  | interface n fs =>
    obtain ⟨h1, h2, h3, _⟩ := h
    rw [Decl.depth] at hd
    rw [opsDecl, textDecl, linesDecl]
    exact block_head (by decide) ⟨'i', _, rfl, by decide⟩ h1 (block_functions fs h3 (by omega))
  | fn ds g doc body => cases hf
  | comment t =>
    have := block_stmt (.comment t) (by rw [Stmt.Ok]; exact h.1) 0 (by rw [Stmt.depth]; omega)
    rw [textStmt, linesStmt] at this
    exact ⟨this.paint, this.rows⟩
  | quote x =>
    rw [opsDecl, textDecl, linesDecl]
    refine ⟨?_, by simpa [blanks] using rows_comment (line_onOneLine (textDecl x)) 0⟩
    simp [word, paint]

theorem rows_decl {x : Decl} (h : x.Ok) (hd : x.depth ≤ 36) : Rows (textDecl x) (linesDecl x) := by
  cases x with
  | fn ds g doc body => exact rows_fn h hd
  | _ => exact (block_flat h hd rfl).rows

/-- The lines of declarations. -/
theorem lines_decls : (xs : List Decl) → (∀ x ∈ xs, x.Ok) → (∀ x ∈ xs, x.depth ≤ 36) →
    logical (textDecls xs) = (xs.flatMap linesDecl).filter isCode ∧ wholeLines (textDecls xs) = xs.flatMap linesDecl
  | [], _, _ => by decide
  | x :: xs, h, hd => by
    have hx := rows_decl (h x (List.mem_cons_self ..)) (hd x (List.mem_cons_self ..))
    have h0 := rows_nil
    have ih := lines_decls xs (fun y hy => h y (List.mem_cons_of_mem _ hy)) fun y hy => hd y (List.mem_cons_of_mem _ hy)
    have h1 := h0.logical (textDecls xs)
    have h2 := h0.whole (textDecls xs)
    rw [List.nil_append] at h1 h2
    rw [textDecls, List.flatMap_cons, List.filter_append]
    exact ⟨by rw [hx.logical, h1, ih.1]; rfl, by rw [hx.whole, h2, ih.2]; rfl⟩

theorem lines_program {p : Program} (h : p.Ok) (hd : p.Shallow) :
    logical (textProgram p) = (linesProgram p).filter isCode ∧ wholeLines (textProgram p) = linesProgram p := by
  obtain ⟨doc, xs⟩ := p
  have ih := lines_decls xs h.2 hd
  cases doc with
  | none => exact ih
  | some t =>
    have hdoc := rows_doc (h.1 t rfl)
    have h0 := rows_nil
    have h1 := h0.logical (textDecls xs)
    have h2 := h0.whole (textDecls xs)
    have h3 := hdoc.logical ('\n' :: textDecls xs)
    have h4 := hdoc.whole ('\n' :: textDecls xs)
    simp only [blanks, Nat.mul_zero, List.replicate_zero, List.nil_append] at h1 h2 h3 h4
    simp only [textProgram, linesProgram, linesDoc]
    rw [List.append_assoc]
    simp only [List.cons_append, List.nil_append]
    constructor
    · rw [h3, h1, ih.1, List.filter_nil, List.nil_append, ← List.filter_append]
      rfl
    · rw [h4, h2, ih.2]
      rfl

/-! ### Printing -/

/-- Behind `n` bytes of a line at level `d` the calls write the text, up to `m` bytes of a line at level `e`. -/
def Goes (checks : Bool) (d n : Nat) (ops : List Op) (t : List Char) (e m : Nat) : Prop :=
  ∀ p, At d p → p.column = n + 1 → ∃ q, run checks ops p = .ok q ∧ q.out = p.out ++ t ∧ At e q ∧ q.column = m + 1

variable {checks : Bool}

theorem run_both {a b : List Op} {p q r : Printer} (h : run checks a p = .ok q) (h' : run checks b q = .ok r) :
    run checks (a ++ b) p = .ok r := by
  induction a generalizing p with
  | nil => cases h; exact h'
  | cons o a ih =>
    simp only [List.cons_append, run] at h ⊢
    cases hx : exec checks o p with
    | ok p' => rw [hx] at h; exact ih h
    | _ => rw [hx] at h; cases h

theorem Goes.append {d n e m f k : Nat} {a b : List Op} {t u : List Char} (h : Goes checks d n a t e m) (h' : Goes checks e m b u f k) :
    Goes checks d n (a ++ b) (t ++ u) f k := by
  intro p h1 h2
  obtain ⟨q, h3, h4, h5, h6⟩ := h p h1 h2
  obtain ⟨r, h7, h8, h9, h10⟩ := h' q h5 h6
  exact ⟨r, run_both h3 h7, by rw [h8, h4, List.append_assoc], h9, h10⟩

theorem goes_paint {d n e : Nat} {ops : List Op} {t : List Char} (h : paint d ops = some (t, e)) (hn : n ≤ 149)
    (hf : fitsFrom n t = true) : Goes checks d n ops t e (after n t) :=
  fun _ h1 h2 => run_paint checks h1 h h2 hn hf

theorem goes_line {d n e : Nat} {ops : List Op} {t : List Char} (h : paint d ops = some (t, e)) (hn : n ≤ 149)
    (hf : fitsFrom n t = true) : Goes checks d n (ops ++ [.newline]) (t ++ ['\n']) e 0 := by
  have := goes_paint (checks := checks) (paint_append h (paint_newline (ops := []) rfl)) hn (by rw [fitsFrom_append, hf]; rfl)
  rw [after_append] at this
  exact this

theorem goes_doc {d : Nat} (hd : 4 * d ≤ 149) {t : String} (h : DocOk d t) :
    Goes checks d (4 * d) (opsDoc t ++ [.newline]) (textDoc d t ++ ['\n']) d 0 := by
  unfold opsDoc textDoc
  by_cases hn : '\n' ∈ t.toList
  · simp only [hn, if_true, true_and]
    intro p h1 h2
    have hlen : ((tripled t.toList).map Char.utf8Size).sum = utf8Len (tripled t.toList) := rfl
    rw [hlen]
    have key : p.writeTripleString t.toList = (if 150 < 4 * d + 1 + utf8Len (tripled t.toList) then p.writeNewline.writeIndent else p).basic
        (tripled t.toList) := by
      have hi : p.indentLength = 4 * d := by
        unfold indentLength
        rw [h1.level, h1.tab, Nat.mul_comm]
      have ht : ['"', '"', '"'] ++ t.toList ++ ['"', '"', '"'] = tripled t.toList := rfl
      unfold writeTripleString writeToken
      have hc : ¬ p.column > p.pageWidth := by rw [h1.width, h2]; omega
      simp only [ht, hc, if_false]
      simp only [h1.width, h2, hi]
      by_cases hl : utf8Len (tripled t.toList) > 150
      · rw [if_pos hl, if_pos (by omega), if_pos (by omega)]
      · rw [if_neg hl]
        by_cases hm : utf8Len (tripled t.toList) > 150 - (4 * d + 1)
        · rw [if_pos hm, if_pos (by omega)]
        · rw [if_neg hm, if_neg (by omega)]
    split
    · rename_i hl
      rw [if_pos hl, h1.newline.writeIndent] at key
      exact ⟨((p.writeNewline.basic (blanks d)).basic (tripled t.toList)).writeNewline,
        by simp only [List.cons_append, List.nil_append, run, exec, key], by simp [Printer.basic, writeNewline],
        ((h1.newline.basic _).basic _).newline, rfl⟩
    · rename_i hl
      rw [if_neg hl] at key
      exact ⟨(p.basic (tripled t.toList)).writeNewline, by simp only [List.cons_append, List.nil_append, run, exec, key],
        by simp [Printer.basic, writeNewline], (h1.basic _).newline, rfl⟩
  · simp only [hn, if_false, false_and]
    obtain ⟨h1, h2⟩ := h.2 hn
    have hp : paint d (word "\"\"\"" ++ ([.flow t.toList []] ++ word "\"\"\"")) = some (tripled t.toList, d) := by
      have hf : paint d [.flow t.toList []] = some (t.toList, d) := by
        simp [paint, calm_line (t := t.toList) (by simpa using h1)]
      exact paint_append (paint_word (by decide) d) (paint_append hf (paint_word (by decide) d))
    refine goes_line hp hd ?_
    unfold fits at h2
    rw [fitsFrom_append, after_line (blanks_line d), utf8Len_blanks, Nat.zero_add, Bool.and_eq_true] at h2
    exact h2.2

theorem fits_ends {t : List Char} (h : fits t = true) (n : Nat) : fitsFrom n ('\n' :: (t ++ ['\n'])) = true := by
  unfold fits at h
  rw [fitsFrom, if_pos rfl, fitsFrom_append, h]
  rfl

theorem goes_decl {x : Decl} (h : x.Ok) (hd : x.depth ≤ 36) :
    ∃ m, m ≤ 149 ∧ Goes checks 0 0 (opsDecl x) (textDecl x) 0 m := by
  by_cases hx : Decl.flat x = true
  · have hf : fits (textDecl x) = true := by
      cases x with
      | simple s => exact h.2
      | block k n fs => exact h.2.2.2.2
      | interface n fs => exact h.2.2.2
      | fn ds g doc body => cases hx
      | comment t => exact h.2
      | quote x => exact h.2.2
    exact ⟨_, after_le (by omega) hf, goes_paint (block_flat h hd hx).paint (by omega) hf⟩
  · cases x with
    | simple s => exact absurd rfl hx
    | block k n fs => exact absurd rfl hx
    | interface n fs => exact absurd rfl hx
    | comment t => exact absurd rfl hx
    | quote t => exact absurd rfl hx
    | fn ds g doc body =>
      obtain ⟨h1, h2, h3, h4, h5, h6, h7⟩ := h
      rw [Decl.depth] at hd
      have hfront := goes_paint (checks := checks) (n := 0) (paint_append (paint_decorators h1 (by omega)) (part_sig (d := 0) h2 (by omega)).paint)
        (by omega) h6
      have hle : after 0 (textDecorators ds ++ textSig 0 g) ≤ 149 := after_le (by omega) h6
      have hb := block_body body h4 1 (by omega)
      have hbody : ∀ n ≤ 149, Goes checks 0 n ([.newline] ++ ([.incr] ++ (opsBody body ++ [.decr])))
          ('\n' :: textBody 1 body) 0 (after 0 (textBody 1 body)) := by
        intro n hn
        refine goes_paint (paint_newline (paint_inner (by omega) hb.paint)) hn ?_
        rw [fitsFrom, if_pos rfl]
        exact h7
      rw [text_fn, opsDecl]
      refine ⟨after 0 (textBody 1 body), after_le (by omega) h7, ?_⟩
      cases doc with
      | none =>
        have := hfront.append (hbody _ hle)
        simpa [textFront, textFnDoc, opsFnDoc] using this
      | some t =>
        have ha : Goes checks 0 (after 0 (textDecorators ds ++ textSig 0 g)) ([.incr] ++ ([.newline] ++ [.indent])) ('\n' :: blanks 1) 1 4 := by
          refine goes_paint (t := '\n' :: blanks 1) ?_ hle ?_
          · simp [paint]
          · rfl
        have hdoc := goes_doc (checks := checks) (d := 1) (by omega) (h3 t rfl)
        have hdecr : Goes checks 1 0 [.decr] [] 0 0 := goes_paint (by rfl) (by omega) rfl
        have := hfront.append (ha.append (hdoc.append (hdecr.append (hbody 0 (by omega)))))
        simpa [textFront, textFnDoc, opsFnDoc] using this

theorem goes_decls : (xs : List Decl) → (∀ x ∈ xs, x.Ok) → (∀ x ∈ xs, x.depth ≤ 36) → Goes checks 0 0 (opsDecls xs) (textDecls xs) 0 0
  | [], _, _ => fun p h1 h2 => ⟨p, rfl, by simp [textDecls], h1, h2⟩
  | x :: xs, h, hd => by
    obtain ⟨m, hm, h1⟩ := goes_decl (checks := checks) (h x (List.mem_cons_self ..)) (hd x (List.mem_cons_self ..))
    have h0 : Goes checks 0 m [.newline] ['\n'] 0 0 := goes_paint (by rfl) hm rfl
    have h2 := goes_decls xs (fun y hy => h y (List.mem_cons_of_mem _ hy)) fun y hy => hd y (List.mem_cons_of_mem _ hy)
    have h3 : Goes checks 0 0 [.newline] ['\n'] 0 0 := goes_paint (by rfl) (by omega) rfl
    have := h1.append (h0.append (h3.append h2))
    rw [opsDecls, textDecls]
    simpa using this

theorem goes_program {p : Program} (h : p.Ok) (hd : p.Shallow) : Goes checks 0 0 (opsProgram p) (textProgram p) 0 0 := by
  obtain ⟨doc, xs⟩ := p
  have h1 := goes_decls (checks := checks) xs h.2 hd
  cases doc with
  | none => exact h1
  | some t =>
    have h2 : Goes checks 0 0 [.newline] ['\n'] 0 0 := goes_paint (by rfl) (by omega) rfl
    have := (goes_doc (checks := checks) (d := 0) (by omega) (h.1 t rfl)).append (h2.append h1)
    simpa [opsProgram, textProgram] using this

theorem quotes (checks : Bool) : Quotes checks := by
  constructor
  · intro x h1 h2 h3
    obtain ⟨q, h4, h5, _, _⟩ := goes_paint (checks := checks) (block_stmt x h1 0 (by omega)).paint (n := 0) (by omega) h2
      (Printer.new 4 150) at_new rfl
    exact ⟨q, h4, h5⟩
  · intro x h1 h2
    obtain ⟨m, _, h3⟩ := goes_decl (checks := checks) h1 h2
    obtain ⟨q, h4, h5, _, _⟩ := h3 (Printer.new 4 150) at_new rfl
    exact ⟨q, h4, h5⟩

theorem printText_program {env : PrintEnv} {p : Program} {j : Json} (h : ShowsProgram p j) (hp : p.Ok) (hd : p.Shallow) :
    printText env j = .ok (textProgram p) := by
  obtain ⟨q, h1, h2, _, _⟩ := goes_program (checks := env.checks) hp hd (Printer.new 4 150) at_new rfl
  unfold printText
  rw [printOps_program (quotes _) h hp, h1]
  simp only [h2]
  rfl

end VyPrint
end Mutagenyx
