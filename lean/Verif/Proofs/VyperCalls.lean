import Verif.Proofs.VyperExpr
import Verif.Spec.VyperNodes

/-!
# The calls that print Vyper statements and declarations
-/

namespace Mutagenyx
namespace VyPrint

open NodePrinter VyGrammar Printer

/-! ### The calls -/

/-- What is before an expression, and the expression, if there is one. -/
def opsOption (before : List Op) : Option Expr → List Op
  | none => []
  | some e => before ++ opsE e

/-- `as` and the other name. -/
def opsAlias : Option String → List Op
  | none => []
  | some a => [.space] ++ (word "as" ++ ([.space] ++ word a))

/-- The calls that print a statement on one line. -/
def opsSimple : Simple → List Op
  | .expr e => opsE e
  | .assign ts vs => opsArgs ts ++ (word " = " ++ opsArgs vs)
  | .aug t o v => opsE t ++ ([.space] ++ (word o.text ++ (word "=" ++ ([.space] ++ opsE v))))
  | .ann t ty v => opsE t ++ (word ":" ++ ([.space] ++ (opsE ty ++ opsOption (word " = ") v)))
  | .ret vs => word "return" ++ if vs = [] then [] else [.space] ++ opsArgs vs
  | .raise e => word "raise" ++ ([.space] ++ opsOption [] e)
  | .assert e m => word "assert" ++ ([.space] ++ (opsE e ++ opsOption (word "," ++ [.space]) m))
  | .pass => word "pass"
  | .break => word "break"
  | .continue => word "continue"
  | .log e => word "log" ++ ([.space] ++ opsE e)
  | .import_ p a => word "import" ++ ([.space] ++ ([.token (pathText p)] ++ opsAlias a))
  | .from_ _ p n a =>
    word "from" ++ ([.space] ++ ([.token (if p = [] then ['.'] else pathText p)] ++
      ([.space] ++ (word "import" ++ ([.space] ++ (word n ++ opsAlias a))))))

mutual
/-- The calls that print a statement. -/
def opsStmt : Stmt → List Op
  | .simple s => opsSimple s
  | .for_ x ty it body =>
    word "for" ++ ([.space] ++ (word x ++ (opsOption (word ":" ++ [.space]) ty ++ ([.space] ++ (word "in" ++ ([.space] ++ (opsE it ++
      (word ":" ++ ([.newline] ++ ([.incr] ++ (opsLines body ++ [.decr])))))))))))
  | .if_ c body els =>
    word "if" ++ ([.space] ++ (opsE c ++ (word ":" ++ ([.newline] ++ ([.incr] ++ (opsBody body ++ ([.decr] ++
      if els = [] then [] else
        [.newline] ++ ([.indent] ++ (word "else:" ++ ([.newline] ++ ([.incr] ++ (opsBody els ++ [.decr])))))))))))) 
  | .comment t => word "#" ++ ([.space] ++ [.flow t.toList "# ".toList])
  | .quote s => word "#" ++ ([.space] ++ [.flow (textStmt 0 s) "# ".toList])
/-- The calls that print statements with line breaks between them. -/
def opsBody : List Stmt → List Op
  | [] => []
  | s :: ss => [.indent] ++ (opsStmt s ++ opsFurther ss)
/-- The calls that print further statements. -/
def opsFurther : List Stmt → List Op
  | [] => []
  | s :: ss => [.newline] ++ ([.indent] ++ (opsStmt s ++ opsFurther ss))
/-- The calls that print statements with line breaks behind them. -/
def opsLines : List Stmt → List Op
  | [] => []
  | s :: ss => [.indent] ++ (opsStmt s ++ ([.newline] ++ opsLines ss))
end

/-- The calls that print a parameter. -/
def opsParam (p : Param) : List Op :=
  word p.name ++ (word ":" ++ ([.space] ++ (opsE p.type ++ opsOption (word "=") p.value)))

/-- The calls that print parameters. -/
def opsParams : List Param → List Op
  | [] => []
  | [p] => opsParam p
  | p :: ps => opsParam p ++ (word "," ++ ([.space] ++ opsParams ps))

/-- The calls that print the results of a function. -/
def opsResults : List Expr → List Op
  | [] => []
  | [e] => [.space] ++ (word "->" ++ ([.space] ++ opsE e))
  | es => [.space] ++ (word "->" ++ ([.space] ++ (word "(" ++ (opsArgs es ++ word ")"))))

/-- The calls that print a signature. -/
def opsSig (g : Sig) : List Op :=
  word "def" ++ ([.space] ++ (word g.name ++ (word "(" ++ (opsParams g.params ++ (word ")" ++ (opsResults g.results ++ word ":"))))))

/-- The calls that print documentation. -/
def opsDoc (t : String) : List Op :=
  if '\n' ∈ t.toList then [.triple t.toList] else word "\"\"\"" ++ ([.flow t.toList []] ++ word "\"\"\"")

/-- The calls that print the documentation of a function. -/
def opsFnDoc : Option String → List Op
  | none => []
  | some t => [.incr] ++ ([.newline] ++ ([.indent] ++ (opsDoc t ++ ([.newline] ++ [.decr]))))

/-- The calls that print further decorators. -/
def opsMarks : List Expr → List Op
  | [] => []
  | e :: es => [.indent] ++ (word "@" ++ (opsE e ++ ([.newline] ++ opsMarks es)))

/-- The calls that print decorators and the indentation behind them. -/
def opsDecorators : List Expr → List Op
  | [] => []
  | e :: es => word "@" ++ (opsE e ++ ([.newline] ++ (opsMarks es ++ [.indent])))

/-- The calls that print the functions of an interface. -/
def opsFunctions : List (Sig × String) → List Op
  | [] => []
  | (g, m) :: fs => [.indent] ++ (opsSig g ++ ([.space] ++ (word m ++ ([.newline] ++ opsFunctions fs))))

/-- The calls that print a block. -/
def opsBlock (k n : String) (inner : List Op) : List Op :=
  word k ++ ([.space] ++ (word n ++ (word ":" ++ ([.newline] ++ ([.incr] ++ (inner ++ [.decr]))))))

/-- The calls that print a declaration. -/
def opsDecl : Decl → List Op
  | .simple s => opsSimple s
  | .block k n fs => opsBlock k n (if k = "struct" then opsLines (fs.map .simple) else opsBody (fs.map .simple))
  | .interface n fs => opsBlock "interface" n (opsFunctions fs)
  | .fn ds g doc body =>
    opsDecorators ds ++ (opsSig g ++ (opsFnDoc doc ++ ([.newline] ++ ([.incr] ++ (opsBody body ++ [.decr])))))
  | .comment t => opsStmt (.comment t)
  | .quote d => word "#" ++ ([.space] ++ [.flow (textDecl d) "# ".toList])

/-- The calls that print declarations. -/
def opsDecls : List Decl → List Op
  | [] => []
  | x :: xs => opsDecl x ++ ([.newline] ++ ([.newline] ++ opsDecls xs))

/-- The calls that print a program. -/
def opsProgram (p : Program) : List Op :=
  (match p.doc with
    | none => []
    | some t => opsDoc t ++ ([.newline] ++ [.newline])) ++ opsDecls p.decls

/-! ### Nodes -/

theorem isA_obj {t : String} {j : Json} (h : IsA t j) : ∃ kvs, j = .obj kvs := by
  cases j with
  | obj kvs => exact ⟨kvs, rfl⟩
  | arr xs =>
    have h0 : Json.parseIndex "ast_type" = none := by decide
    have hp : Json.pointerTokens (Json.jsonPath "ast_type") = some ["ast_type"] := by decide
    simp [IsA, Json.getStrForKey, Json.get?, Json.pointer, hp, Json.follow, Json.step, h0] at h
  | _ =>
    have hp : Json.pointerTokens (Json.jsonPath "ast_type") = some ["ast_type"] := by decide
    simp [IsA, Json.getStrForKey, Json.get?, Json.pointer, hp, Json.follow, Json.step] at h

theorem isA_null {t : String} {j : Json} (h : IsA t j) : j ≠ .null := by
  obtain ⟨kvs, rfl⟩ := isA_obj h
  intro h
  cases h

theorem shows_isA {e : Expr} {j : Json} (h : Shows e j) : ∃ t, IsA t j := by
  cases e with
  | leaf t =>
    simp only [Shows] at h
    rcases h with ⟨h, _⟩ | ⟨h | h, _⟩ | ⟨h, _⟩ | ⟨h, _⟩ <;> exact ⟨_, h⟩
  | bin l o r =>
    simp only [Shows] at h
    obtain ⟨_, h⟩ := h
    split at h
    · exact ⟨_, h.1⟩
    · rcases h.1 with h | h <;> exact ⟨_, h⟩
  | entry k v => simp [Shows] at h
  | neg e =>
    simp only [Shows] at h
    rcases h with ⟨h, _⟩ | ⟨h, _⟩ <;> exact ⟨_, h⟩
  | _ =>
    simp only [Shows] at h
    exact ⟨_, h.1⟩

theorem shows_ne {e : Expr} {j : Json} (h : Shows e j) : j ≠ .null := by
  obtain ⟨t, h⟩ := shows_isA h
  exact isA_null h

theorem showRow_ne {es : List Expr} {j : Json} (h : ShowRow es j) : j ≠ .null ∧ es ≠ [] := by
  rcases h with ⟨e, rfl, h⟩ | ⟨hl, h, _⟩
  · exact ⟨shows_ne h, by simp⟩
  · refine ⟨isA_null h, ?_⟩
    rintro rfl
    simp at hl

variable {env : PrintEnv}

theorem vyOps_null {s : PrintSettings} : printOps env s .null = [] := rfl

/-- Simplifying a list of pieces. -/
macro "pieces" "[" ls:Lean.Parser.Tactic.simpLemma,* "]" : tactic =>
  `(tactic| simp [field, onField, onArray, onStr, strTok, onSome, tok, sp, nl, ind, inc, dec, when, expand, expand_append, word,
      Json.asArray, $ls,*])

theorem printOps_row {es : List Expr} {j : Json} {s : PrintSettings} (hs : s.tupleParens = false) (h : ShowRow es j) :
    printOps env s j = opsArgs es := by
  rcases h with ⟨e, rfl, h⟩ | ⟨_, h, vs, h1, h2⟩
  · rw [printOps_shows env e j s h]
    simp [opsArgs, opsRest]
  · rw [printOps_of (body := when s.tupleParens (tok "(") ++ onArray "elements" j (array s) ++ when s.tupleParens (tok ")"))
      (by simp [layout, show j.getStrForKey "ast_type" = some "Tuple" from h])]
    simp only [hs, when, Bool.false_eq_true, if_false, List.nil_append, List.append_nil, onArray, onField, h1, onSome,
      Json.asArray, expand_array]
    exact printOps_args env es vs s h2

theorem printOps_rowParens {es : List Expr} {j : Json} {s : PrintSettings} (hs : s.tupleParens = true) (h : ShowRow es j) :
    [Op.space] ++ (word "->" ++ ([.space] ++ printOps env s j)) = opsResults es := by
  rcases h with ⟨e, rfl, h⟩ | ⟨hl, h, vs, h1, h2⟩
  · rw [printOps_shows env e j s h]
    simp [opsResults]
  · rw [printOps_of (body := when s.tupleParens (tok "(") ++ onArray "elements" j (array s) ++ when s.tupleParens (tok ")"))
      (by simp [layout, show j.getStrForKey "ast_type" = some "Tuple" from h])]
    simp only [hs, when, if_true, onArray, onField, h1, onSome, Json.asArray, expand_append, expand_array]
    rw [printOps_args env es vs s h2]
    match es, hl with
    | e :: f :: es, _ => simp [opsResults, expand, tok, word]

theorem printOps_option {key : String} {e : Option Expr} {j : Json} (h : ShowOption key e j) (s : PrintSettings) :
    expand env.checks (printOps env) (field s key j) = opsOption [] e := by
  cases e with
  | none =>
    rcases h with h | h
    · pieces [h, opsOption]
    · pieces [h, opsOption, vyOps_null]
  | some e =>
    obtain ⟨v, h1, h2⟩ := h
    pieces [h1, opsOption, printOps_shows env e v s h2]

theorem valueAssignment_option {e : Option Expr} {j : Json} (h : ShowOption "value" e j) (s : PrintSettings) :
    expand env.checks (printOps env) (valueAssignment s j) = opsOption (word " = ") e := by
  cases e with
  | none => rcases h with h | h <;> pieces [h, opsOption, valueAssignment]
  | some e =>
    obtain ⟨v, h1, h2⟩ := h
    pieces [h1, opsOption, valueAssignment, printOps_shows env e v s h2, shows_ne h2]

theorem printOps_simple {s : PrintSettings} (hs : s.tupleParens = false) {x : Simple} {j : Json} (h : ShowsSimple x j)
    (hx : x.Ok) : printOps env s j = opsSimple x := by
  cases x with
  | expr e =>
    obtain ⟨h, v, h1, h2⟩ := h
    rw [printOps_of (body := field s "value" j) (by simp [layout, show j.getStrForKey "ast_type" = some _ from h])]
    pieces [h1, opsSimple, printOps_shows env e v s h2]
  | assign ts vs =>
    obtain ⟨h, ⟨v, h1, h2⟩, w, h3, h4⟩ := h
    rw [printOps_of (body := field s "target" j ++ tok " = " ++ field s "value" j)
      (by simp [layout, show j.getStrForKey "ast_type" = some _ from h])]
    pieces [h1, h3, opsSimple, printOps_row hs h2, printOps_row hs h4]
  | aug t o v =>
    obtain ⟨h, ⟨a, h1, h2⟩, ⟨b, h3, h4⟩, c, h5, h6⟩ := h
    have ho : o.isBool = false := by
      have : o ∈ augmented := hx.2.1
      simp only [augmented, List.mem_cons, List.not_mem_nil, or_false] at this
      rcases this with rfl | rfl | rfl | rfl | rfl | rfl | rfl | rfl | rfl <;> rfl
    rw [printOps_of (body := augAssign s j) (by simp [layout, show j.getStrForKey "ast_type" = some _ from h])]
    pieces [augAssign, h1, h3, h5, show b.getStrForKey "ast_type" = some _ from h4, symbolOf_type o ho, opsSimple,
      printOps_shows env t a s h2, printOps_shows env v c s h6]
  | ann t ty v =>
    obtain ⟨⟨a, h1, h2⟩, h3, ⟨h, b, h4, h5⟩ | ⟨h, _, u, ⟨b, h4, h5⟩, rfl⟩⟩ := h
    · rw [printOps_of (body := field s "target" j ++ (onField "annotation" j fun a => tok ":" ++ sp ++ [.sub s a]) ++
          valueAssignment s j) (by simp [layout, show j.getStrForKey "ast_type" = some _ from h])]
      rw [expand_append, valueAssignment_option h3]
      pieces [h1, h4, opsSimple, printOps_shows env t a s h2, printOps_shows env ty b s h5]
    · rw [printOps_of (body := variableDecl s j) (by simp [layout, show j.getStrForKey "ast_type" = some _ from h])]
      unfold variableDecl
      simp only [onField, h1, onSome]
      rw [expand_append, valueAssignment_option h3]
      unfold flag
      generalize (j.getBoolForKey "is_public").getD false = p1
      generalize (j.getBoolForKey "is_constant").getD false = p2
      generalize (j.getBoolForKey "is_immutable").getD false = p3
      cases p1 <;> cases p2 <;> cases p3 <;>
        pieces [h4, opsSimple, printOps_shows env t a s h2, printOps_shows env u b _ h5, modified, opsE, opsArgs, opsRest]
  | ret vs =>
    obtain ⟨h, ⟨rfl, h1⟩ | ⟨a, h1, h2⟩⟩ := h
    · rw [printOps_of (body := returnNode s j) (by simp [layout, show j.getStrForKey "ast_type" = some _ from h])]
      rcases h1 with h1 | h1 <;> pieces [returnNode, h1, opsSimple]
    · rw [printOps_of (body := returnNode s j) (by simp [layout, show j.getStrForKey "ast_type" = some _ from h])]
      pieces [returnNode, h1, opsSimple, printOps_row hs h2, (showRow_ne h2).1, (showRow_ne h2).2]
  | raise e =>
    obtain ⟨h, h1⟩ := h
    rw [printOps_of (body := tok "raise" ++ sp ++ field s "exc" j)
      (by simp [layout, show j.getStrForKey "ast_type" = some _ from h]), expand_append, printOps_option h1]
    pieces [opsSimple]
  | assert e m =>
    obtain ⟨h, ⟨a, h1, h2⟩, h3⟩ := h
    rw [printOps_of (body := assertNode s j) (by simp [layout, show j.getStrForKey "ast_type" = some _ from h])]
    cases m with
    | none =>
      rcases h3 with h3 | h3 <;>
        pieces [assertNode, h1, h3, opsSimple, opsOption, printOps_shows env e a s h2, Json.asObj]
    | some m =>
      obtain ⟨b, h3, h4⟩ := h3
      obtain ⟨t, h5⟩ := shows_isA h4
      obtain ⟨kvs, rfl⟩ := isA_obj h5
      pieces [assertNode, h1, h3, opsSimple, opsOption, printOps_shows env e a s h2, Json.asObj,
        printOps_shows env m _ s h4]
  | pass =>
    rw [printOps_of (body := tok "pass") (by simp [layout, show j.getStrForKey "ast_type" = some _ from h])]
    pieces [opsSimple]
  | «break» =>
    rw [printOps_of (body := tok "break") (by simp [layout, show j.getStrForKey "ast_type" = some _ from h])]
    pieces [opsSimple]
  | «continue» =>
    rw [printOps_of (body := tok "continue") (by simp [layout, show j.getStrForKey "ast_type" = some _ from h])]
    pieces [opsSimple]
  | log e =>
    obtain ⟨h, v, h1, h2⟩ := h
    rw [printOps_of (body := logNode s j) (by simp [layout, show j.getStrForKey "ast_type" = some _ from h])]
    pieces [logNode, h1, opsSimple, printOps_shows env e v s h2, shows_ne h2]
  | import_ p a =>
    obtain ⟨h, h1, h2⟩ := h
    rw [printOps_of (body := importNode j) (by simp [layout, show j.getStrForKey "ast_type" = some _ from h])]
    cases a <;> pieces [importNode, h1, h2, opsSimple, opsAlias]
  | from_ level p n a =>
    obtain ⟨h, _, h2, h3, h4⟩ := h
    rw [printOps_of (body := importFrom j) (by simp [layout, show j.getStrForKey "ast_type" = some _ from h])]
    have ha : expand env.checks (printOps env) (onField "alias" j fun a => onSome a.asStr fun a => sp ++ tok "as" ++ sp ++ tok a) =
        opsAlias a := by
      cases hf : Json.field? "alias" j with
      | none =>
        rw [hf] at h3
        cases h3
        pieces [hf, opsAlias]
      | some v =>
        rw [hf] at h3
        simp only [Option.bind_some] at h3
        cases a <;> pieces [hf, h3, opsAlias]
    rw [importFrom, expand_append, ha]
    by_cases hp : p = []
    · subst hp
      simp only [if_true] at h4
      pieces [h2, h4, opsSimple]
    · simp only [hp, if_false] at h4
      pieces [h2, h4, opsSimple, hp, Json.asStr]

/-- The calls for a statement or declaration that is commented out write its text. -/
def Quotes (checks : Bool) : Prop :=
  (∀ x : Stmt, x.Ok → fits (textStmt 0 x) = true → x.depth ≤ 36 →
    ∃ q, Printer.run checks (opsStmt x) (Printer.new 4 150) = .ok q ∧ q.out = textStmt 0 x) ∧
  ∀ x : Decl, x.Ok → x.depth ≤ 36 → ∃ q, Printer.run checks (opsDecl x) (Printer.new 4 150) = .ok q ∧ q.out = textDecl x

theorem showsSimple_obj {x : Simple} {j : Json} (h : ShowsSimple x j) : ∃ kvs, j = .obj kvs := by
  have : ∃ t, IsA t j := by
    cases x with
    | ann => rcases h.2.2 with h | h <;> exact ⟨_, h.1⟩
    | pass => exact ⟨"Pass", h⟩
    | «break» => exact ⟨"Break", h⟩
    | «continue» => exact ⟨"Continue", h⟩
    | _ => exact ⟨_, h.1⟩
  obtain ⟨t, ht⟩ := this
  exact isA_obj ht

theorem showsStmt_obj {x : Stmt} {j : Json} (h : ShowsStmt x j) : ∃ kvs, j = .obj kvs := by
  cases x with
  | simple x => simp only [ShowsStmt] at h; exact showsSimple_obj h
  | for_ => simp only [ShowsStmt] at h; exact isA_obj h.1
  | if_ => simp only [ShowsStmt] at h; exact isA_obj h.1
  | comment => simp only [ShowsStmt] at h; exact isA_obj h.1
  | quote => simp only [ShowsStmt] at h; exact isA_obj h.1

theorem showsDecl_obj {x : Decl} {j : Json} (h : ShowsDecl x j) : ∃ kvs, j = .obj kvs := by
  cases x with
  | simple x => exact showsSimple_obj h
  | fn => exact isA_obj h.1.1
  | _ => exact isA_obj h.1

mutual
theorem printOps_stmt {s : PrintSettings} (hs : s.tupleParens = false) (hq : Quotes env.checks) : (x : Stmt) → (j : Json) → ShowsStmt x j → x.Ok →
    printOps env s j = opsStmt x
  | .simple x, j, h, hx => by
    simp only [ShowsStmt] at h
    simp only [Stmt.Ok] at hx
    rw [printOps_simple hs h hx, opsStmt]
  | .for_ x ty it body, j, h, hx => by
    simp only [ShowsStmt] at h
    simp only [Stmt.Ok] at hx
    obtain ⟨h, ⟨a, h1, h2⟩, ⟨b, h3, h4⟩, bs, h5, h6⟩ := h
    rw [printOps_of (body := forNode s j) (by simp [layout, show j.getStrForKey "ast_type" = some _ from h])]
    have hb : expand env.checks (printOps env) (bodyAsNodes s j) = opsLines body := by
      simp only [bodyAsNodes, onArray, onField, h5, onSome, Json.asArray]
      exact printOps_lines hs hq body bs h6 hx.2.2.2.1
    have ht : printOps env s b = word x ++ opsOption (word ":" ++ [.space]) ty := by
      cases ty with
      | none => rw [printOps_shows env _ b s h4]; simp [opsE, opsOption]
      | some ty =>
        obtain ⟨h7, ⟨c, h8, h9⟩, ⟨d, h10, h11⟩, h12⟩ := h4
        rw [printOps_of (body := field s "target" b ++ (onField "annotation" b fun a => tok ":" ++ sp ++ [.sub s a]) ++
          valueAssignment s b) (by simp [layout, show b.getStrForKey "ast_type" = some _ from h7]), expand_append,
          valueAssignment_option (e := none) h12]
        pieces [h8, h10, opsOption, printOps_shows env _ c s h9, printOps_shows env _ d s h11, opsE]
    simp only [forNode, expand_append, hb]
    pieces [h1, h3, ht, printOps_shows env it a s h2, opsStmt]
  | .if_ c body els, j, h, hx => by
    simp only [ShowsStmt] at h
    simp only [Stmt.Ok] at hx
    obtain ⟨h, ⟨a, h1, h2⟩, ⟨bs, h3, h4⟩, es, h5, h6⟩ := h
    rw [printOps_of (body := ifNode s j) (by simp [layout, show j.getStrForKey "ast_type" = some _ from h])]
    have hb : expand env.checks (printOps env) (indentedBody s j) = opsBody body := by
      simp only [indentedBody, indentedArray, onArray, onField, h3, onSome, Json.asArray]
      exact printOps_body hs hq body bs 0 bs.length h4 hx.2.1 (by simp)
    have he : expand env.checks (printOps env) (indentedArray s es) = opsBody els :=
      printOps_body hs hq els es 0 es.length h6 hx.2.2.2.1 (by simp)
    simp only [ifNode, expand_append, hb, onArray, onField, h1, h5, onSome, Json.asArray, field]
    cases els with
    | nil =>
      have : es = [] := by
        cases es with
        | nil => rfl
        | cons _ _ => simp [ShowStmts] at h6
      subst this
      pieces [printOps_shows env c a s h2, opsStmt]
    | cons e els =>
      have hne : es.isEmpty = false := by
        cases es with
        | nil => simp [ShowStmts] at h6
        | cons _ _ => rfl
      simp only [hne, when, Bool.not_false, if_true, expand_append, he]
      pieces [printOps_shows env c a s h2, opsStmt]
  | .comment t, j, h, hx => by
    simp only [ShowsStmt] at h
    simp only [Stmt.Ok] at hx
    rw [printOps_of (body := comment s j) (by simp [layout, show j.getStrForKey "ast_type" = some _ from h.1])]
    pieces [VyPrint.comment, h.2, opsStmt]
  | .quote x, j, h, hx => by
    simp only [ShowsStmt] at h
    simp only [Stmt.Ok] at hx
    obtain ⟨h1, v, h2, h3⟩ := h
    obtain ⟨kvs, rfl⟩ : ∃ kvs, v = .obj kvs := showsStmt_obj h3
    obtain ⟨q, h4, h5⟩ := hq.1 x hx.1 hx.2.1 hx.2.2
    have h6 := printOps_stmt hs hq x _ h3 hx.1
    rw [printOps_of (body := comment s j) (by simp [layout, show j.getStrForKey "ast_type" = some _ from h1])]
    simp only [VyPrint.comment, onField, h2, onSome, expand_append]
    simp [tok, sp, expand, h6, h4, h5, opsStmt, word]
theorem printOps_body {s : PrintSettings} (hs : s.tupleParens = false) (hq : Quotes env.checks) : (xs : List Stmt) → (js : List Json) → (i len : Nat) →
    ShowStmts xs js → OkAll xs → i + js.length = len → expand env.checks (printOps env) (indentedLoop s len i js) = opsBody xs
  | [], [], _, _, _, _, _ => by simp [indentedLoop, expand, opsBody]
  | [], _ :: _, _, _, h, _, _ => by simp [ShowStmts] at h
  | _ :: _, [], _, _, h, _, _ => by simp [ShowStmts] at h
  | x :: xs, j :: js, i, len, h, hx, hl => by
    simp only [ShowStmts] at h
    simp only [OkAll] at hx
    have h1 := printOps_stmt hs hq x j h.1 hx.1
    have h2 := printOps_further hs hq xs js (i + 1) len h.2 hx.2 (by simp at hl; omega)
    have hc : (decide (i < len - 1)) = !js.isEmpty := by
      cases js with
      | nil => simp at hl; simp; omega
      | cons _ _ => simp at hl; simp; omega
    simp only [indentedLoop, hc, expand_append, opsBody, ← h2]
    pieces [h1]
theorem printOps_further {s : PrintSettings} (hs : s.tupleParens = false) (hq : Quotes env.checks) : (xs : List Stmt) → (js : List Json) → (i len : Nat) →
    ShowStmts xs js → OkAll xs → i + js.length = len →
    expand env.checks (printOps env) (when (!js.isEmpty) nl) ++ expand env.checks (printOps env) (indentedLoop s len i js) = opsFurther xs
  | [], [], _, _, _, _, _ => by simp [indentedLoop, expand, opsFurther, when]
  | [], _ :: _, _, _, h, _, _ => by simp [ShowStmts] at h
  | _ :: _, [], _, _, h, _, _ => by simp [ShowStmts] at h
  | x :: xs, j :: js, i, len, h, hx, hl => by
    simp only [ShowStmts] at h
    simp only [OkAll] at hx
    have h1 := printOps_stmt hs hq x j h.1 hx.1
    have h2 := printOps_further hs hq xs js (i + 1) len h.2 hx.2 (by simp at hl; omega)
    have hc : (decide (i < len - 1)) = !js.isEmpty := by
      cases js with
      | nil => simp at hl; simp; omega
      | cons _ _ => simp at hl; simp; omega
    simp only [indentedLoop, hc, expand_append, opsFurther, ← h2]
    pieces [h1]
theorem printOps_lines {s : PrintSettings} (hs : s.tupleParens = false) (hq : Quotes env.checks) : (xs : List Stmt) → (js : List Json) →
    ShowStmts xs js → OkAll xs →
    expand env.checks (printOps env) (js.flatMap fun v => ind ++ [.sub s v] ++ nl) = opsLines xs
  | [], [], _, _ => by simp [expand, opsLines]
  | [], _ :: _, h, _ => by simp [ShowStmts] at h
  | _ :: _, [], h, _ => by simp [ShowStmts] at h
  | x :: xs, j :: js, h, hx => by
    simp only [ShowStmts] at h
    simp only [OkAll] at hx
    have h1 := printOps_stmt hs hq x j h.1 hx.1
    have h2 := printOps_lines hs hq xs js h.2 hx.2
    simp only [List.flatMap_cons, expand_append, h2]
    pieces [h1, opsLines]
end

/-! ### Functions -/

theorem printOps_param {p : Param} {j : Json} (h : ShowsParam p j) (s : PrintSettings) :
    printOps env s j = word p.name ++ (word ":" ++ ([.space] ++ opsE p.type)) := by
  obtain ⟨h, h1, v, h2, h3⟩ := h
  rw [printOps_of (body := strTok "arg" j ++ onField "annotation" j fun a => if a = .null then [] else tok ":" ++ sp ++ [.sub s a])
    (by simp [layout, show j.getStrForKey "ast_type" = some _ from h])]
  pieces [h1, h2, shows_ne h3, printOps_shows env p.type v s h3]

theorem printOps_plain (s : PrintSettings) : (ps : List Param) → (js : List Json) → ShowPlain ps js →
    js.map (printOps env s) = ps.map opsParam
  | [], [], _ => rfl
  | [], _ :: _, h => by simp [ShowPlain] at h
  | _ :: _, [], h => by simp [ShowPlain] at h
  | p :: ps, j :: js, h => by
    simp only [ShowPlain] at h
    rw [List.map_cons, List.map_cons, printOps_plain s ps js h.2.2, printOps_param h.1]
    simp [opsParam, h.2.1, opsOption]

theorem printOps_defaults (s : PrintSettings) : (ps : List Param) → (js : List (Json × Json)) → ShowDefaults ps js →
    js.map (fun p => printOps env s p.1 ++ word "=" ++ printOps env s p.2) = ps.map opsParam
  | [], [], _ => rfl
  | [], _ :: _, h => by simp [ShowDefaults] at h
  | _ :: _, [], h => by simp [ShowDefaults] at h
  | p :: ps, (a, d) :: js, h => by
    simp only [ShowDefaults] at h
    obtain ⟨h1, ⟨e, h2, h3⟩, h4⟩ := h
    rw [List.map_cons, List.map_cons, printOps_defaults s ps js h4, printOps_param h1, printOps_shows env e d s h3]
    simp [opsParam, h2, opsOption]

theorem commaList_params : (ps : List Param) → commaList (ps.map opsParam) = opsParams ps
  | [] => rfl
  | [p] => by simp [commaList_cons, opsParams, commaList, List.intercalate]
  | p :: q :: ps => by
    have := commaList_params (q :: ps)
    rw [List.map_cons, commaList_cons, this]
    simp [opsParams]

theorem printOps_params {ps : List Param} {j : Json} (h : ShowParams ps j) (s : PrintSettings) :
    printOps env s j = opsParams ps := by
  obtain ⟨h, qs, rs, as, ds, rfl, h1, h2, h3, h4⟩ := h
  rw [C61_defaults_with_last_parameters env s j as ds h h3 h4, parameters, printOps_plain s qs as h1, printOps_defaults s rs ds h2,
    ← List.map_append, commaList_params]

/-- The pieces of a signature. -/
def sigPieces (s : PrintSettings) (j : Json) : Ps :=
  tok "def" ++ sp ++ strTok "name" j ++ tok "(" ++ field s "args" j ++ tok ")" ++
      (onField "returns" j fun r => if r = .null then [] else sp ++ tok "->" ++ sp ++ [.sub { s with tupleParens := true } r]) ++
      tok ":"

/-- The pieces of documentation. -/
def docPieces (j : Json) : Ps :=
  onField "doc_string" j fun d => if d = .null then [] else
      inc ++ (onStr "value" d fun doc => nl ++ ind ++ docString doc ++ nl) ++ dec

theorem functionDef_eq (s : PrintSettings) (j : Json) :
    functionDef s j = when (hasDecorators j) ind ++ (sigPieces s j ++ (docPieces j ++
      if s.interfaceForm then sp ++ onArray "body" j (array s)
      else onArray "body" j fun xs => nl ++ (inc ++ indentedArray s xs ++ dec))) := by
  simp only [functionDef, sigPieces, docPieces, List.append_assoc]

theorem sig_ops {g : Sig} {j : Json} {s : PrintSettings} (h : ShowsSig g j) :
    expand env.checks (printOps env) (sigPieces s j) = opsSig g := by
  obtain ⟨_, h1, ⟨a, h2, h3⟩, h4⟩ := h
  have hr : expand env.checks (printOps env)
      (onField "returns" j fun r => if r = .null then [] else sp ++ tok "->" ++ sp ++ [.sub { s with tupleParens := true } r]) =
      opsResults g.results := by
    rcases h4 with ⟨h4, h5⟩ | ⟨v, h4, h5⟩
    · rw [h4]
      rcases h5 with h5 | h5 <;> pieces [h5, opsResults]
    · rw [← printOps_rowParens (env := env) (s := { s with tupleParens := true }) rfl h5]
      pieces [h4, (showRow_ne h5).1]
  simp only [sigPieces, expand_append, hr]
  pieces [h1, h2, printOps_params h3 s, opsSig]

theorem docString_ops (t : String) : expand env.checks (printOps env) (docString t) = opsDoc t := by
  unfold docString opsDoc
  split <;> pieces []

theorem marks_ops {s : PrintSettings} : (es : List Expr) → (js : List Json) → ShowAll es js →
    expand env.checks (printOps env) (js.flatMap fun d => ind ++ tok "@" ++ [.sub s d] ++ nl) = opsMarks es
  | [], [], _ => by simp [expand, opsMarks]
  | [], _ :: _, h => by simp [ShowAll] at h
  | _ :: _, [], h => by simp [ShowAll] at h
  | e :: es, j :: js, h => by
    simp only [ShowAll] at h
    simp only [List.flatMap_cons, expand_append, marks_ops es js h.2]
    pieces [printOps_shows env e j s h.1, opsMarks]

theorem decorators_ops {s : PrintSettings} {es : List Expr} {j : Json} {vs : List Json}
    (h1 : Json.field? "decorator_list" j = some (.arr vs)) (h2 : ShowAll es vs) :
    expand env.checks (printOps env) (decorators s j) ++ expand env.checks (printOps env) (when (hasDecorators j) ind) =
      opsDecorators es := by
  simp only [decorators, hasDecorators, onArray, onField, h1, onSome, Json.asArray, Option.bind_some]
  cases vs with
  | nil =>
    cases es with
    | nil => simp [expand, opsDecorators, when]
    | cons _ _ => simp [ShowAll] at h2
  | cons v vs =>
    cases es with
    | nil => simp [ShowAll] at h2
    | cons e es =>
      simp only [ShowAll] at h2
      simp only [expand_append, marks_ops es vs h2.2]
      pieces [printOps_shows env e v s h2.1, opsDecorators]

theorem fnDoc_ops {doc : Option String} {j : Json} (h : ShowDoc doc j) :
    expand env.checks (printOps env) (docPieces j) = opsFnDoc doc := by
  cases doc with
  | none => rcases h with h | h <;> pieces [h, opsFnDoc, docPieces]
  | some t =>
    obtain ⟨x, h1, h2, h3⟩ := h
    simp only [docPieces, onField, h1, onSome, isA_null h2, if_false, onStr, h3, expand_append, docString_ops]
    pieces [opsFnDoc]

theorem simples_stmts : (fs : List Simple) → (js : List Json) → ShowSimples fs js → ShowStmts (fs.map .simple) js
  | [], [], _ => by simp [ShowStmts]
  | [], _ :: _, h => by simp [ShowSimples] at h
  | _ :: _, [], h => by simp [ShowSimples] at h
  | s :: fs, j :: js, h => by
    simp only [ShowSimples] at h
    simp only [List.map_cons, ShowStmts, ShowsStmt]
    exact ⟨h.1, simples_stmts fs js h.2⟩

theorem okAll_simples : (fs : List Simple) → (∀ s ∈ fs, s.Ok) → OkAll (fs.map .simple)
  | [], _ => by simp [OkAll]
  | s :: fs, h => by
    simp only [List.map_cons, OkAll, Stmt.Ok]
    exact ⟨h s (List.mem_cons_self ..), okAll_simples fs fun t ht => h t (List.mem_cons_of_mem _ ht)⟩

theorem printOps_function {s : PrintSettings} (hi : s.interfaceForm = true) {g : Sig} {m : String} {j : Json} (h : ShowsSig g j)
    (h1 : Json.field? "decorator_list" j = some (.arr [])) (h2 : ShowDoc none j) {b : Json} (h3 : Json.field? "body" j = some (.arr [b]))
    (h4 : IsA "Expr" b) (h5 : ShowField "value" (.leaf m) b) :
    printOps env s j = opsSig g ++ ([.space] ++ word m) := by
  have hd := decorators_ops (env := env) (s := s) (es := []) h1 (by simp [ShowAll])
  have hf := fnDoc_ops (env := env) h2
  have hb : printOps env s b = word m := by
    obtain ⟨v, h6, h7⟩ := h5
    rw [printOps_of (body := field s "value" b) (by simp [layout, show b.getStrForKey "ast_type" = some _ from h4])]
    pieces [h6, printOps_shows env _ v s h7, opsE]
  rw [printOps_around (entry := decorators s j) (body := functionDef s j) (exit := [])
    (by simp [layout, show j.getStrForKey "ast_type" = some _ from h.1])]
  rw [functionDef_eq]
  simp only [expand_append, sig_ops h, hf, hi, if_true, onArray, onField, h3, onSome, Json.asArray, expand_array,
    List.map_cons, List.map_nil, hb]
  simp only [← List.append_assoc, hd]
  simp [opsDecorators, opsFnDoc, commaList_cons, commaList, List.intercalate, expand, sp]

theorem functions_ops : (fs : List (Sig × String)) → (js : List Json) → ShowFunctions fs js → (s : PrintSettings) → s.interfaceForm = true →
    expand env.checks (printOps env) (js.flatMap fun v => ind ++ [.sub s v] ++ nl) = opsFunctions fs
  | [], [], _, _, _ => by simp [expand, opsFunctions]
  | [], _ :: _, h, _, _ => by simp [ShowFunctions] at h
  | _ :: _, [], h, _, _ => by simp [ShowFunctions] at h
  | (g, m) :: fs, j :: js, h, s, hs => by
    simp only [ShowFunctions] at h
    obtain ⟨⟨h1, h2, h3, b, h4, h5, h6⟩, h⟩ := h
    simp only [List.flatMap_cons, expand_append, functions_ops fs js h s hs]
    pieces [printOps_function hs h1 h2 h3 h4 h5 h6, opsFunctions]

theorem printOps_decl (hq : Quotes env.checks) {x : Decl} {j : Json} (h : ShowsDecl x j) (hx : x.Ok) : printOps env {} j = opsDecl x := by
  induction x generalizing j with
  | simple s =>
    simp only [Decl.Ok] at hx
    rw [printOps_simple rfl h hx.1, opsDecl]
  | block k n fs =>
    obtain ⟨h, h1, bs, h2, h3⟩ := h
    simp only [Decl.Ok] at hx
    obtain ⟨hk, _, _, hf, _⟩ := hx
    have hs := simples_stmts fs bs h3
    have hok := okAll_simples fs hf
    have hb : expand env.checks (printOps env) (indentedBody {} j) = opsBody (fs.map .simple) := by
      simp only [indentedBody, indentedArray, onArray, onField, h2, onSome, Json.asArray]
      exact printOps_body rfl hq _ bs 0 bs.length hs hok (by simp)
    have hl : expand env.checks (printOps env) (bodyAsNodes {} j) = opsLines (fs.map .simple) := by
      simp only [bodyAsNodes, onArray, onField, h2, onSome, Json.asArray]
      exact printOps_lines rfl hq _ bs hs hok
    simp only [keywords, List.mem_cons, List.not_mem_nil, or_false] at hk
    rcases hk with rfl | rfl | rfl
    · rw [printOps_around (entry := bodyEntry "struct" j) (body := bodyAsNodes {} j) (exit := dec)
        (by simp [layout, show j.getStrForKey "ast_type" = some _ from h, blockType])]
      simp only [expand_append, hl]
      pieces [bodyEntry, h1, opsDecl, opsBlock]
    · rw [printOps_of (body := listDef "event" {} j) (by simp [layout, show j.getStrForKey "ast_type" = some _ from h, blockType])]
      simp only [listDef, expand_append, hb]
      pieces [h1, opsDecl, opsBlock]
    · rw [printOps_of (body := listDef "enum" {} j) (by simp [layout, show j.getStrForKey "ast_type" = some _ from h, blockType])]
      simp only [listDef, expand_append, hb]
      pieces [h1, opsDecl, opsBlock]
  | interface n fs =>
    obtain ⟨h, h1, bs, h2, h3⟩ := h
    rw [printOps_around (entry := bodyEntry "interface" j) (body := bodyAsNodes { interfaceForm := true } j) (exit := dec)
      (by simp [layout, show j.getStrForKey "ast_type" = some _ from h])]
    have hl : expand env.checks (printOps env) (bodyAsNodes { interfaceForm := true } j) = opsFunctions fs := by
      simp only [bodyAsNodes, onArray, onField, h2, onSome, Json.asArray]
      exact functions_ops fs bs h3 _ rfl
    simp only [expand_append, hl]
    pieces [bodyEntry, h1, opsDecl, opsBlock]
  | fn ds g doc body =>
    obtain ⟨h, ⟨vs, h1, h2⟩, h3, bs, h4, h5⟩ := h
    simp only [Decl.Ok] at hx
    have hd := decorators_ops (env := env) (s := {}) h1 h2
    have hf := fnDoc_ops (env := env) h3
    have hb : expand env.checks (printOps env) (indentedArray {} bs) = opsBody body :=
      printOps_body rfl hq body bs 0 bs.length h5 hx.2.2.2.1 (by simp)
    rw [printOps_around (entry := decorators {} j) (body := functionDef {} j) (exit := [])
      (by simp [layout, show j.getStrForKey "ast_type" = some _ from h.1])]
    rw [functionDef_eq]
    simp only [expand_append, sig_ops h, hf, Bool.false_eq_true, if_false, onArray, onField, h4, onSome, Json.asArray, hb]
    simp only [← List.append_assoc, hd]
    simp [opsDecl, expand, nl, inc, dec]
  | comment t =>
    rw [opsDecl]
    exact printOps_stmt rfl hq (.comment t) j (by rw [ShowsStmt]; exact h) (by rw [Stmt.Ok]; exact hx.1)
  | quote x ih =>
    obtain ⟨h1, v, h2, h3⟩ := h
    simp only [Decl.Ok] at hx
    obtain ⟨kvs, rfl⟩ : ∃ kvs, v = .obj kvs := showsDecl_obj h3
    obtain ⟨q, h4, h5⟩ := hq.2 x hx.1 hx.2.1
    have h6 := ih h3 hx.1
    rw [printOps_of (body := comment {} j) (by simp [layout, show j.getStrForKey "ast_type" = some _ from h1])]
    simp only [VyPrint.comment, onField, h2, onSome, expand_append]
    rw [show opsDecl (.quote x) = word "#" ++ ([.space] ++ [.flow (textDecl x) "# ".toList]) from rfl]
    simp [tok, sp, expand, h6, h4, h5, word]

theorem decls_ops (hq : Quotes env.checks) : (xs : List Decl) → (js : List Json) → ShowDecls xs js → (∀ x ∈ xs, x.Ok) →
    expand env.checks (printOps env) (js.flatMap fun v => [.sub ({} : PrintSettings) v] ++ nl ++ nl) = opsDecls xs
  | [], [], _, _ => by simp [expand, opsDecls]
  | [], _ :: _, h, _ => by simp [ShowDecls] at h
  | _ :: _, [], h, _ => by simp [ShowDecls] at h
  | x :: xs, j :: js, h, hx => by
    simp only [ShowDecls] at h
    simp only [List.flatMap_cons, expand_append, decls_ops hq xs js h.2 fun y hy => hx y (List.mem_cons_of_mem _ hy)]
    pieces [printOps_decl hq h.1 (hx x (List.mem_cons_self ..)), opsDecls]

/-- The calls that print the node of a program. -/
theorem printOps_program (hq : Quotes env.checks) {p : Program} {j : Json} (h : ShowsProgram p j) (hp : p.Ok) : printOps env {} j = opsProgram p := by
  obtain ⟨h, h1, bs, h2, h3⟩ := h
  rw [printOps_of (body := moduleNode {} j) (by simp [layout, show j.getStrForKey "ast_type" = some _ from h])]
  have hb : expand env.checks (printOps env) (onArray "body" j fun xs => xs.flatMap fun v => [.sub ({} : PrintSettings) v] ++ nl ++ nl) = opsDecls p.decls := by
    simp only [onArray, onField, h2, onSome, Json.asArray]
    exact decls_ops hq p.decls bs h3 hp.2
  rw [moduleNode, expand_append, hb, opsProgram]
  congr 1
  cases hd : p.doc with
  | none =>
    rw [hd] at h1
    rcases h1 with h1 | h1
    · pieces [h1]
    · have : Json.getStrForKey "value" .null = none := by decide
      pieces [h1, this]
  | some t =>
    rw [hd] at h1
    obtain ⟨x, h4, h5, h6⟩ := h1
    simp only [onField, h4, onSome, onStr, h6, expand_append, docString_ops]
    simp [expand, nl]

theorem bareAll_append : (a b : List Stmt) → bareAll (a ++ b) = bareAll a ++ bareAll b
  | [], b => by rw [List.nil_append, bareAll, List.nil_append]
  | s :: a, b => by rw [List.cons_append, bareAll, bareAll, bareAll_append a b, List.append_assoc]

end VyPrint
end Mutagenyx
