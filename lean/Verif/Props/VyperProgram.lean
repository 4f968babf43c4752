import Verif.Proofs.VyperReadBack
import Verif.Props.VyperExpr
import Verif.Proofs.MutatorNodes

/-!
# C74: printed Vyper programs are read back as the same program
-/

namespace Mutagenyx
namespace VyPrint
open VyGrammar

/-! ### A node for each program -/

mutual
theorem formed_of_plain : (e : Expr) → Plain e → (∀ k v, e ≠ .entry k v) → formed e = true
  | .leaf _, _, _ => by simp [formed]
  | .str _, _, _ => by simp [formed]
  | .attr e _, h, _ => by
    simp only [Plain] at h
    simp only [formed]
    exact formed_of_plain e h.2.2 (by intro k v he; rw [he] at h; simp [primary] at h)
  | .index e is, h, _ => by
    simp only [Plain] at h
    simp only [formed, Bool.and_eq_true]
    exact ⟨formed_of_plain e h.2.1 (by intro k v he; rw [he] at h; simp [primary] at h),
      formed_of_plains "]" (by decide) is h.2.2.2⟩
  | .call f args, h, _ => by
    simp only [Plain] at h
    simp only [formed, Bool.and_eq_true]
    exact ⟨formed_of_plain f h.2.1 (by intro k v he; rw [he] at h; simp [primary] at h),
      formed_of_plains ")" (by decide) args h.2.2⟩
  | .list es, h, _ => by
    simp only [Plain] at h
    simp only [formed]
    exact formed_of_plains "]" (by decide) es h
  | .dict es, h, _ => by
    simp only [Plain] at h
    simp only [formed]
    exact formed_of_entries es h
  | .named _ e, h, _ => by
    simp only [Plain] at h
    simp only [formed]
    exact formed_of_plain e h.2.2 (by intro k v he; rw [he] at h; simp [proper] at h)
  | .entry k v, _, hn => absurd rfl (hn k v)
  | .bin l o r, h, _ => by
    simp only [Plain] at h
    simp only [formed, Bool.and_eq_true]
    refine ⟨formed_of_plain l h.1 ?_, formed_of_plain r h.2.1 ?_⟩
    · intro k v he; rw [he] at h; simp [strength] at h
    · intro k v he; rw [he] at h; have h2 := h.2.2.2; simp only [strength] at h2; cases o <;> simp [Operator.right, Operator.level, invLevel] at h2
  | .not e, h, _ => by
    simp only [Plain] at h
    simp only [formed]
    exact formed_of_plain e h.2 (by intro k v he; rw [he] at h; simp [proper] at h)
  | .inv e, h, _ => by
    simp only [Plain] at h
    simp only [formed]
    exact formed_of_plain e h.1 (by intro k v he; rw [he] at h; simp [strength, invLevel] at h)
  | .neg e, h, _ => by
    simp only [Plain] at h
    simpa only [formed] using h
theorem formed_of_plains (close : String) (hc : close ≠ "}") :
    (es : List Expr) → PlainAll close es → formedAll es = true
  | [], _ => by simp [formedAll]
  | e :: es, h => by
    simp only [PlainAll] at h
    simp only [formedAll, Bool.and_eq_true]
    exact ⟨formed_of_plain e h.2.1 (by intro k v he; rw [he] at h; simp [fitting, hc] at h),
      formed_of_plains close hc es h.2.2⟩
theorem formed_of_entries : (es : List Expr) → PlainAll "}" es → formedEntries es = true
  | [], _ => by simp [formedEntries]
  | .entry k v :: es, h => by
    simp only [PlainAll, Plain] at h
    simp only [formedEntries, Bool.and_eq_true]
    exact ⟨⟨formed_of_plain k h.2.1.2.1 (by intro x y he; rw [he] at h; simp [proper] at h),
      formed_of_plain v h.2.1.2.2.2 (by intro x y he; rw [he] at h; simp [proper] at h)⟩,
      formed_of_entries es h.2.2⟩
  | .leaf _ :: _, h => by simp [PlainAll, fitting] at h
  | .str _ :: _, h => by simp [PlainAll, fitting] at h
  | .attr _ _ :: _, h => by simp [PlainAll, fitting] at h
  | .index _ _ :: _, h => by simp [PlainAll, fitting] at h
  | .call _ _ :: _, h => by simp [PlainAll, fitting] at h
  | .list _ :: _, h => by simp [PlainAll, fitting] at h
  | .dict _ :: _, h => by simp [PlainAll, fitting] at h
  | .named _ _ :: _, h => by simp [PlainAll, fitting] at h
  | .bin _ _ _ :: _, h => by simp [PlainAll, fitting] at h
  | .not _ :: _, h => by simp [PlainAll, fitting] at h
  | .inv _ :: _, h => by simp [PlainAll, fitting] at h
  | .neg _ :: _, h => by simp [PlainAll, fitting] at h
end

theorem shows_fine {e : Expr} (h : Fine e) : Shows e (node e) :=
  shows_node e (formed_of_plain e h.1 (by intro k v he; rw [he] at h; simp [Fine, proper] at h))

theorem shows_fines : (es : List Expr) → FineAll es → ShowAll es (nodes es)
  | [], _ => by simp [ShowAll, nodes]
  | e :: es, h => by
    simp only [ShowAll, nodes]
    exact ⟨shows_fine (h e (by simp)), shows_fines es (fun x hx => h x (by simp [hx]))⟩

/-- A node for one expression, or a tuple. -/
def rowNode : List Expr → Json
  | [e] => node e
  | es => VyNode.mk "Tuple" [("elements", .arr (nodes es))]

/-- A node for an expression, or `null`. -/
def optionNode : Option Expr → Json
  | none => .null
  | some e => node e

/-- A text, or `null`. -/
def textNode : Option String → Json
  | none => .null
  | some t => .str t

/-- A node for the statement. -/
def nodeSimple : Simple → Json
  | .expr e => VyNode.mk "Expr" [("value", node e)]
  | .assign ts vs => VyNode.mk "Assign" [("target", rowNode ts), ("value", rowNode vs)]
  | .aug t o v => VyNode.mk "AugAssign" [("target", node t), ("op", VyNode.mk o.type []), ("value", node v)]
  | .ann t ty v => VyNode.mk "AnnAssign" [("target", node t), ("annotation", node ty), ("value", optionNode v)]
  | .ret vs => VyNode.mk "Return" [("value", if vs = [] then .null else rowNode vs)]
  | .raise e => VyNode.mk "Raise" [("exc", optionNode e)]
  | .assert e m => VyNode.mk "Assert" [("test", node e), ("msg", optionNode m)]
  | .pass => VyNode.mk "Pass" []
  | .break => VyNode.mk "Break" []
  | .continue => VyNode.mk "Continue" []
  | .log e => VyNode.mk "Log" [("value", node e)]
  | .import_ p a => VyNode.mk "Import" [("name", .str (String.ofList (pathText p))), ("alias", textNode a)]
  | .from_ level p n a => VyNode.mk "ImportFrom" [("level", .num (.int level)), ("name", .str n), ("alias", textNode a),
      ("module", if p = [] then .null else .str (String.ofList (pathText p)))]

/-- A node for the variable of a loop. -/
def nodeLoop (x : String) : Option Expr → Json
  | none => node (.leaf x)
  | some ty => VyNode.mk "AnnAssign" [("target", node (.leaf x)), ("annotation", node ty), ("value", .null)]

/-- A node for the comment. -/
def nodeNote (t : String) : Json := VyNode.mk "Comment" [("value", .str t)]

mutual
/-- A node for the statement. -/
def nodeStmt : Stmt → Json
  | .simple s => nodeSimple s
  | .for_ x ty it body => VyNode.mk "For" [("target", nodeLoop x ty), ("iter", node it), ("body", .arr (nodeStmts body))]
  | .if_ c body els =>
    VyNode.mk "If" [("test", node c), ("body", .arr (nodeStmts body)), ("orelse", .arr (nodeStmts els))]
  | .comment t => nodeNote t
  | .quote s => VyNode.mk "Comment" [("value", nodeStmt s)]
/-- Nodes for the statements. -/
def nodeStmts : List Stmt → List Json
  | [] => []
  | s :: ss => nodeStmt s :: nodeStmts ss
end

/-- A node for name and type of the parameter. -/
def nodeParam (p : Param) : Json := VyNode.mk "arg" [("arg", .str p.name), ("annotation", node p.type)]

/-- A node for the parameters. -/
def nodeParams (ps : List Param) : Json :=
  VyNode.mk "arguments" [("args", .arr (ps.map nodeParam)), ("defaults", .arr (ps.filterMap fun p => p.value.map node))]

/-- A node for documentation, or `null`. -/
def nodeDoc : Option String → Json
  | none => .null
  | some t => VyNode.mk "DocStr" [("value", .str t)]

/-- A node for a function. -/
def nodeFunction (ds : List Expr) (g : Sig) (doc : Option String) (body : List Json) : Json :=
  VyNode.mk "FunctionDef" [("name", .str g.name), ("args", nodeParams g.params),
    ("returns", if g.results = [] then .null else rowNode g.results), ("decorator_list", .arr (nodes ds)),
    ("doc_string", nodeDoc doc), ("body", .arr body)]

/-- A node for the declaration. -/
def nodeDecl : Decl → Json
  | .simple s => nodeSimple s
  | .block k n fs => VyNode.mk (blockType k) [("name", .str n), ("body", .arr (fs.map nodeSimple))]
  | .interface n fs => VyNode.mk "InterfaceDef" [("name", .str n), ("body",
      .arr (fs.map fun f => nodeFunction [] f.1 none [VyNode.mk "Expr" [("value", node (.leaf f.2))]]))]
  | .fn ds g doc body => nodeFunction ds g doc (nodeStmts body)
  | .comment t => nodeNote t
  | .quote d => VyNode.mk "Comment" [("value", nodeDecl d)]

/-- A node for the program. -/
def nodeProgram (p : Program) : Json :=
  VyNode.mk "Module" [("doc_string", nodeDoc p.doc), ("body", .arr (p.decls.map nodeDecl))]

/-- Only the last parameters have default values. -/
def ordered : List Param → Bool
  | [] => true
  | p :: ps => if p.value.isSome then ps.all (·.value.isSome) else ordered ps

/-- In all signatures of the declaration. -/
def orderedDecl : Decl → Bool
  | .interface _ fs => fs.all fun f => ordered f.1.params
  | .fn _ g _ _ => ordered g.params
  | .quote d => orderedDecl d
  | _ => true

theorem tokens_name : Json.pointerTokens (Json.jsonPath "name") = some ["name"] := by decide
theorem tokens_alias : Json.pointerTokens (Json.jsonPath "alias") = some ["alias"] := by decide
theorem tokens_level : Json.pointerTokens (Json.jsonPath "level") = some ["level"] := by decide

theorem isA_mk {t : String} {fs : List (String × Json)} (h : lastField "ast_type" fs (some (.str t)) = some (.str t)) :
    IsA t (VyNode.mk t fs) := by
  unfold IsA Json.getStrForKey Json.get? Json.pointer
  rw [tokens_ast]
  have h2 := field_ofFields "ast_type" (("ast_type", Json.str t) :: fs)
  rw [lastField, if_pos rfl, h] at h2
  simp only [VyNode.mk, Json.ofFields, Json.follow, Json.step] at h2 ⊢
  simp only [Json.field] at h2
  rw [h2]; rfl

theorem field_mk {t k : String} {fs : List (String × Json)} (hk : k ≠ "ast_type") :
    Json.field? k (VyNode.mk t fs) = lastField k fs none := by
  have h2 := field_ofFields k (("ast_type", Json.str t) :: fs)
  rw [lastField, if_neg (Ne.symm hk)] at h2
  exact h2

theorem str_mk {t k : String} {fs : List (String × Json)} (hk : k ≠ "ast_type")
    (ht : Json.pointerTokens (Json.jsonPath k) = some [k]) :
    (VyNode.mk t fs).getStrForKey k = (lastField k fs none).bind Json.asStr := by
  rw [← field_mk (t := t) hk]
  unfold Json.getStrForKey Json.get? Json.pointer
  rw [ht]
  simp only [VyNode.mk, Json.ofFields, Json.follow, Json.step, Json.field?]
  cases Json.objGet k _ <;> rfl

theorem int_mk {t k : String} {fs : List (String × Json)} (hk : k ≠ "ast_type")
    (ht : Json.pointerTokens (Json.jsonPath k) = some [k]) :
    (VyNode.mk t fs).getIntForKey k = (lastField k fs none).bind Json.asI64 := by
  rw [← field_mk (t := t) hk]
  unfold Json.getIntForKey Json.get? Json.pointer
  rw [ht]
  simp only [VyNode.mk, Json.ofFields, Json.follow, Json.step, Json.field?]
  cases Json.objGet k _ <;> rfl

theorem asI64_level {n : Nat} (h : n ≤ 1) : Json.asI64 (.num (.int n)) = some (n : Int) := by
  have h2 : (n : Int) < 2 ^ 63 ∧ -(2 ^ 63 : Int) ≤ n := by omega
  unfold Json.asI64
  exact if_pos h2

theorem shows_row {es : List Expr} (he : es ≠ []) (h : FineAll es) : ShowRow es (rowNode es) := by
  match es, he, h with
  | [e], _, h => exact .inl ⟨e, rfl, shows_fine (h e (by simp))⟩
  | e :: e2 :: es, _, h =>
    exact .inr ⟨by simp, isA_mk (by simp [lastField]), _, by simp [rowNode, field_mk, lastField],
      shows_fines _ h⟩

theorem shows_option {key t : String} {fs : List (String × Json)} {e : Option Expr} (hk : key ≠ "ast_type")
    (hf : lastField key fs none = some (optionNode e)) (h : FineOption e) : ShowOption key e (VyNode.mk t fs) := by
  cases e with
  | none => exact .inr (by rw [field_mk hk, hf]; rfl)
  | some e => exact ⟨_, by rw [field_mk hk, hf]; rfl, shows_fine (h e rfl)⟩

theorem shows_field {key t : String} {fs : List (String × Json)} {e : Expr} (hk : key ≠ "ast_type")
    (hf : lastField key fs none = some (node e)) (h : Fine e) : ShowField key e (VyNode.mk t fs) :=
  ⟨_, by rw [field_mk hk, hf], shows_fine h⟩

theorem shows_rowField {key t : String} {fs : List (String × Json)} {es : List Expr} (hk : key ≠ "ast_type")
    (hf : lastField key fs none = some (rowNode es)) (he : es ≠ []) (h : FineAll es) :
    ShowRowField key es (VyNode.mk t fs) :=
  ⟨_, by rw [field_mk hk, hf], shows_row he h⟩

theorem asStr_textNode (a : Option String) : (textNode a).asStr = a := by cases a <;> rfl

theorem shows_from {level : Nat} {p : List String} {n : String} {a : Option String} (h : level ≤ 1) :
    ShowsSimple (.from_ level p n a) (nodeSimple (.from_ level p n a)) := by
  refine ⟨isA_mk (by simp [lastField]), ?_, by rw [nodeSimple, str_mk (by decide) tokens_name]; simp [lastField, Json.asStr],
    by rw [nodeSimple, field_mk (by decide)]; simp [lastField, asStr_textNode],
    by rw [nodeSimple, field_mk (by decide)]; simp [lastField]⟩
  rw [nodeSimple, int_mk (by decide) tokens_level]
  have hl : lastField "level" [("level", Json.num (.int level)), ("name", .str n), ("alias", textNode a),
      ("module", if p = [] then .null else .str (String.ofList (pathText p)))] none = some (.num (.int level)) := by
    simp [lastField]
  rw [hl, Option.bind_some]
  exact asI64_level h

theorem shows_simple (s : Simple) (h : s.Ok) : ShowsSimple s (nodeSimple s) := by
  cases s with
  | expr e => exact ⟨isA_mk (by simp [lastField]), shows_field (by decide) (by simp [lastField]) h⟩
  | assign ts vs =>
    exact ⟨isA_mk (by simp [lastField]), shows_rowField (by decide) (by simp [lastField]) h.1 h.2.2.1,
      shows_rowField (by decide) (by simp [lastField]) h.2.1 h.2.2.2⟩
  | aug t o v =>
    exact ⟨isA_mk (by simp [lastField]), shows_field (by decide) (by simp [lastField]) h.1,
      ⟨VyNode.mk o.type [], by rw [nodeSimple, field_mk (by decide)]; simp [lastField], isA_mk (by simp [lastField])⟩,
      shows_field (by decide) (by simp [lastField]) h.2.2⟩
  | ann t ty v =>
    exact ⟨shows_field (by decide) (by simp [lastField]) h.1, shows_option (by decide) (by simp [lastField]) h.2.2,
      .inl ⟨isA_mk (by simp [lastField]), shows_field (by decide) (by simp [lastField]) h.2.1⟩⟩
  | ret vs =>
    refine ⟨isA_mk (by simp [lastField]), ?_⟩
    by_cases hv : vs = []
    · exact .inl ⟨hv, .inr (by rw [nodeSimple, field_mk (by decide)]; simp [lastField, hv])⟩
    · exact .inr (shows_rowField (by decide) (by simp [lastField, hv]) hv h)
  | raise e => exact ⟨isA_mk (by simp [lastField]), shows_option (by decide) (by simp [lastField]) h⟩
  | assert e m =>
    exact ⟨isA_mk (by simp [lastField]), shows_field (by decide) (by simp [lastField]) h.1,
      shows_option (by decide) (by simp [lastField]) h.2⟩
  | pass => exact isA_mk (by simp [lastField])
  | «break» => exact isA_mk (by simp [lastField])
  | «continue» => exact isA_mk (by simp [lastField])
  | log e => exact ⟨isA_mk (by simp [lastField]), shows_field (by decide) (by simp [lastField]) h⟩
  | import_ p a =>
    exact ⟨isA_mk (by simp [lastField]), by rw [nodeSimple, str_mk (by decide) tokens_name]; simp [lastField, Json.asStr],
      by rw [nodeSimple, str_mk (by decide) tokens_alias]; simp [lastField, asStr_textNode]⟩
  | from_ level p n a => exact shows_from (by rcases h.1 with h | h <;> omega)

theorem shows_note (t : String) : ShowsNote t (nodeNote t) :=
  ⟨isA_mk (by simp [lastField]), by rw [nodeNote, field_mk (by decide)]; simp [lastField]⟩

mutual
theorem shows_stmt : (s : Stmt) → s.Ok → ShowsStmt s (nodeStmt s)
  | .simple s, h => by
    simp only [Stmt.Ok] at h
    simp only [ShowsStmt, nodeStmt]
    exact shows_simple s h
  | .for_ x ty it body, h => by
    simp only [Stmt.Ok] at h
    simp only [ShowsStmt, nodeStmt]
    have hx : Fine (.leaf x) := ⟨by simp only [Plain]; exact isName_leaf h.1, rfl⟩
    refine ⟨isA_mk (by simp [lastField]), shows_field (by decide) (by simp [lastField]) h.2.2.1, ⟨nodeLoop x ty, by
      rw [field_mk (by decide)]; simp [lastField], ?_⟩, _, by rw [field_mk (by decide)]; simp [lastField],
      shows_stmts body h.2.2.2.1⟩
    cases ty with
    | none => exact shows_fine hx
    | some ty =>
      exact ⟨isA_mk (by simp [lastField]), shows_field (by decide) (by simp [lastField]) hx,
        shows_field (by decide) (by simp [lastField]) (h.2.1 ty rfl).1,
        .inr (by rw [nodeLoop, field_mk (by decide)]; simp [lastField])⟩
  | .if_ c body els, h => by
    simp only [Stmt.Ok] at h
    simp only [ShowsStmt, nodeStmt]
    exact ⟨isA_mk (by simp [lastField]), shows_field (by decide) (by simp [lastField]) h.1,
      ⟨_, by rw [field_mk (by decide)]; simp [lastField], shows_stmts body h.2.1⟩,
      _, by rw [field_mk (by decide)]; simp [lastField], shows_stmts els h.2.2.2.1⟩
  | .comment t, h => by
    simp only [ShowsStmt, nodeStmt]
    exact shows_note t
  | .quote s, h => by
    simp only [Stmt.Ok] at h
    simp only [ShowsStmt, nodeStmt]
    exact ⟨isA_mk (by simp [lastField]), _, by rw [field_mk (by decide)]; simp [lastField], shows_stmt s h.1⟩
theorem shows_stmts : (ss : List Stmt) → OkAll ss → ShowStmts ss (nodeStmts ss)
  | [], _ => by simp [ShowStmts, nodeStmts]
  | s :: ss, h => by
    simp only [OkAll] at h
    simp only [ShowStmts, nodeStmts]
    exact ⟨shows_stmt s h.1, shows_stmts ss h.2⟩
end

theorem shows_param {p : Param} (h : p.Ok) : ShowsParam p (nodeParam p) :=
  ⟨isA_mk (by simp [lastField]), by rw [nodeParam, str_mk (by decide) tokens_arg]; simp [lastField, Json.asStr],
    shows_field (by decide) (by simp [lastField]) h.2.1⟩

/-- Nodes for parameters with default values. -/
def defaultNodes (ps : List Param) : List (Json × Json) := ps.map fun p => (nodeParam p, optionNode p.value)

theorem shows_defaults : (ps : List Param) → (∀ p ∈ ps, p.Ok) → ps.all (·.value.isSome) = true →
    ShowDefaults ps (defaultNodes ps) ∧ (defaultNodes ps).map (·.1) = ps.map nodeParam ∧
      (defaultNodes ps).map (·.2) = ps.filterMap fun p => p.value.map node
  | [], _, _ => ⟨trivial, rfl, rfl⟩
  | p :: ps, h, ha => by
    simp only [List.all_cons, Bool.and_eq_true] at ha
    obtain ⟨h1, h2, h3⟩ := shows_defaults ps (fun q hq => h q (by simp [hq])) ha.2
    obtain ⟨e, he⟩ := Option.isSome_iff_exists.mp ha.1
    have hp := h p (by simp)
    refine ⟨⟨shows_param hp, ⟨e, he, ?_⟩, h1⟩, ?_, ?_⟩
    · simp only [he, optionNode]; exact shows_fine (hp.2.2 e he)
    · rw [List.map_cons, ← h2]; rfl
    · rw [List.filterMap_cons, he, Option.map_some, ← h3]
      simp only [defaultNodes, List.map_cons, he, optionNode]

theorem shows_params : (ps : List Param) → (∀ p ∈ ps, p.Ok) → ordered ps = true → ShowParams ps (nodeParams ps) := by
  have key : (ps : List Param) → (∀ p ∈ ps, p.Ok) → ordered ps = true → ∃ qs rs as ds, ps = qs ++ rs ∧ ShowPlain qs as ∧
      ShowDefaults rs ds ∧ ps.map nodeParam = as ++ ds.map (·.1) ∧
      (ps.filterMap fun p => p.value.map node) = ds.map (·.2) := by
    intro ps
    induction ps with
    | nil => intro _ _; exact ⟨[], [], [], [], rfl, trivial, trivial, rfl, rfl⟩
    | cons p ps ih =>
      intro h ho
      by_cases hp : p.value.isSome = true
      · simp only [ordered, hp, if_true] at ho
        obtain ⟨h1, h2, h3⟩ := shows_defaults (p :: ps) h (by simp only [List.all_cons, hp, ho, Bool.and_self])
        exact ⟨[], p :: ps, [], defaultNodes (p :: ps), rfl, trivial, h1, by rw [← h2]; rfl, by rw [← h3]⟩
      · simp only [ordered, hp] at ho
        obtain ⟨qs, rs, as, ds, h1, h2, h3, h4, h5⟩ := ih (fun q hq => h q (by simp [hq])) ho
        have hn : p.value = none := by simpa using hp
        refine ⟨p :: qs, rs, nodeParam p :: as, ds, by rw [h1]; rfl, ⟨shows_param (h p (by simp)), hn, h2⟩, h3,
          by rw [List.map_cons, h4]; rfl, ?_⟩
        rw [List.filterMap_cons, hn]
        exact h5
  intro ps h ho
  obtain ⟨qs, rs, as, ds, h1, h2, h3, h4, h5⟩ := key ps h ho
  exact ⟨isA_mk (by simp [lastField]), qs, rs, as, ds, h1, h2, h3,
    by rw [nodeParams, field_mk (by decide), h4]; simp [lastField],
    by rw [nodeParams, field_mk (by decide), h5]; simp [lastField]⟩

theorem shows_sig {ds : List Expr} {g : Sig} {doc : Option String} {body : List Json} (h : g.Ok)
    (ho : ordered g.params = true) : ShowsSig g (nodeFunction ds g doc body) := by
  refine ⟨isA_mk (by simp [lastField]), by rw [nodeFunction, str_mk (by decide) tokens_name]; simp [lastField, Json.asStr],
    ⟨nodeParams g.params, by rw [nodeFunction, field_mk (by decide)]; simp [lastField], shows_params _ h.2.1 ho⟩, ?_⟩
  by_cases hr : g.results = []
  · exact .inl ⟨hr, .inr (by rw [nodeFunction, field_mk (by decide)]; simp [lastField, hr])⟩
  · exact .inr (shows_rowField (by decide) (by simp [lastField, hr]) hr h.2.2.1)

theorem shows_doc {t : String} {fs : List (String × Json)} {doc : Option String}
    (hf : lastField "doc_string" fs none = some (nodeDoc doc)) : ShowDoc doc (VyNode.mk t fs) := by
  cases doc with
  | none => exact .inr (by rw [field_mk (by decide), hf]; rfl)
  | some t =>
    exact ⟨nodeDoc (some t), by rw [field_mk (by decide), hf], isA_mk (by simp [lastField]),
      by rw [nodeDoc, str_mk (by decide) tokens_value]; simp [lastField, Json.asStr]⟩

theorem shows_simples : (ss : List Simple) → (∀ s ∈ ss, s.Ok) → ShowSimples ss (ss.map nodeSimple)
  | [], _ => trivial
  | s :: ss, h => ⟨shows_simple s (h s (by simp)), shows_simples ss (fun x hx => h x (by simp [hx]))⟩

theorem shows_functions : (fs : List (Sig × String)) → (∀ f ∈ fs, f.1.Ok ∧ isName f.2 = true) →
    (fs.all fun f => ordered f.1.params) = true →
    ShowFunctions fs (fs.map fun f => nodeFunction [] f.1 none [VyNode.mk "Expr" [("value", node (.leaf f.2))]])
  | [], _, _ => trivial
  | (g, m) :: fs, h, ho => by
    simp only [List.all_cons, Bool.and_eq_true] at ho
    have hg := h (g, m) (by simp)
    rw [List.map_cons]
    refine ⟨⟨shows_sig hg.1 ho.1, by rw [nodeFunction, field_mk (by decide)]; simp [lastField, nodes],
      shows_doc (by simp [lastField]), VyNode.mk "Expr" [("value", node (.leaf m))], by rw [nodeFunction, field_mk (by decide)]; simp [lastField],
      isA_mk (by simp [lastField]), shows_field (by decide) (by simp [lastField]) ⟨?_, rfl⟩⟩,
      shows_functions fs (fun x hx => h x (by simp [hx])) ho.2⟩
    simp only [Plain]
    exact isName_leaf hg.2

theorem shows_decl (x : Decl) (h : x.Ok) (ho : orderedDecl x = true) : ShowsDecl x (nodeDecl x) := by
  induction x with
  | simple s => exact shows_simple s h.1
  | block k n fs =>
    exact ⟨isA_mk (by simp [lastField]), by rw [nodeDecl, str_mk (by decide) tokens_name]; simp [lastField, Json.asStr],
      _, by rw [nodeDecl, field_mk (by decide)]; simp [lastField], shows_simples fs h.2.2.2.1⟩
  | interface n fs =>
    exact ⟨isA_mk (by simp [lastField]), by rw [nodeDecl, str_mk (by decide) tokens_name]; simp [lastField, Json.asStr],
      _, by rw [nodeDecl, field_mk (by decide)]; simp [lastField], shows_functions fs h.2.2.1 ho⟩
  | fn ds g doc body =>
    exact ⟨shows_sig h.2.1 ho, ⟨_, by rw [nodeDecl, nodeFunction, field_mk (by decide)]; simp [lastField],
      shows_fines ds h.1⟩, shows_doc (by simp [lastField]),
      _, by rw [nodeDecl, nodeFunction, field_mk (by decide)]; simp [lastField], shows_stmts body h.2.2.2.1⟩
  | comment t => exact shows_note t
  | quote d ih =>
    exact ⟨isA_mk (by simp [lastField]), _, by rw [nodeDecl, field_mk (by decide)]; simp [lastField], ih h.1 ho⟩

theorem shows_decls : (xs : List Decl) → (∀ x ∈ xs, x.Ok) → xs.all orderedDecl = true → ShowDecls xs (xs.map nodeDecl)
  | [], _, _ => trivial
  | x :: xs, h, ho => by
    simp only [List.all_cons, Bool.and_eq_true] at ho
    exact ⟨shows_decl x (h x (by simp)) ho.1, shows_decls xs (fun y hy => h y (by simp [hy])) ho.2⟩

/-- There is an AST for each program. -/
theorem shows_program {p : Program} (h : p.Ok) (ho : p.decls.all orderedDecl = true) : ShowsProgram p (nodeProgram p) :=
  ⟨isA_mk (by simp [lastField]), shows_doc (by simp [lastField]), _,
    by rw [nodeProgram, field_mk (by decide)]; simp [lastField], shows_decls p.decls h.2 ho⟩

/-! ### The theorems -/

/-- **C74 (the text).** A program is printed just as the style of the language lays it out: each declaration on its own
lines with an empty line around functions, four blanks for each level, each expression in the grammar's form. -/
theorem C74_text {env : PrintEnv} {p : Program} {j : Json} (h : ShowsProgram p j) (hp : p.Ok) (hd : p.Shallow) :
    printText env j = .ok (textProgram p) :=
  printText_program h hp hd

/-- **C74 (read back).** What is printed for a program is read as this program, apart from comments and documentation.
Missing: imports of the kind `from .a import b`, where the dots are lost; the word `transient` of variables, which is
lost; lines of more than 149 bytes; more than 36 levels; documentation with quotation marks or backslashes; loop
variables and results whose type is not a primary expression; statements of the newer compilers whose nodes have no
printer. -/
theorem C74_read_back_partial {env : PrintEnv} {p : Program} {j : Json} (h : ShowsProgram p j) (hp : p.Ok)
    (hd : p.Shallow) : ∃ text, printText env j = .ok text ∧ readProgram text = some p.bare :=
  ⟨_, printText_program h hp hd, program_read hp hd⟩

theorem pieces_leaf (pf : Json → Layout PrintSettings) {t : String} (h : pf (.str t) = { visitChildren := true }) :
    NodePrinter.pieces pf (.str t) = [] := by
  rw [NodePrinter.pieces_eq, h]
  simp [NodePrinter.around, Json.children]

/-- **C74 (a file).** What the compiler writes for a file is printed as the module in it. -/
theorem C74_file (env : PrintEnv) (name : String) (j : Json) : printText env (fileTree name j) = printText env j := by
  have h : printOps env {} (fileTree name j) = printOps env {} j := by
    unfold printOps
    have hl : ∀ n : Json, n.getStrForKey "ast_type" = none → layout env {} n = { visitChildren := true } := by
      intro n hn
      simp only [layout, hn]
    rw [NodePrinter.ops_eq (good_layout env), NodePrinter.ops_eq (good_layout env), NodePrinter.pieces_eq,
      hl (fileTree name j) rfl]
    simp only [NodePrinter.around, fileTree, Json.children, List.map_cons, List.map_nil, List.flatMap_cons, List.flatMap_nil,
      pieces_leaf _ (hl (.str name) rfl), List.append_nil, List.nil_append, if_true]
  unfold printText
  rw [h]

/-- **C74 (different texts).** Programs that differ in more than comments and documentation are printed differently:
no mutation is lost in the printed file. -/
theorem C74_different_partial {env : PrintEnv} {p q : Program} {j k : Json} (hj : ShowsProgram p j)
    (hk : ShowsProgram q k) (hp : p.Ok) (hq : q.Ok) (hdp : p.Shallow) (hdq : q.Shallow) (hne : p.bare ≠ q.bare) :
    printText env j ≠ printText env k := by
  rw [printText_program hj hp hdp, printText_program hk hq hdq]
  intro h
  have h2 : textProgram p = textProgram q := by injection h
  have h3 := program_read hp hdp
  rw [h2, program_read hq hdq] at h3
  exact hne (Option.some.inj h3).symm

/-! ### A concrete program -/

/-- A program with most kinds of declarations and statements. -/
def sampleProgram : Program where
  doc := some "A sample"
  decls := [
    .simple (.import_ ["a", "b"] (some "c")),
    .simple (.from_ 1 [] "d" none),
    .comment "a remark",
    .quote (.fn [.leaf "internal"] ⟨"h", [], []⟩ none [.simple .pass]),
    .block "struct" "S" [.ann (.leaf "x") (.leaf "uint256") none],
    .block "event" "E" [.ann (.leaf "who") (.call (.leaf "indexed") [.leaf "address"]) none],
    .interface "I" [(⟨"f", [⟨"a", .leaf "uint256", none⟩, ⟨"b", .leaf "bool", some (.leaf "True")⟩], [.leaf "bool"]⟩, "view")],
    .simple (.ann (.leaf "total") (.call (.leaf "public") [.leaf "uint256"]) none),
    .fn [.leaf "external", .call (.leaf "nonreentrant") [.str "lock"]]
      ⟨"g", [⟨"n", .leaf "uint256", none⟩], [.leaf "uint256", .leaf "bool"]⟩ (some "@notice\n    text")
      [.comment "what follows",
       .quote (.simple (.aug (.attr (.leaf "self") "total") .sub (.leaf "1"))),
       .quote (.if_ (.leaf "b") [.simple .pass] [.simple .continue]),
       .for_ "i" (some (.leaf "uint256")) (.call (.leaf "range") [.leaf "10"])
         [.simple (.aug (.attr (.leaf "self") "total") .add (.leaf "i")),
          .if_ (.bin (.leaf "i") .gt (.leaf "n")) [.simple .break] [.simple .continue]],
       .simple (.assert (.bin (.leaf "n") .lt (.leaf "9")) (some (.str "too large"))),
       .simple (.log (.call (.leaf "E") [.attr (.leaf "msg") "sender"])),
       .simple (.ret [.attr (.leaf "self") "total", .leaf "True"])]]

theorem sample_ok : sampleProgram.Ok := by
  refine ⟨?_, ?_⟩
  · intro t ht
    simp only [sampleProgram, Option.some.injEq] at ht
    subst ht
    refine ⟨by decide +kernel, fun _ => by decide +kernel⟩
  · intro x hx
    simp only [sampleProgram, List.mem_cons, List.not_mem_nil, or_false] at hx
    rcases hx with rfl | rfl | rfl | rfl | rfl | rfl | rfl | rfl | rfl
    all_goals
      simp only [Decl.Ok, Simple.Ok, Stmt.Ok, OkAll, Sig.Ok, Param.Ok, Names, FineAll, FineOption, Fine, Plain, PlainAll,
        List.mem_cons, List.not_mem_nil, or_false, forall_eq_or_imp, forall_eq, Option.some.injEq, forall_eq', reduceCtorEq,
        false_imp_iff, implies_true, Option.toList]
    all_goals repeat' apply And.intro
    all_goals first
      | decide +kernel
      | simp; done
      | (simp; decide +kernel)
      | simp [bareAll, bare]

theorem sample_shallow : sampleProgram.Shallow := by
  unfold Program.Shallow
  decide +kernel

/-- It meets the hypotheses, and this is how it is printed. -/
example : ShowsProgram sampleProgram (nodeProgram sampleProgram) ∧ sampleProgram.Ok ∧ sampleProgram.Shallow :=
  ⟨shows_program sample_ok (by decide +kernel), sample_ok, sample_shallow⟩

/-! ### Counterexamples -/

/-- A program of one import. -/
def importing (level : Nat) : Program := ⟨none, [.simple (.from_ level ["a"] "b" none)]⟩

theorem shows_importing {level : Nat} (h : level ≤ 1) : ShowsProgram (importing level) (nodeProgram (importing level)) :=
  ⟨isA_mk (by simp [lastField]), shows_doc (by simp [lastField]), [nodeDecl (.simple (.from_ level ["a"] "b" none))],
    by rw [nodeProgram, field_mk (by decide)]; simp [lastField, importing], shows_from h, trivial⟩

/-- **C74: counterexample.** `from .a import b`, which is relative to the package, is printed as `from a import b`, which
is not. -/
theorem C74_relative_import_counterexample : ∃ p q j k text, ShowsProgram p j ∧ ShowsProgram q k ∧ p.bare ≠ q.bare ∧
    printText ⟨true, fun _ => ""⟩ j = .ok text ∧ printText ⟨true, fun _ => ""⟩ k = .ok text :=
  ⟨importing 1, importing 0, nodeProgram (importing 1), nodeProgram (importing 0), "from a import b\n\n".toList,
    shows_importing (by decide), shows_importing (by decide), by simp [importing, Program.bare, Decl.bare],
    by decide +kernel, by decide +kernel⟩

/-- A variable of the contract, with the flag that says it is transient. -/
def variableModule (transient : Bool) : Json := VyNode.mk "Module" [("doc_string", .null), ("body", .arr [
  VyNode.mk "VariableDecl" [("target", VyNode.name "x"), ("annotation", VyNode.name "uint256"), ("value", .null),
    ("is_public", .bool false), ("is_constant", .bool false), ("is_immutable", .bool false),
    ("is_transient", .bool transient)]])]

/-- **C74: counterexample.** `x: transient(uint256)` is printed as `x: uint256`, which is a variable that is stored. -/
theorem C74_transient_counterexample : ∃ text, printText ⟨true, fun _ => ""⟩ (variableModule true) = .ok text ∧
    printText ⟨true, fun _ => ""⟩ (variableModule false) = .ok text :=
  ⟨"x: uint256\n\n".toList, by decide +kernel, by decide +kernel⟩

end VyPrint
end Mutagenyx
