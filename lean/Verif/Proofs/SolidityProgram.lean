import Verif.Proofs.SolidityExpr
import Verif.Proofs.Yul
import Verif.Proofs.SolidityComment
import Verif.Spec.SolidityProgram
import Verif.Proofs.Json

/-!
# The text printed for Solidity statements and declarations consists of their tokens
-/

namespace Mutagenyx
namespace SolPrint

open NodePrinter SolGrammar Printer Lex

variable {m : Mode}

/-! ### Types -/

theorem p_type {s : PrintSettings} : (t : Ty) → (j : Json) → ShowsTy t j → t.Plain → Prints m s j t.toks .name
  | .elem t, j, h, hp => by
    simp only [ShowsTy, IsA] at h
    obtain ⟨h, h1, h2⟩ := h
    refine prints_of (body := elementaryType j) (by simp [layout, h]) ?_
    exact (c_strTok h1 hp +++ c_when (q := .name) (p := .name) ((c_sp +++ c_name (t := "payable") (by decide)).mono)).cast
      (by simp [Ty.toks, h2])
  | .addressPayable, j, h, _ => by
    simp only [ShowsTy, IsA] at h
    obtain ⟨h, h1, h2⟩ := h
    refine prints_of (body := elementaryType j) (by simp [layout, h]) ?_
    exact (c_strTok h1 (by decide) +++ c_when (q := .name) (p := .name) ((c_sp +++ c_name (t := "payable") (by decide)).mono)).cast
      (by simp [Ty.toks, h2])
  | .user t, j, h, hp => by
    simp only [ShowsTy, IsA] at h
    simp only [Ty.Plain] at hp
    obtain ⟨h, h1⟩ := h
    refine prints_of (body := userType j) (by simp [layout, h]) ?_
    rcases h1 with ⟨v, h1, h2⟩ | ⟨h1, h2⟩
    · simp only [userType, h1]
      exact c_onStr h2.2 (c_path hp.1 hp.2)
    · simp only [userType, h1]
      exact c_onStr h2 (c_path hp.1 hp.2)
  | .mapping k v, j, h, hp => by
    simp only [ShowsTy, IsA] at h
    obtain ⟨h, ⟨x, h1, h2⟩, y, h3, h4⟩ := h
    refine prints_of (body := mapping s j) (by simp [layout, h]) ?_
    have := c_name (m := m) (t := "mapping") (by decide) +++ c_open +++ c_field (s := s) h1 (p_type k x h2 hp.1) +++
      c_between (t := "=>") (by decide) +++ c_field (s := s) h3 (p_type v y h4 hp.2) +++ c_close
    simpa [mapping, Ty.toks] using this.mono (q' := .name)
  | .array b, j, h, hp => by
    simp only [ShowsTy, IsA] at h
    obtain ⟨h, ⟨x, h1, h2⟩, h3⟩ := h
    refine prints_of (body := field s "baseType" j ++ tok "[" ++ field s "length" j ++ tok "]") (by simp [layout, h]) ?_
    have := c_field (s := s) h1 (p_type b x h2 hp) +++ c_openB +++ c_noField (m := m) (f := fun n => [.sub s n]) (q := .any) (p := .any) h3 +++ c_closeB
    simpa [Ty.toks, field] using this.mono (q' := .name)
  | .fixed b n, j, h, hp => by
    simp only [ShowsTy, IsA] at h
    obtain ⟨h, ⟨x, h1, h2⟩, y, h3, h4⟩ := h
    refine prints_of (body := field s "baseType" j ++ tok "[" ++ field s "length" j ++ tok "]") (by simp [layout, h]) ?_
    have := c_field (s := s) h1 (p_type b x h2 hp.1) +++ c_openB +++ c_field (s := s) h3 (p_expr h4 hp.2) +++ c_closeB
    simpa [Ty.toks] using this.mono (q' := .name)

/-! ### Declarations of variables -/

theorem c_value {s : PrintSettings} {key : String} {j : Json} {o : Option Expr} (h : ShowsOpt key j o) (hp : PlainOpt o) :
    PC m (onField key j fun v => sp ++ tok "=" ++ sp ++ [.sub s v]) (valueToks o) .expr .expr := by
  cases o with
  | none => exact c_noField h
  | some e =>
    obtain ⟨v, h1, h2⟩ := h
    exact c_onField h1 ((c_between (t := "=") (by decide) +++ c_sub (p_expr h2 (hp e rfl))).mono)

theorem c_optStr {key : String} {j : Json} {f : String → Ps} {o : Option String} {good : String → Bool} (hn : NameOpt o)
    (h : (j.getStrForKey key).filter good = o) (hf : ∀ t, f t = when (good t) (sp ++ tok t)) :
    PC m (onStr key j f) o.toList .name .name := by
  unfold onStr
  cases hk : j.getStrForKey key with
  | none =>
    rw [hk] at h
    subst h
    exact c_nil
  | some t =>
    rw [hk] at h
    simp only [onSome, hf]
    cases hg : good t with
    | false =>
      simp only [Option.filter, hg, Bool.false_eq_true, if_false] at h
      subst h
      exact c_nil
    | true =>
      simp only [Option.filter, hg, if_true] at h
      subst h
      exact (c_sp +++ c_name (hn t rfl)).mono

theorem c_flagIff {b c : Bool} {t : String} (h : b = true ↔ c = true) (ht : isName t = true) :
    PC m (when b (sp ++ tok t)) (flag c t) .name .name := by
  have : b = c := by cases b <;> cases c <;> simp_all
  subst this
  exact c_flag ht

theorem toList_isEmpty (t : String) : t.toList.isEmpty = decide (t = "") := by
  rw [Bool.eq_iff_iff]
  simp

theorem p_var {s : PrintSettings} {v : Var} {j : Json} {doc : Option String} (h : ShowsVar v j doc) (hp : v.Plain)
    (hd : docPlain m.flows doc) : Prints m s j v.toks .expr := by
  obtain ⟨ty, h1, h2⟩ := h.type
  have h0 := h.isA
  unfold IsA at h0
  refine prints_around (entry := []) (body := (variableDeclaration s j).body) (exit := (variableDeclaration s j).exit)
    (by simp [layout, h0, variableDeclaration]) ?_
  have c1 : PC m (documentation s j) [] .any .any := c_doc h.documentation hd
  have c2 := c_optStr (m := m) (f := fun v => when (decide (v ≠ "internal")) (sp ++ tok v)) hp.visibility h.visibility
    (fun t => by simp)
  have c3 := c_flagIff (m := m) (b := decide (j.getBoolForKey "constant" = some true)) (t := "constant") (by simpa using h.constant) (by decide)
  have c4 := c_flagIff (m := m) (b := decide (j.getBoolForKey "indexed" = some true)) (t := "indexed") (by simpa using h.indexed) (by decide)
  have c5 := c_noField (m := m) (q := .name) (p := .name) (f := fun n => [.sub s n]) h.overrides
  have c6 : PC m (onStr "mutability" j fun t => when (decide (t = "immutable")) (sp ++ tok t)) (flag v.immutable "immutable") .name .name := by
    have hi := h.immutable
    unfold onStr
    cases hk : j.getStrForKey "mutability" with
    | none =>
      rw [hk] at hi
      have : v.immutable = false := by cases hv : v.immutable <;> simp_all
      rw [this]
      exact c_nil
    | some t =>
      rw [hk] at hi
      simp only [onSome]
      by_cases ht : t = "immutable"
      · subst ht
        have : v.immutable = true := by simpa using hi
        rw [this]
        exact (c_sp +++ c_name (by decide)).mono
      · have : v.immutable = false := by cases hv : v.immutable <;> simp_all
        simp only [ht, decide_false, this]
        exact c_nil
  have c7 := c_optStr (m := m) (f := fun l => when (l = "memory" || l = "storage" || l = "calldata") (sp ++ tok l)) hp.location h.location
    (fun t => by simp [Bool.or_assoc])
  have c8 := c_optStr (m := m) (f := fun n => when (!n.toList.isEmpty) (sp ++ tok n)) hp.name h.name
    (fun t => by rw [toList_isEmpty]; simp)
  have c9 := c_value (m := m) (s := s) h.value hp.value
  have := (c1 +++ c_field (s := s) h1 (p_type v.type ty h2 hp.type) +++ c2 +++ c3 +++ c4 +++ c5 +++ c6) +++ (c7 +++ c8 +++ c9)
  exact this.cast (by simp [Var.toks])

/-! ### Statements -/

/-- The tokens of a place in a declaration. -/
def placeToks (v : Option Var) : List String := (v.map Var.toks).getD []

theorem c_nullable {s : PrintSettings} : (vs : List (Option Var)) → (js : List Json) → ShowDecls vs js →
    (∀ v, some v ∈ vs → v.Plain) → PC m (nullableList s js) (sepBy "," (vs.map placeToks)) .expr .any
  | [], [], _, _ => c_nil
  | [], _ :: _, h, _ => by simp [ShowDecls] at h
  | none :: _, [], h, _ => by simp [ShowDecls] at h
  | some _ :: _, [], h, _ => by simp [ShowDecls] at h
  | v :: vs, j :: js, h, hp => by
    have hj : PC m [.sub s j] (placeToks v) .expr .any ∧ ShowDecls vs js := by
      cases v with
      | none =>
        obtain ⟨rfl, h⟩ := h
        exact ⟨c_null, h⟩
      | some v => exact ⟨c_sub (p_var h.1 (hp v (List.mem_cons_self ..)) trivial), h.2⟩
    have ih := c_nullable (s := s) vs js hj.2 fun v hv => hp v (List.mem_cons_of_mem _ hv)
    cases js with
    | nil =>
      cases vs with
      | nil => exact hj.1
      | cons v vs => cases v <;> simp [ShowDecls] at hj
    | cons k js =>
      cases vs with
      | nil => simp [ShowDecls] at hj
      | cons w vs =>
        have hs : PC m (when (decide (k ≠ .null)) sp) [] .any .any := by
          cases decide (k ≠ .null)
          · exact c_nil
          · exact c_sp.mono
        have := hj.1 +++ (c_comma +++ (hs +++ ih))
        exact this.cast (by simp [sepBy])

theorem showDecls_length : (vs : List (Option Var)) → (js : List Json) → ShowDecls vs js → vs.length = js.length
  | [], [], _ => rfl
  | [], _ :: _, h => by simp [ShowDecls] at h
  | none :: _, [], h => by simp [ShowDecls] at h
  | some _ :: _, [], h => by simp [ShowDecls] at h
  | none :: vs, _ :: js, h => by simpa using showDecls_length vs js h.2
  | some _ :: vs, _ :: js, h => by simpa using showDecls_length vs js h.2

theorem c_decls {s : PrintSettings} {vs : List (Option Var)} {js : List Json} (h : ShowDecls vs js) (h0 : vs ≠ []) (h1 : vs ≠ [none])
    (hp : ∀ v, some v ∈ vs → v.Plain) :
    PC m (when (decide (1 < js.length)) (tok "(") ++ nullableList s js ++ when (decide (1 < js.length)) (tok ")"))
      (declToks vs) .expr .any := by
  have hc := c_nullable (m := m) (s := s) vs js h hp
  have hl := showDecls_length vs js h
  by_cases hlt : 1 < js.length
  · simp only [hlt, decide_true, when, if_true]
    have := c_open +++ hc +++ c_close
    refine (this.mono (q' := .expr) (p' := .any)).cast ?_
    match vs, hl with
    | [], hl => exact absurd rfl h0
    | [_], hl => simp only [List.length_cons, List.length_nil] at hl; omega
    | none :: _ :: _, _ => rfl
    | some _ :: _ :: _, _ => rfl
  · simp only [hlt, decide_false, when, Bool.false_eq_true, if_false, List.nil_append, List.append_nil]
    match vs, hl with
    | [], _ => exact absurd rfl h0
    | [none], _ => exact absurd rfl h1
    | [some v], _ => exact hc
    | _ :: _ :: _, hl => simp only [List.length_cons] at hl; omega

/-- A statement in a branch or loop, which is not on the same line unless it is a block. -/
theorem c_indented {j : Json} {ts : List String} (h : Prints m {} j ts .any) :
    PC m (indentedStatement {} j) ts .any .blank := by
  have := c_nl +++ (c_inc +++ (c_ind +++ c_sub h) +++ c_dec)
  exact this.cast (by simp)

theorem isA_stmt : (st : Stmt) → (j : Json) → ShowsStmt st j → ∃ t, j.getStrForKey "nodeType" = some t := by
  intro st j h
  cases st <;> simp only [ShowsStmt, IsA] at h <;> first
    | exact ⟨_, h.1⟩
    | exact ⟨_, h⟩

theorem c_subAt {s : PrintSettings} {j : Json} {ts : List String} {q p : Edge} (h : Chunk m.flows (printOps m.checks s j) ts q p) :
    PC m [.sub s j] ts q p := by
  unfold PC
  simpa [expand] using h

theorem pairwise_imp {α : Type} {r r' : α → Json → Prop} :
    (as : List α) → (js : List Json) → Pairwise₂ r as js → (∀ a ∈ as, ∀ j, r a j → r' a j) → Pairwise₂ r' as js
  | [], [], _, _ => trivial
  | [], _ :: _, h, _ => h
  | _ :: _, [], h, _ => h
  | _ :: as, _ :: js, h, hf =>
    ⟨hf _ (List.mem_cons_self ..) _ h.1, pairwise_imp as js h.2 fun a ha => hf a (List.mem_cons_of_mem _ ha)⟩

theorem pairwise_vars : (vs : List Var) → (js : List Json) → ShowVars vs js → Pairwise₂ (fun v j => ShowsVar v j) vs js
  | [], [], _ => trivial
  | [], _ :: _, h => h
  | _ :: _, [], h => h
  | _ :: vs, _ :: js, h => ⟨h.1, pairwise_vars vs js h.2⟩

theorem ch_params {vs : List Var} {j : Json} (h : ShowsParams vs j) (hp : ∀ v ∈ vs, v.Plain) :
    Chunk m.flows (printOps m.checks {} j) (paramsToks vs) .any .name := by
  obtain ⟨h, js, h1, h2⟩ := h
  unfold IsA at h
  rw [printOps_around (entry := tok "(") (body := onArray "parameters" j (array {})) (exit := tok ")")
    (by simp [layout, h, parameterList])]
  have c1 : PC m (array {} js) (sepBy "," (vs.map Var.toks)) .expr .any :=
    c_array (pairwise_map vs js (pairwise_vars vs js h2) fun v hv j hj => p_var hj (hp v hv) trivial)
  exact c_open +++ (c_onArray h1 c1 +++ c_close)

theorem isObj_of_isA {t : String} {j : Json} (h : IsA t j) : ∃ kvs, j = .obj kvs := by
  cases j with
  | obj kvs => exact ⟨kvs, rfl⟩
  | arr xs =>
    have h0 : Json.parseIndex "nodeType" = none := by decide
    simp [IsA, Json.getStrForKey, Json.get?_plain (show Json.PlainKey "nodeType" by decide), Json.step, h0] at h
  | _ => simp [IsA, Json.getStrForKey, Json.get?_plain (show Json.PlainKey "nodeType" by decide), Json.step] at h

theorem field_of_getArray {t k : String} (hk : Json.PlainKey k) {j : Json} {xs : List Json} (h : IsA t j) :
    j.getArrayForKey k = some xs ↔ Json.field? k j = some (.arr xs) := by
  obtain ⟨kvs, rfl⟩ := isObj_of_isA h
  unfold Json.getArrayForKey
  rw [Json.get?_obj hk]
  show (Json.objGet k kvs).bind Json.asArray = _ ↔ Json.objGet k kvs = _
  cases hv : Json.objGet k kvs with
  | none => simp
  | some v => cases v <;> simp [Json.asArray]

/-- Without the mark, the node stands for the expression. -/
theorem tryCall_shows {e : Expr} {j : Json} (h : ShowsTry e j) :
    IsA "FunctionCall" j ∧ j.getBoolForKey "tryCall" = some true ∧ ∃ j', Shows e j' ∧ IsA "FunctionCall" j' ∧
      j'.getBoolForKey "tryCall" = some false ∧
      ∀ k ∈ ["arguments", "expression", "names"], Json.field? k j = Json.field? k j' ∧ j.getArrayForKey k = j'.getArrayForKey k := by
  have key : ∀ {v : Json} {vs ns : List Json}, IsA "FunctionCall" j → Json.field? "expression" j = some v →
      Json.field? "arguments" j = some (.arr vs) → j.getArrayForKey "names" = some ns → ∃ j', IsA "FunctionCall" j' ∧
      j'.getBoolForKey "tryCall" = some false ∧ Json.field? "expression" j' = some v ∧
      Json.field? "arguments" j' = some (.arr vs) ∧ j'.getArrayForKey "arguments" = some vs ∧ j'.getArrayForKey "names" = some ns ∧
      ∀ k ∈ ["arguments", "expression", "names"],
        Json.field? k j = Json.field? k j' ∧ j.getArrayForKey k = j'.getArrayForKey k := by
    intro v vs ns h h1 h2 h3
    have h4 : IsA "FunctionCall" (.obj [("nodeType", .str "FunctionCall"), ("expression", v), ("arguments", .arr vs),
      ("names", .arr ns), ("tryCall", .bool false)]) := rfl
    refine ⟨_, h4, rfl, rfl, rfl, rfl, rfl, ?_⟩
    have f1 : ∀ k, Json.PlainKey k → ∀ j', IsA "FunctionCall" j' → Json.field? k j = Json.field? k j' →
        Json.field? k j = Json.field? k j' ∧ j.getArrayForKey k = j'.getArrayForKey k := by
      intro k hk j' hj' e
      refine ⟨e, ?_⟩
      obtain ⟨kvs, rfl⟩ := isObj_of_isA h
      obtain ⟨kvs', rfl⟩ := isObj_of_isA hj'
      unfold Json.getArrayForKey
      rw [Json.get?_obj hk, Json.get?_obj hk]
      exact congrArg (·.bind Json.asArray) e
    intro k hk
    simp only [List.mem_cons, List.not_mem_nil, or_false] at hk
    rcases hk with rfl | rfl | rfl
    · exact f1 _ (by decide) _ h4 h2
    · exact f1 _ (by decide) _ h4 h1
    · exact f1 _ (by decide) _ h4 ((field_of_getArray (by decide) h).1 h3)
  cases e with
  | call f args =>
    obtain ⟨h, ⟨v, h1, h2⟩, ⟨vs, h3, h4⟩, h5, h6⟩ := h
    obtain ⟨j', g1, g2, g3, g4, _, g6, g7⟩ := key h h1 h3 h5
    exact ⟨h, h6, j', by simp only [Shows]; exact ⟨g1, ⟨v, g3, h2⟩, ⟨vs, g4, h4⟩, g6, g2⟩, g1, g2, g7⟩
  | named f ns args =>
    obtain ⟨h, ⟨v, h1, h2⟩, ⟨vs, h3, h4⟩, h5, h6⟩ := h
    obtain ⟨j', g1, g2, g3, _, g5, g6, g7⟩ := key h h1 ((field_of_getArray (by decide) h).1 h3) h5
    exact ⟨h, h6, j', by simp only [Shows]; exact ⟨g1, ⟨v, g3, h2⟩, ⟨vs, g5, h4⟩, g6, g2⟩, g1, g2, g7⟩
  | _ => exact h.elim

/-- The call of a `try`, with `returns` behind it. -/
theorem p_try {e : Expr} {j : Json} (h : ShowsTry e j) (hp : Legible e) : Prints m {} j (strE e ++ ["returns"]) .name := by
  obtain ⟨h, h1, j', h2, h3, h4, h5⟩ := tryCall_shows h
  unfold IsA at h h3
  have hl : ∀ x, x.getStrForKey "nodeType" = some "FunctionCall" → layout {} x =
      { entry := (functionCall {} x).entry, body := (functionCall {} x).body, exit := (functionCall {} x).exit } := by
    intro x hx
    simp [layout, hx, functionCall]
  have he := (h5 "expression" (by decide)).1
  have hn := (h5 "names" (by decide)).2
  have ha := (h5 "arguments" (by decide)).2
  have ha' := (h5 "arguments" (by decide)).1
  have hentry : (functionCall {} j).entry = (functionCall {} j').entry := by simp only [functionCall, onField, he]
  have hbody : (functionCall {} j).body = (functionCall {} j').body := by
    simp only [functionCall, hn, ha, arguments, onArray, onField, ha']
  have hexit : (functionCall {} j).exit = (functionCall {} j').exit ++ (sp ++ tok "returns") := by
    simp [functionCall, h1, h4, when]
  have := p_expr (m := m) (s := {}) h2 hp
  unfold Prints at this ⊢
  rw [printOps_around (hl j' h3)] at this
  rw [printOps_around (hl j h), hentry, hbody, hexit]
  have h6 : PC m (((functionCall {} j').entry ++ ((functionCall {} j').body ++ (functionCall {} j').exit)) ++ (sp ++ tok "returns"))
      (strE e ++ ["returns"]) .name .any := PC.append this (c_sp +++ c_name (t := "returns") (by decide))
  unfold PC at h6
  simpa using h6

/-- A block of statements. -/
theorem p_block {j : Json} {js : List Json} {tss : List (List String)} (h0 : IsA "Block" j)
    (hj : Json.field? "statements" j = some (.arr js)) (h : Pairwise₂ (fun ts x => Row m {} x ts) tss js) :
    Prints m {} j ("{" :: (tss.flatten ++ ["}"])) .any := by
  unfold IsA at h0
  refine prints_around (entry := tok "{") (body := statements {} j) (exit := tok "}") (by simp [layout, h0, block, when]) ?_
  exact ((c_brace +++ (c_rows hj h +++ c_unbrace)).mono (p' := .any)).cast (by simp)

/-- A clause of a `try`. -/
theorem p_clause {j b : Json} {n : Option String} {ps : Option (List Var)} {js : List Json} {tss : List (List String)}
    (h : IsA "TryCatchClause" j) (h1 : (j.getStrForKey "errorName").filter (· ≠ "") = n)
    (h2 : match ps with
      | none => Json.field? "parameters" j = none
      | some vs => ∃ v, Json.field? "parameters" j = some v ∧ ShowsParams vs v)
    (h3 : Json.field? "block" j = some b) (h4 : IsA "Block" b) (h5 : Json.field? "statements" b = some (.arr js))
    (h6 : Pairwise₂ (fun ts x => Row m {} x ts) tss js) (hn : NameOpt n) (hp : ∀ vs, ps = some vs → ∀ v ∈ vs, v.Plain) :
    Prints m {} j (n.toList ++ (clauseParams ps ++ "{" :: (tss.flatten ++ ["}"]))) .any := by
  have hb := p_block h4 h5 h6
  unfold IsA at h
  refine prints_of (body := tryCatchClause {} j) (by simp [layout, h]) ?_
  have c2 : PC m ((onField "parameters" j fun p => [.sub ({} : PrintSettings) p] ++ sp) ++ field ({} : PrintSettings) "block" j)
      (clauseParams ps ++ "{" :: (tss.flatten ++ ["}"])) .any .name := by
    cases ps with
    | none =>
      have c3 : PC m (field {} "block" j) ("{" :: (tss.flatten ++ ["}"])) .any .name := by
        refine c_onField h3 (c_subAt ?_)
        unfold IsA at h4
        rw [printOps_around (entry := tok "{") (body := statements {} b) (exit := tok "}") (by simp [layout, h4, block, when])]
        exact (c_brace +++ (c_rows h5 h6 +++ c_unbrace)).cast (by simp)
      exact (c_noField (q := .name) (p := .name) h2 +++ c3)
    | some vs =>
      obtain ⟨v, h2, h7⟩ := h2
      have c3 := c_onField (m := m) (f := fun p => [.sub ({} : PrintSettings) p] ++ sp) h2 (c_subAt (ch_params h7 (hp vs rfl)) +++ c_sp)
      exact (c3 +++ c_field h3 hb).cast (by simp [clauseParams])
  have c1 : PC m (onStr "errorName" j fun e => when (!e.toList.isEmpty) (tok e)) n.toList .name .any := by
    unfold onStr
    cases hk : j.getStrForKey "errorName" with
    | none =>
      rw [hk] at h1
      subst h1
      exact c_nil
    | some t =>
      rw [hk] at h1
      simp only [onSome, toList_isEmpty]
      by_cases ht : t = ""
      · subst ht
        subst h1
        exact c_nil
      · simp only [Option.filter, ne_eq, ht, not_false_eq_true, decide_true, if_true] at h1
        subst h1
        simp only [ht, decide_false, Bool.not_false, when, if_true]
        exact c_name (hn t rfl)
  exact (by simpa [tryCatchClause] using c1 +++ c2)

/-- The clauses of a `try` behind the first. -/
theorem c_clauses : (js : List Json) → (tss : List (List String)) → (i : Nat) → 1 ≤ i →
    Pairwise₂ (fun ts x => Prints m {} x ts .any) tss js →
    PC m (clauseLoop {} i js) (tss.map ("catch" :: ·)).flatten .any .any
  | [], [], _, _, _ => c_nil
  | [], _ :: _, _, _, h => by simp [Pairwise₂] at h
  | _ :: _, [], _, _, h => by simp [Pairwise₂] at h
  | j :: js, ts :: tss, i, hi, h => by
    simp only [Pairwise₂] at h
    have ih := c_clauses js tss (i + 1) (by omega) h.2
    have := (c_name (m := m) (t := "catch") (by decide) +++ c_sp) +++ (c_sub h.1 +++ (c_sp +++ ih))
    refine PC.cast (ts := _) (by simpa [clauseLoop, hi, when] using this) (by simp)

theorem catchToks_flatten : (ss : List Stmt) → catchToks ss = ((ss.map Stmt.toks).map ("catch" :: ·)).flatten
  | [] => by simp [catchToks]
  | s :: ss => by simp [catchToks, catchToks_flatten ss]

theorem stmtsToks_flatten : (ss : List Stmt) → stmtsToks ss = (ss.map Stmt.toks).flatten
  | [] => by simp [stmtsToks]
  | s :: ss => by simp [stmtsToks, stmtsToks_flatten ss]

theorem stmtsPlain_cons {flows : Bool} {st : Stmt} {ss : List Stmt} (h : stmtsPlain flows (st :: ss)) :
    ((∃ t, st = .comment t) ∧ flows = true ∨ st.Plain flows) ∧ stmtsPlain flows ss := by
  cases st <;> simp only [stmtsPlain] at h
  case comment t => exact ⟨.inl ⟨⟨t, rfl⟩, h.1⟩, h.2⟩
  all_goals exact ⟨.inr h.1, h.2⟩

mutual
theorem p_stmt (m : Mode) : (st : Stmt) → (j : Json) → ShowsStmt st j → st.Plain m.flows → Prints m {} j st.toks .any
  | .expr e, j, h, hp => by
    simp only [ShowsStmt, IsA] at h
    obtain ⟨h, v, h1, h2⟩ := h
    refine prints_around (entry := []) (body := field {} "expression" j) (exit := tok ";") (by simp [layout, h, when]) ?_
    exact (c_nil (q := .any) (p := .any) +++
      (c_field (s := {}) h1 (p_expr h2 (by simpa [Stmt.Plain] using hp)) +++ c_semi)).cast (by simp [Stmt.toks])
  | .decl vs value, j, h, hp => by
    simp only [ShowsStmt, IsA] at h
    simp only [Stmt.Plain] at hp
    obtain ⟨h, ⟨js, h1, h2⟩, h3⟩ := h
    refine prints_of (body := variableDeclarationStatement {} j) (by simp [layout, h]) ?_
    have c1 := c_onArray (f := fun xs => when (decide (1 < xs.length)) (tok "(") ++ nullableList {} xs ++
      when (decide (1 < xs.length)) (tok ")")) h1 (c_decls (m := m) (s := {}) h2 hp.1 hp.2.1 hp.2.2.1)
    exact (c1 +++ c_value h3 hp.2.2.2 +++ c_semi).cast (by simp [Stmt.toks])
  | .block ss, j, h, hp => by
    simp only [ShowsStmt, IsA] at h
    obtain ⟨h, js, h1, h2⟩ := h
    rw [Stmt.toks, stmtsToks_flatten]
    exact p_block h h1 (p_stmts m ss js h2 (by simpa [Stmt.Plain] using hp))
  | .unchecked ss, j, h, hp => by
    simp only [ShowsStmt, IsA] at h
    obtain ⟨h, js, h1, h2⟩ := h
    refine prints_around (entry := tok "unchecked" ++ sp ++ tok "{") (body := statements {} j) (exit := tok "}")
      (by simp [layout, h, block, when]) ?_
    have c1 := c_rows h1 (p_stmts m ss js h2 (by simpa [Stmt.Plain] using hp))
    exact ((c_name (by decide) +++ c_sp +++ c_brace) +++ (c1 +++ c_unbrace)).cast (by simp [Stmt.toks, stmtsToks_flatten])
  | .if_ c t, j, h, hp => by
    simp only [ShowsStmt, IsA] at h
    simp only [Stmt.Plain] at hp
    obtain ⟨h, ⟨x, h1, h2⟩, ⟨y, h3, h4⟩, h5⟩ := h
    obtain ⟨ty, hty⟩ := isA_stmt t y h4
    have ht := p_stmt m t y h4 hp.2
    refine prints_of (body := ifStatement {} j) (by simp [layout, h]) ?_
    have c1 : PC m (onField "trueBody" j fun b => onStr "nodeType" b fun t =>
        if t = "Block" then [.sub {} b] else indentedStatement {} b) t.toks .any .any := by
      refine c_onField h3 (c_onStr hty ?_)
      split
      · exact c_sub ht
      · exact (c_indented ht).mono
    have := c_name (m := m) (t := "if") (by decide) +++ c_open +++ c_field (s := {}) h1 (p_expr h2 hp.1) +++ c_close +++ c_sp +++ c1 +++
      c_noField (q := .any) (p := .any) (f := fun b => onStr "nodeType" b fun t =>
        if t = "Block" then sp ++ tok "else" ++ sp ++ [.sub {} b]
        else nl ++ ind ++ tok "else" ++ indentedStatement {} b) h5
    exact this.cast (by simp [Stmt.toks])
  | .ifElse c t f, j, h, hp => by
    simp only [ShowsStmt, IsA] at h
    simp only [Stmt.Plain] at hp
    obtain ⟨h, ⟨x, h1, h2⟩, ⟨y, h3, h4⟩, z, h5, h6⟩ := h
    obtain ⟨ty, hty⟩ := isA_stmt t y h4
    obtain ⟨tz, htz⟩ := isA_stmt f z h6
    have ht := p_stmt m t y h4 hp.2.1
    have hf := p_stmt m f z h6 hp.2.2
    refine prints_of (body := ifStatement {} j) (by simp [layout, h]) ?_
    have c1 : PC m (onField "trueBody" j fun b => onStr "nodeType" b fun t =>
        if t = "Block" then [.sub {} b] else indentedStatement {} b) t.toks .any .any := by
      refine c_onField h3 (c_onStr hty ?_)
      split
      · exact c_sub ht
      · exact (c_indented ht).mono
    have c2 : PC m (onField "falseBody" j fun b => onStr "nodeType" b fun t =>
        if t = "Block" then sp ++ tok "else" ++ sp ++ [.sub {} b]
        else nl ++ ind ++ tok "else" ++ indentedStatement {} b) ("else" :: f.toks) .any .blank := by
      refine c_onField h5 (c_onStr htz ?_)
      split
      · exact c_sp +++ c_name (by decide) +++ c_sp +++ c_sub hf
      · exact c_nl +++ c_ind +++ c_name (by decide) +++ c_indented hf
    have := c_name (m := m) (t := "if") (by decide) +++ c_open +++ c_field (s := {}) h1 (p_expr h2 hp.1) +++ c_close +++ c_sp +++ c1 +++ c2
    exact this.cast (by simp [Stmt.toks])
  | .while_ c b, j, h, hp => by
    simp only [ShowsStmt, IsA] at h
    simp only [Stmt.Plain] at hp
    obtain ⟨h, ⟨x, h1, h2⟩, y, h3, h4⟩ := h
    refine prints_of (body := whileStatement {} j) (by simp [layout, h]) ?_
    have := c_name (m := m) (t := "while") (by decide) +++ c_sp +++
      c_onField (f := fun c => tok "(" ++ [.sub {} c] ++ tok ")") h1 (c_open +++ c_sub (p_expr h2 hp.1) +++ c_close) +++
      c_onField (f := fun b => sp ++ [.sub {} b]) h3 (c_sp +++ c_sub (p_stmt m b y h4 hp.2))
    exact this.cast (by simp [Stmt.toks])
  | .doWhile b c, j, h, hp => by
    simp only [ShowsStmt, IsA] at h
    simp only [Stmt.Plain] at hp
    obtain ⟨h, ⟨x, h1, h2⟩, y, h3, h4⟩ := h
    refine prints_of (body := doWhileStatement {} j) (by simp [layout, h]) ?_
    have := c_name (m := m) (t := "do") (by decide) +++
      c_onField (f := fun b => sp ++ [.sub {} b]) h3 (c_sp +++ c_sub (p_stmt m b y h4 hp.2)) +++
      c_onField (f := fun c => sp ++ tok "while" ++ sp ++ tok "(" ++ [.sub {} c] ++ tok ")") h1
        (c_sp +++ c_name (by decide) +++ c_sp +++ c_open +++ c_sub (p_expr h2 hp.1) +++ c_close) +++ c_semi
    exact this.cast (by simp [Stmt.toks])
  | .for_ i c st b, j, h, hp => by
    simp only [ShowsStmt, IsA] at h
    simp only [Stmt.Plain] at hp
    obtain ⟨h, ⟨w, h1, h2⟩, ⟨x, h3, h4⟩, h5, z, h9, h10⟩ := h
    obtain ⟨tz, htz⟩ := isA_stmt b z h10
    have hb := p_stmt m b z h10 hp.2.2.2
    have c0 : PC m (onField "loopExpression" j fun l => sp ++ [.sub { semicolon := false } l]) ((st.map strE).getD []) .expr .any := by
      cases st with
      | none => exact c_noField h5
      | some e =>
        obtain ⟨y, h5, h6, y', h7, h8⟩ := h5
        have hst : Prints m { semicolon := false } y (strE e) .expr := by
          refine prints_around (entry := []) (body := field { semicolon := false } "expression" y) (exit := [])
            (by simp [layout, h6, when]) ?_
          simpa using c_field (s := { semicolon := false }) h7 (p_expr h8 (hp.2.2.1 e rfl))
        exact c_onField h5 ((c_sp +++ c_sub hst).mono)
    refine prints_of (body := forStatement {} j) (by simp [layout, h]) ?_
    have c1 : PC m (onField "body" j fun b => onStr "nodeType" b fun t =>
        if t = "Block" then sp ++ [.sub {} b] else indentedStatement {} b) b.toks .any .blank := by
      refine c_onField h9 (c_onStr htz ?_)
      split
      · exact c_sp +++ c_sub hb
      · exact c_indented hb
    have := c_for (m := m) +++ c_field (s := {}) h1 (p_stmt m i w h2 hp.1) +++
      c_onField (f := fun c => sp ++ [.sub {} c] ++ tok ";") h3 (c_sp +++ c_sub (p_expr h4 hp.2.1) +++ c_semi) +++
      c0 +++ c_close +++ c1
    exact this.cast (by simp [Stmt.toks])
  | .return_ none, j, h, _ => by
    simp only [ShowsStmt, IsA, ShowsOpt] at h
    refine prints_of (body := returnStatement {} j) (by simp [layout, h.1]) ?_
    exact c_name (t := "return") (by decide) +++ c_noField (q := .name) (p := .name) h.2 +++ c_semi
  | .return_ (some e), j, h, hp => by
    simp only [ShowsStmt, IsA, ShowsOpt] at h
    simp only [Stmt.Plain, PlainOpt] at hp
    obtain ⟨h, v, h1, h2⟩ := h
    refine prints_of (body := returnStatement {} j) (by simp [layout, h]) ?_
    exact c_name (t := "return") (by decide) +++ c_onField h1 (c_sp +++ c_sub (p_expr h2 (hp e rfl))) +++ c_semi
  | .emit e, j, h, hp => by
    simp only [ShowsStmt, IsA] at h
    obtain ⟨h, v, h1, h2⟩ := h
    refine prints_of (body := emitStatement {} j) (by simp [layout, h]) ?_
    exact c_onField h1 (c_name (t := "emit") (by decide) +++ c_sp +++ c_sub (p_expr h2 (by simpa [Stmt.Plain] using hp)) +++ c_semi)
  | .revert e, j, h, hp => by
    simp only [ShowsStmt, IsA] at h
    obtain ⟨h, v, h1, h2⟩ := h
    refine prints_of (body := tok "revert" ++ sp ++ field ({} : PrintSettings) "errorCall" j ++ tok ";") (by simp [layout, h]) ?_
    exact c_name (t := "revert") (by decide) +++ c_sp +++ c_field h1 (p_expr h2 (by simpa [Stmt.Plain] using hp)) +++ c_semi
  | .break_, j, h, _ => by
    simp only [ShowsStmt, IsA] at h
    exact prints_of (body := tok "break" ++ tok ";") (by simp [layout, h]) (c_name (by decide) +++ c_semi)
  | .continue_, j, h, _ => by
    simp only [ShowsStmt, IsA] at h
    exact prints_of (body := tok "continue" ++ tok ";") (by simp [layout, h]) (c_name (by decide) +++ c_semi)
  | .placeholder, j, h, _ => by
    simp only [ShowsStmt, IsA] at h
    exact prints_of (body := tok "_" ++ tok ";") (by simp [layout, h]) (c_name (by decide) +++ c_semi)
  | .try_ e rs b cs, j, h, hp => by
    simp only [ShowsStmt] at h
    simp only [Stmt.Plain] at hp
    obtain ⟨h, ⟨v, h1, h2⟩, c, js, h3, h4, h5, h6, h7, y, h8, h9, ks, h10, h11⟩ := h
    obtain ⟨he, hne, hrs, hb, hcs⟩ := hp
    have hb := p_stmts m b ks h11 hb
    have hcs := p_catches m cs js h4 hcs
    have hc : Prints m {} c (paramsToks rs ++ "{" :: ((b.map Stmt.toks).flatten ++ ["}"])) .any := by
      have := p_clause (ps := some rs) h5 h6 (by
        cases rs with
        | nil => exact absurd rfl hne
        | cons => exact h7) h8 h9 h10 hb (fun _ hx => by cases hx) (fun vs hvs => by cases hvs; exact hrs)
      simpa [clauseParams] using this
    unfold IsA at h
    refine prints_of (body := tryStatement {} j) (by simp [layout, h]) ?_
    have c1 : PC m (onSome (j.getArrayForKey "clauses") (clauseLoop {} 0))
        (paramsToks rs ++ "{" :: ((b.map Stmt.toks).flatten ++ ["}"]) ++ catchToks cs) .any .any := by
      rw [h3]
      have := c_nil (m := m) (q := .any) (p := .any) +++ (c_sub hc +++ (c_sp +++ c_clauses js _ 1 (by omega) hcs))
      refine PC.cast (ts := _) (by simpa [clauseLoop, when, onSome] using this) ?_
      simp [catchToks_flatten]
    have := c_name (m := m) (t := "try") (by decide) +++ c_sp +++
      c_onField (f := fun c => [.sub ({} : PrintSettings) c] ++ sp) h1 (c_sub (p_try h2 he) +++ c_sp) +++ c1
    refine this.cast ?_
    cases rs with
    | nil => exact absurd rfl hne
    | cons => simp [Stmt.toks, returnsToks, stmtsToks_flatten]
  | .clause n ps b, j, h, hp => by
    simp only [ShowsStmt] at h
    simp only [Stmt.Plain] at hp
    obtain ⟨h, h1, h2, y, h3, h4, ks, h5, h6⟩ := h
    rw [Stmt.toks, stmtsToks_flatten]
    exact p_clause h h1 h2 h3 h4 h5 (p_stmts m b ks h6 hp.2.2) hp.1 hp.2.1
  | .assembly fs ss, j, h, hp => by
    simp only [ShowsStmt] at h
    simp only [Stmt.Plain] at hp
    obtain ⟨h, h1, h2, y, h3, h4, ks, h5, h6⟩ := h
    have hb := p_braces (Or.inr h4) h5 (p_yuls m ss {} ks h6 hp.2)
    unfold IsA at h
    refine prints_around (entry := (inlineAssembly {} j).entry) (body := (inlineAssembly {} j).body) (exit := [])
      (by simp [layout, h, inlineAssembly]) ?_
    have c1 : PC m (inlineAssembly {} j).entry [] .any .any := by
      simp only [inlineAssembly, onStr, h1, onSome]
      exact c_nil
    have c2 : PC m (onArray "flags" j fun xs => when (!xs.isEmpty)
        (tok "(" ++ arrayWith (fun n => onSome n.asStr fun t => [.op (.string (unencode t.toList))]) (tok "," ++ sp) xs ++
          tok ")" ++ sp)) (flagsToks fs) .any .any := by
      cases fs with
      | nil =>
        rcases h2 with h2 | h2
        · exact c_noField h2
        · exact c_onArray h2 c_nil
      | cons f fs =>
        refine c_onArray h2 ?_
        have c3 : PC m (arrayWith (fun n => onSome n.asStr fun t => [.op (.string (unencode t.toList))]) (tok "," ++ sp)
            ((f :: fs).map .str)) (joined [","] ((f :: fs).map fun f => [quoted f])) .any .any := by
          refine c_arrayWith (q' := .any) (p' := .expr) (by simpa using c_comma +++ c_sp) ?_
          have hf := hp.1
          generalize f :: fs = gs at hf
          induction gs with
          | nil => trivial
          | cons g gs ih =>
            refine ⟨?_, ih fun x hx => hf x (List.mem_cons_of_mem _ hx)⟩
            have hg := hf g (List.mem_cons_self ..)
            have := c_string (m := m) hg
            simpa [Json.asStr, onSome, unencode_unescaped hg] using this
        have := c_open (m := m) +++ c3 +++ c_close +++ c_sp
        exact (this.mono (q' := .any) (p' := .any)).cast (by simp [flagsToks, joined_one])
    have := c1 +++ ((c_name (t := "assembly") (by decide) +++ c_sp +++ c2 +++ c_field h3 hb) +++ c_nil (q := .any) (p := .any))
    exact this.cast (by simp [Stmt.toks, yulToks_flatten])
  | .comment _, _, _, hp => by simp [Stmt.Plain] at hp
theorem p_stmts (m : Mode) : (ss : List Stmt) → (js : List Json) → ShowStmts ss js → stmtsPlain m.flows ss →
    Pairwise₂ (fun ts x => Row m {} x ts) (ss.map Stmt.toks) js
  | [], [], _, _ => trivial
  | [], _ :: _, h, _ => by simp [ShowStmts] at h
  | _ :: _, [], h, _ => by simp [ShowStmts] at h
  | st :: ss, j :: js, h, hp => by
    simp only [ShowStmts] at h
    obtain ⟨hp1, hp2⟩ := stmtsPlain_cons hp
    refine ⟨?_, p_stmts m ss js h.2 hp2⟩
    rcases hp1 with ⟨⟨t, rfl⟩, hf⟩ | hp1
    · have h1 := h.1
      simp only [ShowsStmt] at h1
      rw [show (Stmt.comment t).toks = [] from by simp [Stmt.toks]]
      exact row_comment h1.1 h1.2.1 h1.2.2 hf
    · exact row_prints (p_stmt m st j h.1 hp1)
theorem p_catches (m : Mode) : (ss : List Stmt) → (js : List Json) → ShowStmts ss js → clausesPlain m.flows ss →
    Pairwise₂ (fun ts x => Prints m {} x ts .any) (ss.map Stmt.toks) js
  | [], [], _, _ => trivial
  | [], _ :: _, h, _ => by simp [ShowStmts] at h
  | _ :: _, [], h, _ => by simp [ShowStmts] at h
  | st :: ss, j :: js, h, hp => by
    simp only [ShowStmts] at h
    simp only [clausesPlain] at hp
    exact ⟨p_stmt m st j h.1 hp.1, p_catches m ss js h.2 hp.2⟩
end

/-! ### Functions -/

theorem pairwise_exprs : (es : List Expr) → (js : List Json) → ShowAll es js → Pairwise₂ Shows es js
  | [], [], _ => trivial
  | [], _ :: _, h => by simp [ShowAll] at h
  | _ :: _, [], h => by simp [ShowAll] at h
  | _ :: es, _ :: js, h => by
    simp only [ShowAll] at h
    exact ⟨h.1, pairwise_exprs es js h.2⟩

theorem legibleAll_mem : (es : List Expr) → LegibleAll es → ∀ e ∈ es, Legible e
  | [], _, _, he => by cases he
  | a :: es, h, e, he => by
    simp only [LegibleAll] at h
    rcases List.mem_cons.1 he with rfl | he
    · exact h.1
    · exact legibleAll_mem es h.2 e he

theorem c_args {js : List Json} {es : List Expr} (h : ShowAll es js) (hp : LegibleAll es) :
    PC m (array {} js) (strArgs es) .expr .any := by
  rw [strArgs_sepBy]
  exact c_array (pairwise_map es js (pairwise_exprs es js h) fun e he j hj => p_expr hj (legibleAll_mem es hp e he))

theorem p_name {n : List String} {j : Json} (h : ShowsName n j) (hn : PlainPath n) : Prints m {} j (pathToks n) .name := by
  obtain ⟨h, h1⟩ := h
  unfold IsA at h
  refine prints_of (body := strTok "name" j) (by rcases h with h | h <;> simp [layout, h]) ?_
  exact c_onStr h1 (c_path hn.1 hn.2)

theorem p_use {u : Use} {j : Json} (h : ShowsUse u j) (hp : u.Plain) : Prints m {} j u.toks .name := by
  obtain ⟨h, ⟨v, h1, h2⟩, h3⟩ := h
  unfold IsA at h
  refine prints_of (body := modifierInvocation {} j) (by simp [layout, h]) ?_
  have c1 : PC m (onArray "arguments" j fun xs => tok "(" ++ when (!xs.isEmpty) (array ({} : PrintSettings) xs) ++ tok ")") (argsToks u.args) .name .name := by
    cases ha : u.args with
    | none =>
      rw [ha] at h3
      exact c_noField h3.1
    | some es =>
      rw [ha] at h3
      obtain ⟨js, h3, _, h4⟩ := h3
      have c2 := c_args (m := m) h4 (hp.2 es ha)
      have c3 : PC m (when (!js.isEmpty) (array {} js)) (strArgs es) .expr .any := by
        cases js with
        | nil => exact c2
        | cons => exact c2
      exact c_onArray h3 ((c_open +++ c3 +++ c_close).mono)
  exact c_field h1 (p_name h2 hp.1) +++ c1

theorem p_base {u : Use} {j : Json} (h : ShowsBase u j) (hp : u.Plain) : Prints m {} j u.toks .name := by
  obtain ⟨h, ⟨v, h1, h2⟩, h3⟩ := h
  unfold IsA at h
  refine prints_of (body := inheritance {} j) (by simp [layout, h]) ?_
  have c1 : PC m (onSome (j.getArrayForKey "arguments") fun xs => tok "(" ++ array ({} : PrintSettings) xs ++ tok ")") (argsToks u.args) .name .name := by
    cases ha : u.args with
    | none =>
      rw [ha] at h3
      rw [h3.2]
      exact c_nil
    | some es =>
      rw [ha] at h3
      obtain ⟨js, _, h3, h4⟩ := h3
      rw [h3]
      exact (c_open +++ c_args (m := m) h4 (hp.2 es ha) +++ c_close).mono
  exact c_field h1 (p_name h2 hp.1) +++ c1

theorem c_override {j : Json} {o : Option (List (List String))} (h : ShowsOverride j o) (hp : ∀ ns, o = some ns → ∀ p ∈ ns, PlainPath p) :
    PC m (onField "overrides" j fun o => sp ++ [.sub {} o]) (overrideToks o) .name .name := by
  cases o with
  | none => exact c_noField h
  | some ns =>
    obtain ⟨v, h1, h2, js, h3, h4⟩ := h
    unfold IsA at h2
    have c1 : Prints m {} v (overrideToks (some ns)) .name := by
      refine prints_of (body := overrideSpecifier {} v) (by simp [layout, h2]) ?_
      unfold overrideSpecifier
      rw [h3]
      simp only [onSome]
      cases js with
      | nil =>
        cases ns with
        | nil => exact (c_name (by decide) +++ c_nil (q := .name) (p := .name)).cast (by simp [overrideToks])
        | cons => simp [Pairwise₂] at h4
      | cons k ks =>
        cases ns with
        | nil => simp [Pairwise₂] at h4
        | cons k0 ks0 =>
          have c2 : PC m (array {} (k :: ks)) (sepBy "," ((k0 :: ks0).map pathToks)) .name .any :=
            c_array (pairwise_map (k0 :: ks0) (k :: ks) h4 fun n hn j hj => p_name hj (hp _ rfl n hn))
          have := c_name (m := m) (t := "override") (by decide) +++ (c_open +++ c2 +++ c_close)
          exact (this.mono (q' := .name)).cast (by simp [overrideToks])
    exact c_onField h1 ((c_sp +++ c_sub c1).mono)

theorem c_returns {vs : List Var} {j : Json}
    (h : ∃ v, Json.field? "returnParameters" j = some v ∧ ShowsParams vs v ∧
      ∃ js, v.getArrayForKey "parameters" = some js ∧ js.length = vs.length) (hp : ∀ v ∈ vs, v.Plain) :
    PC m (returnParameters {} j) (returnsToks vs) .name .name := by
  obtain ⟨v, h1, h2, js, h3, h4⟩ := h
  refine c_onField h1 ?_
  rw [h3]
  simp only [onSome]
  cases js with
  | nil =>
    cases vs with
    | nil => exact c_nil
    | cons => cases h4
  | cons k ks =>
    cases vs with
    | nil => cases h4
    | cons w ws =>
      have := c_sp (m := m) +++ c_name (t := "returns") (by decide) +++ c_sp +++ c_subAt (ch_params h2 hp)
      exact (this.mono (q' := .name) (p' := .name)).cast (by simp [returnsToks])

/-- The tokens of a body without the `;` of a missing one. -/
def blockToks : Option (List Stmt) → List String
  | none => []
  | some ss => (Stmt.block ss).toks

theorem c_body {j : Json} {b : Option (List Stmt)} {rest : Ps} {ts : List String} (h : ShowsBody j b) (hp : bodyPlain m.flows b)
    (hn : b = none → PC m rest ts .any .name) (hs : b ≠ none → PC m rest ts .any .any) :
    PC m ((onField "body" j fun b => sp ++ [.sub ({} : PrintSettings) b]) ++ rest)
      (blockToks b ++ ts) .any .name := by
  cases b with
  | none => exact c_noField (q := .name) (p := .name) h +++ hn rfl
  | some ss =>
    obtain ⟨v, h1, h2⟩ := h
    have c1 := p_stmt m (.block ss) v h2 (by simpa [Stmt.Plain] using hp ss rfl)
    have := c_onField (f := fun b => sp ++ [.sub {} b]) h1 (c_sp +++ c_sub c1) +++ hs (by simp)
    exact (this.mono (p' := .name)).cast (by simp [blockToks])

theorem p_fn {f : Fn} {j : Json} {doc : Option String} (h : ShowsFn f j doc) (hp : f.Plain m.flows) (hd : docPlain m.flows doc) : Prints m {} j f.toks .any := by
  have h0 := h.isA
  unfold IsA at h0
  refine prints_around (entry := (functionDefinition {} j).entry) (body := (functionDefinition {} j).body) (exit := [])
    (by simp [layout, h0, functionDefinition]) ?_
  have c1 : PC m (documentation {} j) [] .any .any := c_doc h.documentation hd
  have c2 : PC m (onStr "kind" j fun k =>
      if k = "function" ∨ k = "freeFunction" then tok "function" ++ sp ++ strTok "name" j
      else when (k = "constructor" || k = "receive" || k = "fallback") (tok k)) (f.kind :: f.name.toList) .name .any := by
    obtain ⟨k, hk, h1⟩ := h.kind
    refine c_onStr hk ?_
    rcases h1 with ⟨h1, h2, n, h3, h4⟩ | ⟨h1, h2, h3⟩
    · simp only [h1, if_true]
      have := c_name (m := m) (t := "function") (by decide) +++ c_sp +++ c_strTok h4 (hp.name n h3)
      exact this.cast (by simp [h2, h3])
    · have hk : ¬ (k = "function" ∨ k = "freeFunction") := by rcases h1 with rfl | rfl | rfl <;> decide
      have hk' : (decide (k = "constructor") || decide (k = "receive") || decide (k = "fallback")) = true := by
        rcases h1 with rfl | rfl | rfl <;> decide
      simp only [hk, if_false, hk', when, if_true, h3, h2]
      exact c_name (h2 ▸ hp.kind)
  obtain ⟨v, h1, h2⟩ := h.params
  have c3 : PC m (field {} "parameters" j) (paramsToks f.params) .any .name :=
    c_onField h1 (c_subAt (ch_params h2 hp.params))
  have c4 : PC m (onStr "visibility" j fun v => sp ++ tok v) f.visibility.toList .name .name := by
    unfold onStr
    rw [h.visibility]
    exact c_opt hp.visibility
  have c5 := c_flagIff (m := m) (b := decide (j.getBoolForKey "virtual" = some true)) (t := "virtual")
    (by simpa using h.virtual) (by decide)
  have c6 := c_optStr (m := m) (f := fun t => when (t ≠ "nonpayable" || ({} : PrintSettings).nonpayable) (sp ++ tok t))
    hp.mutability h.mutability (fun t => by simp)
  have c7 := c_override (m := m) h.override hp.override
  have c8 : PC m (spaceAndArray {} "modifiers" j) (f.modifiers.flatMap Use.toks) .name .name := by
    obtain ⟨js, h3, h4⟩ := h.modifiers
    refine c_onArray h3 ?_
    obtain ⟨hl, hu⟩ := hp.modifiers
    have hl' := pairwise_length _ _ h4
    match hm : f.modifiers, js with
    | [], [] => exact c_nil
    | [], _ :: _ => rw [hm] at hl'; cases hl'
    | _ :: _, [] => rw [hm] at hl'; cases hl'
    | [u], [k] =>
      rw [hm] at h4 hu
      have := c_sp (m := m) +++ c_array (s := {}) (q := .name) (js := [k]) (tss := [u.toks])
        ⟨p_use h4.1 (hu u (List.mem_cons_self ..)), trivial⟩
      exact (this.mono (q' := .name) (p' := .name)).cast (by simp [sepBy])
    | _ :: _ :: _, _ => rw [hm] at hl; simp at hl
    | [_], _ :: _ :: _ => rw [hm] at hl'; simp at hl'
  have c9 := c_returns (m := m) h.returns hp.returns
  have c10 := c_body (m := m) (rest := when (decide (j.getBoolForKey "implemented" = some false)) (tok ";"))
    (ts := if f.body.isSome then [] else [";"]) h.body hp.body
    (fun hb => by
      simp only [h.implemented, hb]
      exact (c_semi.mono))
    (fun hb => by
      have : f.body.isSome = true := by cases hf : f.body <;> simp_all
      simp only [h.implemented, this]
      exact c_nil)
  have := (c1 +++ c2) +++ ((c3 +++ c4 +++ c5 +++ c6 +++ c7 +++ c8 +++ c9 +++ c10) +++ c_nil (q := .any) (p := .any))
  refine PC.cast (ts := _) (by simpa [functionDefinition] using this) ?_
  simp only [Fn.toks, bodyToks]
  cases hb : f.body <;> simp [blockToks]

/-! ### Members and contracts -/

theorem c_operator {t : String} (h : t ∈ userOperators) : PC m (tok t) [t] .expr .any := by
  have hw : isWord t = true ∧ ∀ c ∈ [')', ']', ';', ',', '}'], joins t.toList c = false := by
    simp only [userOperators, List.mem_cons, List.not_mem_nil, or_false] at h
    rcases h with rfl | rfl | rfl | rfl | rfl | rfl | rfl | rfl | rfl | rfl | rfl | rfl | rfl | rfl | rfl <;> decide
  refine chunk_of (written_word t) (lexes_isWord hw.1 fun c hc => ?_) (isWord_starts hw.1)
  rcases hc with hc | ⟨hc, _⟩
  · exact hw.2 c hc
  · cases hc

/-- What a contract writes for a member. -/
def memberPieces (n : Json) : Ps :=
  ind ++ [.sub ({} : PrintSettings) n] ++ when (n.getStrForKey "nodeType" = some "VariableDeclaration") (tok ";")

theorem memberPieces_other {j : Json} {ts : List String} {t : String} (hj : j.getStrForKey "nodeType" = some t)
    (ht : t ≠ "VariableDeclaration") (h : Prints m {} j ts .any) : PC m (memberPieces j) ts .any .any := by
  have := c_ind +++ c_sub h +++ c_nil (q := .any) (p := .any)
  refine PC.cast (ts := _) (by simpa [memberPieces, hj, ht, when] using this) (by simp)

theorem c_member : (x : Member) → (j : Json) → ShowsMember x j → x.Plain m.flows → (∀ t, x ≠ .comment t) →
    PC m (memberPieces j) x.toks .any .any
  | .comment t, _, _, _, hc => absurd rfl (hc t)
  | .state v doc, j, h, hp, _ => by
    have h0 := ShowsVar.isA h
    unfold IsA at h0
    have := c_ind +++ c_sub (p_var (m := m) (s := {}) h hp.1 hp.2) +++ c_semi
    refine PC.cast (ts := _) (by simpa [memberPieces, h0, when] using this) (by simp [Member.toks])
  | .fn f doc, j, h, hp, _ => memberPieces_other (ShowsFn.isA h) (by decide) (p_fn h hp.1 hp.2)
  | .modifier n ps v b doc, j, h, hp, _ => by
    obtain ⟨h0, h1, h2, ⟨x, h3, h4⟩, h5, h6, h7⟩ := h
    obtain ⟨hn, hps, ⟨ss, rfl⟩, hb, hd⟩ := hp
    refine memberPieces_other h0 (by decide) ?_
    unfold IsA at h0
    refine prints_around (entry := (modifierDefinition {} j).entry) (body := (modifierDefinition {} j).body) (exit := [])
      (by simp [layout, h0, modifierDefinition]) ?_
    have c1 : PC m (documentation {} j) [] .any .any := c_doc h1 hd
    have c2 : PC m (field {} "parameters" j) (paramsToks ps) .any .name := c_onField h3 (c_subAt (ch_params h4 hps))
    have c3 := c_flagIff (m := m) (b := decide (j.getBoolForKey "virtual" = some true)) (t := "virtual")
      (by simpa using h5) (by decide)
    have c4 := c_noField (m := m) (q := .name) (p := .name) (f := fun n => [.sub ({} : PrintSettings) n]) h6
    obtain ⟨y, h8, h9⟩ := h7
    have c5 := c_onField (m := m) (f := fun b => sp ++ [.sub ({} : PrintSettings) b]) h8
      (c_sp +++ c_sub (p_stmt m (.block ss) y h9 (by simpa [Stmt.Plain] using hb ss rfl)))
    have := (c1 +++ c_name (t := "modifier") (by decide) +++ c_sp +++ c_strTok h2 hn +++ c2) +++ ((c3 +++ c4 +++ c5) +++ c_nil (q := .any) (p := .any))
    refine PC.cast (ts := _) (by simpa [modifierDefinition, field] using this) ?_
    simp [Member.toks, bodyToks]
  | .event n ps a, j, h, hp, _ => by
    obtain ⟨h0, h1, ⟨x, h2, h3⟩, h4⟩ := h
    refine memberPieces_other h0 (by decide) ?_
    unfold IsA at h0
    refine prints_of (body := eventDefinition {} j) (by simp [layout, h0]) ?_
    have c2 : PC m (field {} "parameters" j) (paramsToks ps) .any .name := c_onField h2 (c_subAt (ch_params h3 hp.2))
    have c3 := c_flagIff (m := m) (b := decide (j.getBoolForKey "anonymous" = some true)) (t := "anonymous")
      (by simpa using h4) (by decide)
    have := c_name (m := m) (t := "event") (by decide) +++ c_sp +++ c_strTok h1 hp.1 +++ c2 +++ c3 +++ c_semi
    exact this.cast (by simp [Member.toks])
  | .error n ps, j, h, hp, _ => by
    obtain ⟨h0, h1, x, h2, h3⟩ := h
    refine memberPieces_other h0 (by decide) ?_
    unfold IsA at h0
    refine prints_of (body := tok "error" ++ sp ++ strTok "name" j ++ field ({} : PrintSettings) "parameters" j ++ tok ";") (by simp [layout, h0]) ?_
    have c2 : PC m (field {} "parameters" j) (paramsToks ps) .any .name := c_onField h2 (c_subAt (ch_params h3 hp.2))
    have := c_name (m := m) (t := "error") (by decide) +++ c_sp +++ c_strTok h1 hp.1 +++ c2 +++ c_semi
    exact this.cast (by simp [Member.toks])
  | .struct n vs, j, h, hp, _ => by
    obtain ⟨h0, h1, js, h2, h3⟩ := h
    refine memberPieces_other h0 (by decide) ?_
    unfold IsA at h0
    refine prints_around (entry := []) (body := (structDef {} j).body) (exit := (structDef {} j).exit) (by simp [layout, h0, structDef]) ?_
    have c1 : PC m (arrayWith (fun n => ind ++ [.sub ({} : PrintSettings) n] ++ tok ";") nl js) (joined [] (vs.map fun v => v.toks ++ [";"])) .any .any := by
      refine c_arrayWith c_nl (pairwise_map vs js (pairwise_vars vs js h3) fun v hv j hj => ?_)
      exact (c_ind +++ c_sub (p_var hj (hp.2 v hv) trivial) +++ c_semi).cast (by simp)
    have := c_nil (m := m) (q := .any) (p := .any) +++ ((c_name (t := "struct") (by decide) +++ c_sp +++ c_strTok h1 hp.1 +++ c_sp +++ c_brace +++ c_nl +++ c_inc +++
      c_onArray h2 c1) +++ (c_dec +++ c_nl +++ c_ind +++ c_unbrace))
    exact this.cast (by simp [Member.toks, joined_none, List.flatMap])
  | .enum n vs, j, h, hp, _ => by
    obtain ⟨h0, h1, js, h2, h3⟩ := h
    refine memberPieces_other h0 (by decide) ?_
    unfold IsA at h0
    refine prints_of (body := enumDefinition {} j) (by simp [layout, h0]) ?_
    have c1 : PC m (arrayWith (fun n => nl ++ ind ++ [.sub ({} : PrintSettings) n]) (tok "," ++ sp) js) (joined [","] (vs.map fun v => [v])) .name .name := by
      refine c_arrayWith (q' := .any) (p' := .expr) (by simpa using c_comma +++ c_sp) (pairwise_map vs js h3 fun v hv j hj => ?_)
      obtain ⟨h4, h5⟩ := hj
      unfold IsA at h4
      have : Prints m {} j [v] .name := prints_of (body := strTok "name" j) (by simp [layout, h4]) (c_strTok h5 (hp.2.2 v hv))
      exact ((c_nl +++ c_ind +++ c_sub this).mono).cast (by simp)
    have hne : js.isEmpty = false := by
      have := pairwise_length _ _ h3
      cases js with
      | nil => exact absurd (List.length_eq_zero_iff.1 this) hp.2.1
      | cons => rfl
    have c2 : PC m (onArray "members" j fun xs => when (!xs.isEmpty)
        (sp ++ tok "{" ++ (inc ++ arrayWith (fun n => nl ++ ind ++ [.sub ({} : PrintSettings) n]) (tok "," ++ sp) xs ++ dec) ++
          nl ++ ind ++ tok "}")) ("{" :: (sepBy "," (vs.map fun v => [v]) ++ ["}"])) .any .blank := by
      refine c_onArray h2 ?_
      simp only [hne, Bool.not_false, when, if_true]
      exact (c_sp +++ c_brace +++ (c_inc +++ c1 +++ c_decName) +++ c_nl +++ c_ind +++ c_unbrace).cast (by simp [joined_one])
    have := c_name (m := m) (t := "enum") (by decide) +++ c_sp +++ c_strTok h1 hp.1 +++ c2
    exact this.cast (by simp [Member.toks])

  | .using_ l t g, j, h, hp, _ => by
    obtain ⟨h0, ⟨v, h1, h2⟩, h3, ⟨w, h4, h5⟩, h6⟩ := h
    refine memberPieces_other h0 (by decide) ?_
    unfold IsA at h0
    refine prints_of (body := usingFor {} j) (by simp [layout, h0]) ?_
    have c1 := c_onField (m := m) (f := fun l => sp ++ [.sub ({} : PrintSettings) l]) h1 (c_sp +++ c_sub (p_name h2 hp.1))
    have c2 := c_noField (m := m) (q := .name) (p := .name) (f := fun v => onSome v.asArray fun xs => when (!xs.isEmpty)
      (sp ++ tok "{" ++ (inc ++ (nl ++ ind ++ arrayWith (fun n =>
        (onField "definition" n fun d => strTok "name" d) ++
          onStr "operator" n fun o => sp ++ tok "as" ++ sp ++ tok o) (tok "," ++ nl ++ ind) xs ++ nl) ++ dec) ++
        ind ++ tok "}")) h3
    have c3 := c_flagIff (m := m) (b := decide (j.getBoolForKey "global" = some true)) (t := "global") (by simpa using h6) (by decide)
    have := c_name (m := m) (t := "using") (by decide) +++ c1 +++ c2 +++ c_sp +++ c_name (t := "for") (by decide) +++ c_sp +++
      c_field (s := {}) h4 (p_type t w h5 hp.2) +++ c3 +++ c_semi
    exact this.cast (by simp [Member.toks])
  | .operators fs t g, j, h, hp, _ => by
    obtain ⟨h0, h1, ⟨js, h2, h3⟩, ⟨w, h4, h5⟩, h6⟩ := h
    refine memberPieces_other h0 (by decide) ?_
    unfold IsA at h0
    refine prints_of (body := usingFor {} j) (by simp [layout, h0]) ?_
    have c1 := c_noField (m := m) (q := .name) (p := .name) (f := fun l => sp ++ [.sub ({} : PrintSettings) l]) h1
    have ca : PC m (arrayWith (fun n => (onField "definition" n fun d => strTok "name" d) ++
          onStr "operator" n fun o => sp ++ tok "as" ++ sp ++ tok o) (tok "," ++ nl ++ ind) js)
        (joined [","] (fs.map fun f => pathToks f.1 ++ ["as", f.2])) .expr .any := by
      refine c_arrayWith (q' := .any) (p' := .expr) (by simpa using c_comma +++ c_nl +++ c_ind) (pairwise_map fs js h3 fun f hf x hx => ?_)
      obtain ⟨_, ⟨v, h7, _, h8⟩, h9⟩ := hx
      obtain ⟨h10, h11⟩ := hp.2.1 f hf
      have := c_onField (m := m) (f := fun d => strTok "name" d) h7 (c_onStr h8 (c_path h10.1 h10.2)) +++
        c_onStr (f := fun o => sp ++ tok "as" ++ sp ++ tok o) h9 (c_sp +++ c_name (t := "as") (by decide) +++ c_sp +++ c_operator h11)
      exact this.cast (by simp)
    have hne : js.isEmpty = false := by
      have := pairwise_length _ _ h3
      cases js with
      | nil => exact absurd (List.length_eq_zero_iff.1 this) hp.1
      | cons => rfl
    have c2 : PC m (onArray "functionList" j fun xs => when (!xs.isEmpty)
        (sp ++ tok "{" ++ (inc ++ (nl ++ ind ++ arrayWith (fun n =>
          (onField "definition" n fun d => strTok "name" d) ++
            onStr "operator" n fun o => sp ++ tok "as" ++ sp ++ tok o) (tok "," ++ nl ++ ind) xs ++ nl) ++ dec) ++
          ind ++ tok "}")) ("{" :: (sepBy "," (fs.map fun f => pathToks f.1 ++ ["as", f.2]) ++ ["}"])) .any .blank := by
      refine c_onArray h2 ?_
      simp only [hne, Bool.not_false, when, if_true]
      exact (c_sp +++ c_brace +++ (c_inc +++ (c_nl +++ c_ind +++ ca +++ c_nl) +++ c_dec) +++ c_ind +++ c_unbrace).cast (by simp [joined_one])
    have c3 := c_flagIff (m := m) (b := decide (j.getBoolForKey "global" = some true)) (t := "global") (by simpa using h6) (by decide)
    have := c_name (m := m) (t := "using") (by decide) +++ c1 +++ c2 +++ c_sp +++ c_name (t := "for") (by decide) +++ c_sp +++
      c_field (s := {}) h4 (p_type t w h5 hp.2.2) +++ c3 +++ c_semi
    exact this.cast (by simp [Member.toks])
  | .type n t, j, h, hp, _ => by
    obtain ⟨h0, h1, v, h2, h3⟩ := h
    refine memberPieces_other h0 (by decide) ?_
    unfold IsA at h0
    refine prints_of (body := tok "type" ++ sp ++ strTok "name" j ++ sp ++ tok "is" ++ sp ++
      field ({} : PrintSettings) "underlyingType" j ++ tok ";") (by simp [layout, h0]) ?_
    have := c_name (m := m) (t := "type") (by decide) +++ c_sp +++ c_strTok h1 hp.1 +++ c_sp +++ c_name (t := "is") (by decide) +++ c_sp +++
      c_field (s := {}) h2 (p_type t v h3 hp.2) +++ c_semi
    exact this.cast (by simp [Member.toks])

/-- A member on lines of its own. -/
theorem c_memberLines {x : Member} {j : Json} (h : ShowsMember x j) (hp : x.Plain m.flows) :
    PC m (nl ++ memberPieces j ++ nl) x.toks .any .any := by
  cases x with
  | comment t =>
    have hr := rows_newline (row_comment (m := m) (s := {}) h.1 h.2.1 h.2.2 hp)
    have h0 := h.1
    unfold IsA at h0
    unfold PC
    simpa [memberPieces, h0, when, nl, ind, expand, Member.toks] using hr
  | _ => exact ((c_nl +++ c_member _ j h hp (by simp) +++ c_nl).mono).cast (by simp)

theorem c_members : (xs : List Member) → (js : List Json) → Pairwise₂ ShowsMember xs js → (∀ x ∈ xs, x.Plain m.flows) →
    PC m (js.flatMap fun k => nl ++ memberPieces k ++ nl) (xs.flatMap Member.toks) .any .any
  | [], [], _, _ => c_nil
  | [], _ :: _, h, _ => h.elim
  | _ :: _, [], h, _ => h.elim
  | x :: xs, j :: js, h, hp => by
    rw [List.flatMap_cons, List.flatMap_cons]
    exact c_memberLines h.1 (hp x (List.mem_cons_self ..)) +++ c_members xs js h.2 fun y hy => hp y (List.mem_cons_of_mem _ hy)

theorem lines_apart {f : Json → Ps} : (js : List Json) → (i len : Nat) → i + js.length = len → js ≠ [] →
    nl ++ arrayLoop f (nl ++ nl) len i js ++ nl = js.flatMap fun k => nl ++ f k ++ nl
  | [], _, _, _, h => absurd rfl h
  | [j], i, len, h, _ => by
    have hn : ¬ i < len - 1 := by simp at h; omega
    simp [arrayLoop, when, hn]
  | j :: k :: js, i, len, h, _ => by
    have hn : i < len - 1 := by simp at h; omega
    have ih := lines_apart (f := f) (k :: js) (i + 1) len (by simp at h ⊢; omega) (by simp)
    rw [List.flatMap_cons, ← ih, arrayLoop]
    simp only [when, hn, decide_true, if_true]
    simp

theorem p_contract {c : Contract} {j : Json} (h : ShowsContract c j) (hp : c.Plain m.flows) : Prints m {} j c.toks .any := by
  have h0 := h.isA
  unfold IsA at h0
  refine prints_around (entry := (contract {} j).entry) (body := (contract {} j).body) (exit := [])
    (by simp [layout, h0, contract]) ?_
  have c1 : PC m (documentation {} j) [] .any .any := c_doc h.documentation hp.doc
  have c2 : PC m (when (decide (j.getBoolForKey "abstract" = some true)) (tok "abstract" ++ sp)) (flag c.abstract_ "abstract") .any .any := by
    have := c_when (m := m) (b := decide (j.getBoolForKey "abstract" = some true)) (c_name (t := "abstract") (by decide) +++ c_sp)
    refine this.cast ?_
    have ha := h.abstract_
    cases hb : c.abstract_ <;> simp_all [flag]
  have c3 : PC m (onArray "baseContracts" j fun xs => when (!xs.isEmpty) (sp ++ tok "is" ++ sp ++ array ({} : PrintSettings) xs))
      (basesToks c.bases) .name .name := by
    obtain ⟨js, h1, h2⟩ := h.bases
    refine c_onArray h1 ?_
    have c4 : PC m (array {} js) (sepBy "," (c.bases.map Use.toks)) .name .any :=
      c_array (pairwise_map _ _ h2 fun u hu j hj => p_base hj (hp.bases u hu))
    have hl := pairwise_length _ _ h2
    cases hb : c.bases with
    | nil =>
      rw [hb] at hl
      have : js = [] := List.length_eq_zero_iff.1 hl.symm
      subst this
      exact c_nil
    | cons u us =>
      rw [hb] at hl c4
      cases js with
      | nil => cases hl
      | cons k ks =>
        have := c_sp (m := m) +++ c_name (t := "is") (by decide) +++ c_sp +++ c4
        exact (this.mono (q' := .name) (p' := .name)).cast (by simp [basesToks])
  have c5 : PC m (onSome (j.getArrayForKey "nodes") fun xs => when (!xs.isEmpty)
      ((inc ++ (nl ++ arrayWith memberPieces (nl ++ nl) xs ++ nl) ++ dec) ++ ind)) (c.members.flatMap Member.toks) .any .any := by
    obtain ⟨js, h1, h2⟩ := h.members
    rw [h1]
    simp only [onSome]
    have c6 : PC m (js.flatMap fun k => nl ++ memberPieces k ++ nl) (c.members.flatMap Member.toks) .any .any :=
      c_members _ _ h2 hp.members
    have hl := pairwise_length _ _ h2
    cases js with
    | nil =>
      have : c.members = [] := List.length_eq_zero_iff.1 hl
      rw [this]
      exact c_nil
    | cons k ks =>
      simp only [List.isEmpty_cons, Bool.not_false, when, if_true]
      rw [arrayWith, lines_apart (k :: ks) 0 _ (by simp) (by simp)]
      exact ((c_inc +++ c6 +++ c_dec) +++ c_ind).cast (by simp)
  have := (c1 +++ c2 +++ c_name (t := c.kind) hp.kind +++ c_sp +++ c_strTok h.name hp.name +++ c3) +++
    ((c_sp +++ c_brace +++ c5 +++ c_unbrace) +++ c_nil (q := .any) (p := .any))
  simp only [contract, h.kind, Option.getD_some]
  exact this.cast (by simp [Contract.toks])

end SolPrint
end Mutagenyx
