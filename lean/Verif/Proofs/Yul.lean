import Verif.Proofs.SolidityDoc

/-!
# The text printed for inline assembly consists of its tokens
-/

namespace Mutagenyx
namespace SolPrint

open NodePrinter SolGrammar Printer Lex

variable {m : Mode} {s : PrintSettings}

theorem c_decBlank : PC m dec [] .blank .blank := chunk_decr
theorem c_decExpr : PC m dec [] .expr .expr := chunk_decr

theorem pairwise_length {α : Type} {r : α → Json → Prop} : (as : List α) → (js : List Json) → Pairwise₂ r as js → as.length = js.length
  | [], [], _ => rfl
  | [], _ :: _, h => h.elim
  | _ :: _, [], h => h.elim
  | _ :: as, _ :: js, h => by simpa using pairwise_length as js h.2

/-! ### Blocks -/

/-- The statements of a block. -/
theorem c_statements {j : Json} {js : List Json} {tss : List (List String)} {q : Edge} (hj : Json.field? "statements" j = some (.arr js))
    (h : Pairwise₂ (fun ts x => Prints m s x ts q) tss js) : PC m (statements s j) tss.flatten .any .any := by
  refine c_onArray hj ?_
  split
  · rename_i hone
    match js, tss, h with
    | [], [], _ => exact c_nil
    | [], _ :: _, h => simp [Pairwise₂] at h
    | _ :: _, [], h => simp [Pairwise₂] at h
    | [x], [ts], h =>
      have := ((c_sp +++ c_sub h.1).append c_sp (Nat.zero_le _)).mono (q' := .any) (p' := .any)
      simpa using this
    | [_], _ :: _ :: _, h => simp [Pairwise₂] at h
    | _ :: _ :: _, _, _ => simp at hone
  · cases js with
    | nil =>
      cases tss with
      | nil => exact c_nil
      | cons => simp [Pairwise₂] at h
    | cons k ks =>
      simp only [List.isEmpty_cons, Bool.not_false, when, if_true]
      have ha : PC m (arrayWith (fun n => ind ++ [.sub s n]) nl (k :: ks)) (joined [] tss) q .any := by
        refine c_arrayWith c_nl ?_ (Nat.zero_le _) (by decide) (by cases q <;> decide)
        have h' := pairwise_map (g := id) (r' := fun ts x => PC m (ind ++ [.sub s x]) ts q .any) _ _ h
          fun a _ x hx => by simpa using c_ind +++ c_sub hx
        simpa using h'
      have := ((c_inc +++ (c_nl +++ ha)).append c_decBlank (Nat.zero_le _)) +++ c_nl +++ c_ind
      exact (this.mono (p' := .any)).cast (by simp [joined_none])

/-- A block in braces. -/
theorem p_braces {j : Json} {js : List Json} {tss : List (List String)} {q : Edge} (h0 : IsA "Block" j ∨ IsA "YulBlock" j)
    (hj : Json.field? "statements" j = some (.arr js)) (h : Pairwise₂ (fun ts x => Prints m s x ts q) tss js) :
    Prints m s j ("{" :: (tss.flatten ++ ["}"])) .any := by
  unfold IsA at h0
  refine prints_around (entry := tok "{") (body := statements s j) (exit := tok "}")
    (by rcases h0 with h0 | h0 <;> simp [layout, h0, block, when]) ?_
  exact ((c_brace +++ (c_statements hj h +++ c_unbrace)).mono (p' := .any)).cast (by simp)

/-! ### Expressions -/

theorem yulRest_sepBy : (es : List YulExpr) → (e : YulExpr) → e.toks ++ yulRest es = sepBy "," ((e :: es).map YulExpr.toks)
  | [], e => by simp [yulRest, sepBy]
  | f :: es, e => by
    have := yulRest_sepBy es f
    simp only [List.map_cons] at this ⊢
    simp [yulRest, sepBy, this]

theorem yulArgs_sepBy (es : List YulExpr) : yulArgs es = sepBy "," (es.map YulExpr.toks) := by
  cases es with
  | nil => simp [yulArgs, sepBy]
  | cons e es => rw [yulArgs, yulRest_sepBy]

theorem p_yulName {p : List String} {j : Json} (h : IsA "YulIdentifier" j) (h1 : j.getStrForKey "name" = some (dotted p))
    (hp : PlainPath p) : Prints m s j (pathToks p) .name := by
  unfold IsA at h
  exact prints_of (body := strTok "name" j) (by simp [layout, h]) (c_onStr h1 (c_path hp.1 hp.2))

mutual
theorem p_yulExpr : (e : YulExpr) → (j : Json) → ShowsYulExpr e j → e.Plain → Prints m s j e.toks .expr
  | .name p, j, h, hp => by
    simp only [ShowsYulExpr] at h
    simp only [YulExpr.Plain] at hp
    rw [YulExpr.toks]
    exact Chunk.mono (p_yulName h.1 h.2 hp)
  | .lit t, j, h, hp => by
    simp only [ShowsYulExpr, IsA] at h
    simp only [YulExpr.Plain] at hp
    obtain ⟨h, h1, h2⟩ := h
    refine prints_of (body := yulLiteral j) (by simp [layout, h]) ?_
    have hc : PC m (strTok "value" j) [t] .expr .any := c_onStr h1 ((c_leaf hp).mono (by split <;> decide) (by decide))
    rcases h2 with h2 | h2
    · exact (c_onStr h2 (by simpa using hc)).cast (by simp [YulExpr.toks])
    · exact (c_onStr h2 (by simpa using hc)).cast (by simp [YulExpr.toks])
  | .str t, j, h, hp => by
    simp only [ShowsYulExpr, IsA] at h
    simp only [YulExpr.Plain] at hp
    obtain ⟨h, h1, h2⟩ := h
    refine prints_of (body := yulLiteral j) (by simp [layout, h]) ?_
    refine c_onStr h2 ?_
    exact (c_onStr h1 ((c_string hp).mono)).cast (by simp [YulExpr.toks])
  | .call f args, j, h, hp => by
    simp only [ShowsYulExpr] at h
    simp only [YulExpr.Plain] at hp
    obtain ⟨h, ⟨v, h1, h2, h3⟩, js, h4, h5⟩ := h
    unfold IsA at h
    have hf := p_yulName (m := m) (s := s) (p := [f]) h2 (by simpa [dotted] using h3) ⟨by simp, by simpa using hp.1⟩
    have ha : PC m (arguments s j) (yulArgs args) .expr .any := by
      rw [yulArgs_sepBy]
      exact c_onArray h4 (c_array (p_yulExprs args js h5 hp.2))
    refine prints_of (body := field s "functionName" j ++ tok "(" ++ arguments s j ++ tok ")") (by simp [layout, h]) ?_
    exact ((c_field h1 hf +++ c_open +++ ha +++ c_close).mono).cast (by simp [YulExpr.toks, pathToks, sepBy])
theorem p_yulExprs : (es : List YulExpr) → (js : List Json) → ShowYulExprs es js → yulArgsPlain es →
    Pairwise₂ (fun ts x => Prints m s x ts .expr) (es.map YulExpr.toks) js
  | [], [], _, _ => trivial
  | [], _ :: _, h, _ => by simp [ShowYulExprs] at h
  | _ :: _, [], h, _ => by simp [ShowYulExprs] at h
  | e :: es, j :: js, h, hp => by
    simp only [ShowYulExprs] at h
    simp only [yulArgsPlain] at hp
    exact ⟨p_yulExpr e j h.1 hp.1, p_yulExprs es js h.2 hp.2⟩
end

/-! ### Statements -/

theorem yulToks_flatten : (ss : List YulStmt) → yulToks ss = (ss.map YulStmt.toks).flatten
  | [] => by simp [yulToks]
  | s :: ss => by simp [yulToks, yulToks_flatten ss]

theorem c_yulNames {ns : List String} {js : List Json} (h : Pairwise₂ ShowsYulName ns js) (hp : ∀ n ∈ ns, isName n = true) :
    PC m (array s js) (namesToks ns) .name .any := by
  refine c_array (pairwise_map ns js h fun n hn j hj => ?_)
  obtain ⟨h1, h2⟩ := hj
  unfold IsA at h1
  exact prints_of (body := strTok "name" j) (by simp [layout, h1]) (c_strTok h2 (hp n hn))

theorem pieces_str {s : PrintSettings} (t : String) : pieces (layout s) (.str t) = [] := by
  rw [pieces_eq]
  rfl

theorem pieces_strs {s : PrintSettings} : (l : List (String × Json)) → (∀ kv ∈ l, ∃ t, kv.2 = .str t) →
    (l.map Prod.snd).flatMap (pieces (layout s)) = []
  | [], _ => rfl
  | kv :: l, h => by
    obtain ⟨t, ht⟩ := h kv (List.mem_cons_self ..)
    rw [List.map_cons, List.flatMap_cons, ht, pieces_str, pieces_strs l fun x hx => h x (List.mem_cons_of_mem _ hx)]
    rfl

theorem printOps_only {checks : Bool} {before after : List (String × Json)} {key : String} {v : Json}
    (h : layout s (.obj (before ++ (key, v) :: after)) = { visitChildren := true })
    (hs : ∀ kv ∈ before ++ after, ∃ t, kv.2 = .str t) :
    printOps checks s (.obj (before ++ (key, v) :: after)) = printOps checks s v := by
  unfold printOps
  rw [ops_eq good_layout, ops_eq good_layout, pieces_eq, h]
  simp only [around, Json.children, List.map_append, List.map_cons, List.flatMap_append, List.flatMap_cons, if_true]
  rw [pieces_strs before fun kv hkv => hs kv (List.mem_append_left _ hkv),
    pieces_strs after fun kv hkv => hs kv (List.mem_append_right _ hkv)]
  simp

mutual
theorem p_yul (m : Mode) : (st : YulStmt) → (s : PrintSettings) → (j : Json) → ShowsYul st j → st.Plain → Prints m s j st.toks .expr
  | .expr e, s, j, h, hp => by
    simp only [ShowsYul] at h
    simp only [YulStmt.Plain] at hp
    obtain ⟨h, before, v, after, rfl, h1, h2⟩ := h
    unfold IsA at h
    unfold Prints
    rw [printOps_only (by simp [layout, h]) h2, YulStmt.toks]
    exact p_yulExpr e v h1 hp
  | .let_ vs value, s, j, h, hp => by
    simp only [YulStmt.Plain] at hp
    obtain ⟨hvs, e, rfl, he⟩ := hp
    simp only [ShowsYul] at h
    obtain ⟨h, ⟨js, h1, h2⟩, v, h3, h4⟩ := h
    unfold IsA at h
    refine prints_of (body := yulVariableDeclaration s j) (by simp [layout, h]) ?_
    have c1 := c_onArray (f := fun xs => array s xs ++ sp) h1 (c_yulNames (m := m) (s := s) h2 hvs +++ c_sp)
    have := c_name (m := m) (t := "let") (by decide) +++ c_sp +++ c1 +++ c_word (t := ":=") +++ c_sp +++ c_field (s := s) h3 (p_yulExpr e v h4 he)
    exact this.cast (by simp [YulStmt.toks])
  | .assign vs e, s, j, h, hp => by
    simp only [YulStmt.Plain] at hp
    simp only [ShowsYul] at h
    obtain ⟨h, ⟨js, h1, h2⟩, v, h3, h4⟩ := h
    unfold IsA at h
    refine prints_of (body := yulAssignment s j) (by simp [layout, h]) ?_
    have c0 : PC m (array s js) (sepBy "," (vs.map pathToks)) .name .any :=
      c_array (pairwise_map vs js h2 fun p hq x hx => by
        simp only [ShowsYulExpr] at hx
        exact p_yulName hx.1 hx.2 (hp.1 p hq))
    have c1 := c_onArray (f := fun xs => array s xs ++ sp) h1 (c0 +++ c_sp)
    have := c1 +++ c_word (t := ":=") +++ c_sp +++ c_field (s := s) h3 (p_yulExpr e v h4 hp.2)
    exact this.cast (by simp [YulStmt.toks])
  | .block ss, s, j, h, hp => by
    simp only [YulStmt.Plain] at hp
    simp only [ShowsYul] at h
    obtain ⟨h, js, h1, h2⟩ := h
    have := p_braces (Or.inr h) h1 (p_yuls m ss s js h2 hp)
    rw [YulStmt.toks, yulToks_flatten]
    exact Chunk.mono this
  | .if_ c ss, s, j, h, hp => by
    simp only [YulStmt.Plain] at hp
    simp only [ShowsYul] at h
    obtain ⟨h, ⟨x, h1, h2⟩, v, h3, h4, js, h5, h6⟩ := h
    have hb := p_braces (Or.inr h4) h5 (p_yuls m ss s js h6 hp.2)
    unfold IsA at h
    refine prints_of (body := tok "if" ++ sp ++ field s "condition" j ++ onField "body" j fun b => sp ++ [.sub s b]) (by simp [layout, h]) ?_
    have := c_name (m := m) (t := "if") (by decide) +++ c_sp +++ c_field (s := s) h1 (p_yulExpr c x h2 hp.1) +++
      c_onField (f := fun b => sp ++ [.sub s b]) h3 (c_sp +++ c_sub hb)
    exact (this.mono).cast (by simp [YulStmt.toks, yulToks_flatten])
  | .switch e cs, s, j, h, hp => by
    simp only [YulStmt.Plain] at hp
    simp only [ShowsYul] at h
    obtain ⟨h, ⟨x, h1, h2⟩, js, h3, h4⟩ := h
    have hb := p_yuls m cs s js h4 hp.2
    unfold IsA at h
    refine prints_of (body := yulSwitch s j) (by simp [layout, h]) ?_
    have c0 : PC m (js.flatMap fun v => nl ++ ind ++ [.sub s v]) (cs.map YulStmt.toks).flatten .expr .expr := by
      have key : ∀ (tss : List (List String)) (js : List Json), Pairwise₂ (fun ts x => Prints m s x ts .expr) tss js →
          PC m (js.flatMap fun v => nl ++ ind ++ [.sub s v]) tss.flatten .expr .expr := by
        intro tss
        induction tss with
        | nil =>
          intro js h
          cases js with
          | nil => exact c_nil
          | cons => simp [Pairwise₂] at h
        | cons ts tss ih =>
          intro js h
          cases js with
          | nil => simp [Pairwise₂] at h
          | cons j js =>
            rw [List.flatMap_cons]
            exact ((c_nl +++ c_ind +++ c_sub h.1 +++ ih js h.2).mono).cast (by simp)
      exact key _ _ hb
    have c1 : PC m (onSome (j.getArrayForKey "cases") fun xs => when (!xs.isEmpty)
        (inc ++ (xs.flatMap fun v => nl ++ ind ++ [.sub s v]) ++ dec)) (yulToks cs) .expr .any := by
      rw [h3, yulToks_flatten]
      simp only [onSome]
      cases js with
      | nil =>
        cases cs with
        | nil => exact c_nil
        | cons => simp [ShowYuls] at h4
      | cons k ks =>
        simp only [List.isEmpty_cons, Bool.not_false, when, if_true]
        exact (c_inc +++ c0 +++ c_decExpr).cast (by simp)
    have := c_name (m := m) (t := "switch") (by decide) +++ c_sp +++
      c_onField (f := fun e => [.sub s e] ++ sp) h1 (c_sub (p_yulExpr e x h2 hp.1) +++ c_sp) +++ c1
    exact this.cast (by simp [YulStmt.toks])
  | .case_ none ss, s, j, h, hp => by
    simp only [YulStmt.Plain] at hp
    simp only [ShowsYul] at h
    obtain ⟨h, h1, v, h3, h4, js, h5, h6⟩ := h
    have hb := p_braces (Or.inr h4) h5 (p_yuls m ss s js h6 hp.2)
    unfold IsA at h
    refine prints_of (body := yulCase s j) (by simp [layout, h]) ?_
    have c1 := c_onField (m := m) (f := fun v => match v with
      | .obj kvs => tok "case" ++ sp ++ [.sub s (.obj kvs)] ++ sp
      | .str t => when (t = "default") (tok t ++ sp)
      | _ => []) h1 (c_name (t := "default") (by decide) +++ c_sp)
    exact ((c1 +++ c_field h3 hb).mono).cast (by simp [YulStmt.toks, yulToks_flatten])
  | .case_ (some e) ss, s, j, h, hp => by
    simp only [YulStmt.Plain] at hp
    simp only [ShowsYul] at h
    obtain ⟨h, ⟨kvs, h1, h2⟩, v, h3, h4, js, h5, h6⟩ := h
    have hb := p_braces (Or.inr h4) h5 (p_yuls m ss s js h6 hp.2)
    unfold IsA at h
    refine prints_of (body := yulCase s j) (by simp [layout, h]) ?_
    have c1 := c_onField (m := m) (f := fun v => match v with
      | .obj kvs => tok "case" ++ sp ++ [.sub s (.obj kvs)] ++ sp
      | .str t => when (t = "default") (tok t ++ sp)
      | _ => []) h1 (c_name (t := "case") (by decide) +++ c_sp +++ c_sub (p_yulExpr (s := s) e _ h2 (hp.1 e rfl)) +++ c_sp)
    exact ((c1 +++ c_field h3 hb).mono).cast (by simp [YulStmt.toks, yulToks_flatten])
  | .for_ pre c post body, s, j, h, hp => by
    simp only [YulStmt.Plain] at hp
    simp only [ShowsYul] at h
    obtain ⟨h, ⟨x1, a1, a2, a3, a4, a5⟩, ⟨x2, b1, b2⟩, ⟨x3, d1, d2, d3, d4, d5⟩, x4, e1, e2, e3, e4, e5⟩ := h
    have hpre := p_braces (Or.inr a2) a4 (p_yuls m pre { s with sameLine := true } a3 a5 hp.1)
    have hpost := p_braces (Or.inr d2) d4 (p_yuls m post { s with sameLine := true } d3 d5 hp.2.2.1)
    have hbody := p_braces (Or.inr e2) e4 (p_yuls m body s e3 e5 hp.2.2.2)
    unfold IsA at h
    refine prints_of (body := yulFor s j) (by simp [layout, h]) ?_
    have c1 := c_onField (m := m) (f := fun n => nl ++ ind ++ [.sub { s with sameLine := true } n]) a1 (c_nl +++ c_ind +++ c_sub hpre)
    have c2 := c_onField (m := m) (f := fun n => nl ++ ind ++ [.sub s n]) b1 (c_nl +++ c_ind +++ c_sub (p_yulExpr (s := s) c x2 b2 hp.2.1))
    have c3 := c_onField (m := m) (f := fun n => nl ++ ind ++ [.sub { s with sameLine := true } n]) d1 (c_nl +++ c_ind +++ c_sub hpost)
    have c4 : PC m inc [] .blank .blank := chunk_incr
    have := c_name (m := m) (t := "for") (by decide) +++ (c4 +++ (c1 +++ c2 +++ c3) +++ c_dec) +++ c_nl +++ c_ind +++ c_field e1 hbody
    exact (this.mono).cast (by simp [YulStmt.toks, yulToks_flatten])
  | .function n ps rs ss, s, j, h, hp => by
    simp only [YulStmt.Plain] at hp
    simp only [ShowsYul] at h
    obtain ⟨hn, hps, hl, hrs, hss⟩ := hp
    obtain ⟨h, h1, h2, h3, v, h4, h5, js, h6, h7⟩ := h
    have hb := p_braces (Or.inr h5) h6 (p_yuls m ss s js h7 hss)
    unfold IsA at h
    refine prints_of (body := yulFunction s j) (by simp [layout, h]) ?_
    have c1 : PC m (onSome (j.getArrayForKey "parameters") (array s)) (namesToks ps) .name .any := by
      cases ps with
      | nil =>
        simp only at h2
        rcases h2 with h2 | h2 <;> rw [h2] <;> exact c_nil
      | cons p ps =>
        obtain ⟨ks, h2, h8⟩ := h2
        rw [h2]
        exact c_yulNames h8 hps
    have c2 : PC m (onSome (j.getArrayForKey "returnVariables") fun xs => when (!xs.isEmpty)
        (tok "->" ++ sp ++ when (decide (1 < xs.length)) (tok "(") ++ array s xs ++
          when (decide (1 < xs.length)) (tok ")") ++ sp)) (yulReturns rs) .any .any := by
      match rs, h3, hl, hrs with
      | [], h3, _, _ => rcases h3 with h3 | h3 <;> rw [h3] <;> exact c_nil
      | [r], h3, _, hrs =>
        obtain ⟨ks, h3, h8⟩ := h3
        rw [h3]
        match ks, h8 with
        | [k], h8 =>
          have c3 := c_yulNames (m := m) (s := s) h8 hrs
          have := c_word (m := m) (t := "->") +++ c_sp +++ c_nil (q := .any) (p := .any) +++ c3 +++ c_nil (q := .name) (p := .name) +++ c_sp
          exact this.cast (by simp [yulReturns])
        | [], h8 => simp [Pairwise₂] at h8
        | _ :: _ :: _, h8 => simp [Pairwise₂] at h8
      | _ :: _ :: _, _, hl, _ => simp at hl
    have := c_name (m := m) (t := "function") (by decide) +++ c_sp +++ c_strTok h1 hn +++ c_open +++ c1 +++ c_close +++ c_sp +++ c2 +++ c_field h4 hb
    exact (this.mono).cast (by simp [YulStmt.toks, yulToks_flatten])
  | .break_, s, j, h, _ => by
    simp only [ShowsYul, IsA] at h
    exact prints_of (body := tok "break") (by simp [layout, h]) ((c_name (by decide)).mono)
  | .continue_, s, j, h, _ => by
    simp only [ShowsYul, IsA] at h
    exact prints_of (body := tok "continue") (by simp [layout, h]) ((c_name (by decide)).mono)
  | .leave, s, j, h, _ => by
    simp only [ShowsYul, IsA] at h
    exact prints_of (body := tok "leave") (by simp [layout, h]) ((c_name (by decide)).mono)
theorem p_yuls (m : Mode) : (ss : List YulStmt) → (s : PrintSettings) → (js : List Json) → ShowYuls ss js → yulPlain ss →
    Pairwise₂ (fun ts x => Prints m s x ts .expr) (ss.map YulStmt.toks) js
  | [], _, [], _, _ => trivial
  | [], _, _ :: _, h, _ => by simp [ShowYuls] at h
  | _ :: _, _, [], h, _ => by simp [ShowYuls] at h
  | st :: ss, s, j :: js, h, hp => by
    simp only [ShowYuls] at h
    simp only [yulPlain] at hp
    exact ⟨p_yul m st s j h.1 hp.1, p_yuls m ss s js h.2 hp.2⟩
end

end SolPrint
end Mutagenyx
