import Verif.Proofs.SolidityReadStmt

/-!
# Reading the tokens of Solidity functions, contracts and files gives them
-/

namespace Mutagenyx
namespace SolGrammar

/-! ### Parts of statements -/

theorem conditionAt_toks {c : Expr} (h : Plain c) (rest : List String) : conditionAt ("(" :: (strE c ++ ")" :: rest)) = some (c, rest) := by
  simp [conditionAt, exprAt_toks h (stop_cons (t := ")") (by simp) rest)]

theorem exprEnd_toks {e : Expr} (h : Plain e) (rest : List String) : exprEnd (strE e ++ ";" :: rest) = some (e, rest) := by
  simp [exprEnd, exprAt_toks h (stop_semicolon rest)]

theorem stepAt_toks {s : Option Expr} (h : ∀ e, s = some e → Plain e) (rest : List String) :
    stepAt ((s.map strE).getD [] ++ ")" :: rest) = some (s, rest) := by
  cases s with
  | none => simp [stepAt]
  | some e =>
    obtain ⟨t, ts, hts, ht, _⟩ := strE_cons e (h e rfl)
    simp only [Option.map_some, Option.getD_some]
    rw [stepAt, if_neg (by rw [hts]; simpa using ht), exprAt_toks (h e rfl) (stop_cons (by simp) rest)]
    simp

theorem flagsAt_toks (fs : List String) (rest : List String) : flagsAt (flagsToks fs ++ "{" :: rest) = some (fs, "{" :: rest) := by
  cases fs with
  | nil => simp [flagsToks, flagsAt]
  | cons f fs =>
    have hl := sepBy_length "," ((f :: fs).map fun f => [quoted f])
    have hc := commas_toks (p := literalAt) (fun f => [quoted f]) (rest := ")" :: "{" :: rest) (by simp) (f :: fs) (by simp)
      (fun x _ r _ => literalAt_quoted x r) ("(" :: (sepBy "," ((f :: fs).map fun f => [quoted f]) ++ ")" :: "{" :: rest)).length (by
        simp only [List.length_map] at hl
        simp only [List.length_append, List.length_cons] at hl ⊢
        omega)
    simp only [flagsToks, List.cons_append, List.append_assoc, List.nil_append]
    rw [flagsAt, if_pos (by rfl), List.tail_cons, hc]
    simp

theorem clauseParamsAt_toks {ps : Option (List Var)} (h : ∀ vs, ps = some vs → ∀ v ∈ vs, v.Clear) (rest : List String) :
    clauseParamsAt (clauseParams ps ++ "{" :: rest) = some (ps, "{" :: rest) := by
  cases ps with
  | none => simp [clauseParams, clauseParamsAt]
  | some vs =>
    have := paramsAt_toks (h vs rfl) ("{" :: rest)
    simp only [clauseParams]
    rw [clauseParamsAt, if_pos (by simp [paramsToks]), this]
    rfl

theorem clause_heads (ps : Option (List Var)) (rest : List String) : Heads (fun t => ¬ FreeName t) (clauseParams ps ++ "{" :: rest) := by
  cases ps with
  | none => exact heads_cons fun h => absurd h.1 (by decide)
  | some vs => exact heads_cons fun h => absurd h.1 (by decide)

/-! ### Statements -/

/-- What a statement begins with. -/
theorem simple_cons {s : Stmt} (h : SimpleClear s) : ∃ t ts, s.toks = t :: ts ∧ t ∉ statementWords ∧ (t = "revert" → ts.head? = some "(") ∧
    (t ≠ "_" ∨ ts.head? ≠ some ";") := by
  cases s with
  | expr e =>
    obtain ⟨hp, h1, h2, h3, h4⟩ := h
    obtain ⟨t, ts, hts, _⟩ := strE_cons e hp
    rw [hts] at h1 h3 h4
    refine ⟨t, ts ++ [";"], by rw [Stmt.toks, hts, List.cons_append], h1 t rfl, fun ht => ?_, Or.inl fun ht => h4 (by rw [ht]; rfl)⟩
    have := h3 (by rw [ht]; rfl)
    cases ts with
    | nil => simp at this
    | cons u us => simpa using this
  | decl vs value =>
    obtain ⟨_, hvs, hne⟩ := h
    by_cases hone : ∃ v, vs = [some v]
    · obtain ⟨v, rfl⟩ := hone
      have hl := hvs v (List.mem_cons_self ..)
      obtain ⟨w, us, hw, hn, hu⟩ := local_word hl
      obtain ⟨t, ts, hts, ht⟩ := ty_cons v.type hl.1.type
      refine ⟨t, ts ++ (w :: us ++ (valueToks value ++ [";"])), by simp [Stmt.toks, declToks, hw, hts], fun hm => ?_, ?_, ?_⟩
      · rcases ht with ht | rfl | rfl
        · exact ht.2 ((by decide : ∀ t ∈ statementWords, t ∈ reserved) t hm)
        · exact absurd hm (by decide)
        · exact absurd hm (by decide)
      · rintro rfl
        exact absurd ht (by unfold FreeName; decide)
      · left
        rintro rfl
        exact absurd ht (by unfold FreeName; decide)
    · have hm := declToks_many fun v hv => hone ⟨v, hv⟩
      exact ⟨"(", _, by rw [Stmt.toks, hm, List.cons_append], by decide, fun h => absurd h (by decide), Or.inl (by decide)⟩
  | _ => exact absurd h (by simp [SimpleClear])

theorem readStmt_simple {s : Stmt} (h : SimpleClear s) {n : Nat} (hn : 1 ≤ n) (rest : List String) :
    readStmt n (s.toks ++ rest) = some (s, rest) := by
  obtain ⟨n, rfl⟩ : ∃ m, n = m + 1 := ⟨n - 1, by omega⟩
  have h0 := simpleAt_toks h rest
  obtain ⟨t, ts, hts, h1, h2, h3⟩ := simple_cons h
  have hlen : ts ≠ [] := by
    rintro rfl
    cases s with
    | expr e =>
      obtain ⟨u, us, hus, _⟩ := strE_cons e h.1
      rw [Stmt.toks, hus] at hts
      simp at hts
    | decl vs value =>
      have : ";" ∈ (Stmt.decl vs value).toks := by simp [Stmt.toks]
      rw [hts, List.mem_singleton] at this
      subst this
      have h4 := congrArg List.length hts
      simp only [Stmt.toks, List.length_append, List.length_cons, List.length_nil] at h4
      have h5 : (declToks vs).length = 0 := by omega
      obtain ⟨v, hv⟩ := h.2.2
      by_cases hone : ∃ v, vs = [some v]
      · obtain ⟨v, rfl⟩ := hone
        obtain ⟨u, us, hus, _⟩ := var_cons (h.2.1 v (List.mem_cons_self ..)).1
        rw [declToks, hus] at h5
        simp at h5
      · rw [declToks_many fun v hv => hone ⟨v, hv⟩] at h5
        simp at h5
    | _ => exact absurd h (by simp [SimpleClear])
  have hhead : (ts ++ rest).head? = ts.head? := by
    cases ts with
    | nil => exact absurd rfl hlen
    | cons => rfl
  have hne : ∀ w ∈ statementWords, t ≠ w := fun w hw ht => h1 (ht ▸ hw)
  rw [hts, List.cons_append] at h0 ⊢
  rw [readStmt, if_neg (hne _ (by decide)), if_neg (hne _ (by decide)), if_neg (hne _ (by decide)), if_neg (hne _ (by decide)),
    if_neg (hne _ (by decide)), if_neg (hne _ (by decide)), if_neg (hne _ (by decide)), if_neg (hne _ (by decide)),
    if_neg (by rintro ⟨ha, hb⟩; exact hb (by rw [hhead]; exact h2 ha)), if_neg (hne _ (by decide)), if_neg (hne _ (by decide)),
    if_neg (by rintro ⟨ha, hb⟩; rw [hhead] at hb; exact h3.elim (fun h3 => h3 ha) (fun h3 => h3 hb)), if_neg (hne _ (by decide)),
    if_neg (hne _ (by decide)), h0]

/-- What may follow a statement that an `else` may belong to or not. -/
def After (o : Bool) (t : String) : Prop := t ≠ "catch" ∧ (o = true → t ≠ "else")

theorem stmt_cons : (s : Stmt) → s.Clear → ∃ t ts, s.toks = t :: ts ∧ t ≠ "}" ∧ t ≠ "else" ∧ t ≠ "catch"
  | .expr e, h => by
    obtain ⟨t, ts, hts, h1, _⟩ := simple_cons h
    exact ⟨t, ts, hts, by rintro rfl; exact h1 (by decide), by rintro rfl; exact h1 (by decide), by rintro rfl; exact h1 (by decide)⟩
  | .decl vs value, h => by
    obtain ⟨t, ts, hts, h1, _⟩ := simple_cons h
    exact ⟨t, ts, hts, by rintro rfl; exact h1 (by decide), by rintro rfl; exact h1 (by decide), by rintro rfl; exact h1 (by decide)⟩
  | .block _, _ => ⟨_, _, rfl, by decide⟩
  | .unchecked _, _ => ⟨_, _, rfl, by decide⟩
  | .if_ _ _, _ => ⟨_, _, rfl, by decide⟩
  | .ifElse _ _ _, _ => ⟨_, _, rfl, by decide⟩
  | .while_ _ _, _ => ⟨_, _, rfl, by decide⟩
  | .doWhile _ _, _ => ⟨_, _, rfl, by decide⟩
  | .for_ _ _ _ _, _ => ⟨_, _, rfl, by decide⟩
  | .return_ none, _ => ⟨_, _, rfl, by decide⟩
  | .return_ (some _), _ => ⟨_, _, rfl, by decide⟩
  | .emit _, _ => ⟨_, _, rfl, by decide⟩
  | .revert _, _ => ⟨_, _, rfl, by decide⟩
  | .break_, _ => ⟨_, _, rfl, by decide⟩
  | .continue_, _ => ⟨_, _, rfl, by decide⟩
  | .placeholder, _ => ⟨_, _, rfl, by decide⟩
  | .try_ _ _ _ _, _ => ⟨_, _, rfl, by decide⟩
  | .clause _ _ _, h => h.elim
  | .assembly _ _, _ => ⟨_, _, rfl, by decide⟩
  | .comment _, h => h.elim

theorem strE_ne {e : Expr} (h : Plain e) {rest : List String} : (strE e ++ rest).head? ≠ some ";" := by
  obtain ⟨t, ts, hts, _⟩ := strE_cons e h
  have := exprAt_toks h stop_nil
  rw [List.append_nil, hts, exprAt, List.length_cons, show 4 * (ts.length + 1) + 4 = (4 * ts.length + 6) + 1 + 1 by omega, readExpr,
    readPrefix.eq_def] at this
  rw [hts]
  intro hx
  simp only [List.cons_append, List.head?_cons, Option.some.injEq] at hx
  subst hx
  simp [show prefix? ";" = none by decide, show isLeaf ";" = false by decide, show literal? ";" = none by decide] at this

mutual
theorem reads_stmt : (s : Stmt) → s.Clear → (n : Nat) → (rest : List String) → s.toks.length ≤ n → Heads (After s.open_) rest →
    readStmt n (s.toks ++ rest) = some (s, rest)
  | .expr e, h, n, rest, hn, _ => readStmt_simple h (by simp only [Stmt.toks, List.length_append, List.length_cons] at hn; omega) rest
  | .decl vs value, h, n, rest, hn, _ =>
    readStmt_simple h (by simp only [Stmt.toks, List.length_append, List.length_cons] at hn; omega) rest
  | .block ss, h, n, rest, hn, _ => by
    simp only [Stmt.toks, List.length_cons, List.length_append, List.length_nil] at hn
    obtain ⟨n, rfl⟩ : ∃ m, n = m + 1 := ⟨n - 1, by omega⟩
    simp only [Stmt.toks, List.cons_append, List.append_assoc, List.nil_append]
    rw [readStmt, if_pos rfl, reads_stmts ss h n rest (by omega)]
    rfl
  | .unchecked ss, h, n, rest, hn, _ => by
    simp only [Stmt.toks, List.length_cons, List.length_append, List.length_nil] at hn
    obtain ⟨n, rfl⟩ : ∃ m, n = m + 1 := ⟨n - 1, by omega⟩
    simp only [Stmt.toks, List.cons_append, List.append_assoc, List.nil_append]
    rw [readStmt, if_neg (by decide), if_pos rfl]
    simp [reads_stmts ss h n rest (by omega)]
  | .if_ c t, h, n, rest, hn, hr => by
    simp only [Stmt.toks, List.length_cons, List.length_append] at hn
    obtain ⟨n, rfl⟩ : ∃ m, n = m + 1 := ⟨n - 1, by omega⟩
    have he : rest.head? ≠ some "else" := (hr.imp (Q := (· ≠ "else")) fun _ h => h.2 rfl).head_ne
    simp only [Stmt.toks, List.cons_append, List.append_assoc]
    rw [readStmt, if_neg (by decide), if_neg (by decide), if_pos rfl, conditionAt_toks h.1]
    simp [reads_stmt t h.2 n rest (by omega) (hr.imp fun _ h => ⟨h.1, fun _ => h.2 rfl⟩), he]
  | .ifElse c t f, h, n, rest, hn, hr => by
    simp only [Stmt.toks, List.length_cons, List.length_append] at hn
    obtain ⟨n, rfl⟩ : ∃ m, n = m + 1 := ⟨n - 1, by omega⟩
    simp only [Stmt.toks, List.cons_append, List.append_assoc]
    rw [readStmt, if_neg (by decide), if_neg (by decide), if_pos rfl, conditionAt_toks h.1]
    simp [reads_stmt t h.2.1 n ("else" :: (f.toks ++ rest)) (by omega) (heads_cons ⟨by decide, by rw [h.2.2.1]; decide⟩),
      reads_stmt f h.2.2.2 n rest (by omega) hr]
  | .while_ c b, h, n, rest, hn, hr => by
    simp only [Stmt.toks, List.length_cons, List.length_append] at hn
    obtain ⟨n, rfl⟩ : ∃ m, n = m + 1 := ⟨n - 1, by omega⟩
    simp only [Stmt.toks, List.cons_append, List.append_assoc]
    rw [readStmt, if_neg (by decide), if_neg (by decide), if_neg (by decide), if_pos rfl, conditionAt_toks h.1]
    simp [reads_stmt b h.2 n rest (by omega) hr]
  | .doWhile b c, h, n, rest, hn, hr => by
    simp only [Stmt.toks, List.length_cons, List.length_append, List.length_nil] at hn
    obtain ⟨n, rfl⟩ : ∃ m, n = m + 1 := ⟨n - 1, by omega⟩
    simp only [Stmt.toks, List.cons_append, List.append_assoc, List.nil_append]
    rw [readStmt, if_neg (by decide), if_neg (by decide), if_neg (by decide), if_neg (by decide), if_pos rfl,
      reads_stmt b h.2 n _ (by omega) (heads_cons ⟨by decide, fun _ => by decide⟩)]
    simp [conditionAt_toks h.1]
  | .for_ i c s b, h, n, rest, hn, hr => by
    simp only [Stmt.toks, List.length_cons, List.length_append] at hn
    obtain ⟨n, rfl⟩ : ∃ m, n = m + 1 := ⟨n - 1, by omega⟩
    simp only [Stmt.toks, List.cons_append, List.append_assoc]
    rw [readStmt, if_neg (by decide), if_neg (by decide), if_neg (by decide), if_neg (by decide), if_neg (by decide), if_pos rfl]
    simp [simpleAt_toks h.1, exprEnd_toks h.2.1, stepAt_toks h.2.2.1, reads_stmt b h.2.2.2 n rest (by omega) hr]
  | .return_ none, h, n, rest, hn, hr => by
    simp only [Stmt.toks, List.length_cons] at hn
    obtain ⟨n, rfl⟩ : ∃ m, n = m + 1 := ⟨n - 1, by omega⟩
    simp [Stmt.toks, readStmt]
  | .return_ (some e), h, n, rest, hn, hr => by
    simp only [Stmt.toks, List.length_cons] at hn
    obtain ⟨n, rfl⟩ : ∃ m, n = m + 1 := ⟨n - 1, by omega⟩
    simp only [Stmt.toks, List.cons_append, List.append_assoc, List.nil_append]
    rw [readStmt, if_neg (by decide), if_neg (by decide), if_neg (by decide), if_neg (by decide), if_neg (by decide), if_neg (by decide),
      if_pos rfl, if_neg (strE_ne (h e rfl)), exprEnd_toks (h e rfl)]
    rfl
  | .emit e, h, n, rest, hn, hr => by
    simp only [Stmt.toks, List.length_cons] at hn
    obtain ⟨n, rfl⟩ : ∃ m, n = m + 1 := ⟨n - 1, by omega⟩
    simp only [Stmt.toks, List.cons_append, List.append_assoc, List.nil_append]
    rw [readStmt, if_neg (by decide), if_neg (by decide), if_neg (by decide), if_neg (by decide), if_neg (by decide), if_neg (by decide),
      if_neg (by decide), if_pos rfl, exprEnd_toks h]
    rfl
  | .revert e, h, n, rest, hn, hr => by
    simp only [Stmt.toks, List.length_cons] at hn
    obtain ⟨n, rfl⟩ : ∃ m, n = m + 1 := ⟨n - 1, by omega⟩
    obtain ⟨t, ts, hts, _⟩ := strE_cons e h.1
    have hd : (strE e ++ ";" :: rest).head? ≠ some "(" := by
      have := h.2
      rw [hts] at this ⊢
      simpa using this
    simp only [Stmt.toks, List.cons_append, List.append_assoc, List.nil_append]
    rw [readStmt, if_neg (by decide), if_neg (by decide), if_neg (by decide), if_neg (by decide), if_neg (by decide), if_neg (by decide),
      if_neg (by decide), if_neg (by decide), if_pos ⟨rfl, hd⟩, exprEnd_toks h.1]
    rfl
  | .break_, h, n, rest, hn, hr => by
    simp only [Stmt.toks, List.length_cons] at hn
    obtain ⟨n, rfl⟩ : ∃ m, n = m + 1 := ⟨n - 1, by omega⟩
    simp [Stmt.toks, readStmt]
  | .continue_, h, n, rest, hn, hr => by
    simp only [Stmt.toks, List.length_cons] at hn
    obtain ⟨n, rfl⟩ : ∃ m, n = m + 1 := ⟨n - 1, by omega⟩
    simp [Stmt.toks, readStmt]
  | .placeholder, h, n, rest, hn, hr => by
    simp only [Stmt.toks, List.length_cons] at hn
    obtain ⟨n, rfl⟩ : ∃ m, n = m + 1 := ⟨n - 1, by omega⟩
    simp [Stmt.toks, readStmt]
  | .try_ e rs b cs, h, n, rest, hn, hr => by
    simp only [Stmt.toks, List.length_cons, List.length_append] at hn
    obtain ⟨n, rfl⟩ : ∃ m, n = m + 1 := ⟨n - 1, by omega⟩
    obtain ⟨he, hne, hrs, hb, hcs⟩ := h
    have hstop : Stop 0 (returnsToks rs ++ "{" :: (stmtsToks b ++ "}" :: (catchToks cs ++ rest))) := by
      cases rs with
      | nil => exact absurd rfl hne
      | cons r rs => exact stop_name (by decide) (by decide) _
    simp only [Stmt.toks, List.cons_append, List.append_assoc]
    rw [readStmt, if_neg (by decide), if_neg (by decide), if_neg (by decide), if_neg (by decide), if_neg (by decide), if_neg (by decide),
      if_neg (by decide), if_neg (by decide), if_neg (fun h => absurd h.1 (by decide)), if_neg (by decide), if_neg (by decide),
      if_neg (fun h => absurd h.1 (by decide)), if_pos rfl, exprAt_toks he hstop]
    simp [returnsAt_toks hrs (heads_cons (P := (· ≠ "returns")) (t := "{") (by decide)), reads_stmts b hb n _ (by omega),
      reads_clauses cs hcs n rest (by omega) (hr.imp fun _ h => h.1)]
  | .clause _ _ _, h, _, _, _, _ => h.elim
  | .assembly fs ss, h, n, rest, hn, hr => by
    simp only [Stmt.toks, List.length_cons, List.length_append, List.length_nil] at hn
    obtain ⟨n, rfl⟩ : ∃ m, n = m + 1 := ⟨n - 1, by omega⟩
    simp only [Stmt.toks, List.cons_append, List.append_assoc, List.nil_append]
    rw [readStmt, if_neg (by decide), if_neg (by decide), if_neg (by decide), if_neg (by decide), if_neg (by decide), if_neg (by decide),
      if_neg (by decide), if_neg (by decide), if_neg (fun h => absurd h.1 (by decide)), if_neg (by decide), if_neg (by decide),
      if_neg (fun h => absurd h.1 (by decide)), if_neg (by decide), if_pos rfl, flagsAt_toks]
    simp [reads_yuls ss h n rest (by omega)]
  | .comment _, h, _, _, _, _ => h.elim
theorem reads_stmts : (ss : List Stmt) → stmtsClear ss → (n : Nat) → (rest : List String) → (stmtsToks ss).length + 1 ≤ n →
    readStmts n (stmtsToks ss ++ "}" :: rest) = some (ss, rest)
  | [], _, n, rest, hn => by
    obtain ⟨n, rfl⟩ : ∃ m, n = m + 1 := ⟨n - 1, by omega⟩
    simp [stmtsToks, readStmts]
  | s :: ss, h, n, rest, hn => by
    obtain ⟨n, rfl⟩ : ∃ m, n = m + 1 := ⟨n - 1, by omega⟩
    obtain ⟨t, ts, hts, ht, _⟩ := stmt_cons s h.1
    have hl : 1 ≤ s.toks.length := by rw [hts]; simp
    simp only [stmtsToks, List.length_append] at hn
    have hh : Heads (After s.open_) (stmtsToks ss ++ "}" :: rest) := by
      cases ss with
      | nil => exact heads_cons ⟨by decide, fun _ => by decide⟩
      | cons s' ss' =>
        obtain ⟨t', ts', hts', _, he, hc⟩ := stmt_cons s' h.2.1
        rw [stmtsToks, hts']
        exact heads_cons ⟨hc, fun _ => he⟩
    simp only [stmtsToks, List.append_assoc]
    rw [readStmts, if_neg (by rw [hts]; simpa using ht), reads_stmt s h.1 n _ (by omega) hh]
    simp [reads_stmts ss h.2 n rest (by omega)]
theorem reads_clauses : (cs : List Stmt) → clausesClear cs → (n : Nat) → (rest : List String) → (catchToks cs).length + 1 ≤ n →
    Heads (· ≠ "catch") rest → readClauses n (catchToks cs ++ rest) = some (cs, rest)
  | [], _, n, rest, hn, hr => by
    obtain ⟨n, rfl⟩ : ∃ m, n = m + 1 := ⟨n - 1, by omega⟩
    simp [catchToks, readClauses, hr.head_ne]
  | .clause name ps b :: cs, h, n, rest, hn, hr => by
    obtain ⟨n, rfl⟩ : ∃ m, n = m + 1 := ⟨n - 1, by omega⟩
    simp only [catchToks, Stmt.toks, List.length_append, List.length_cons, List.length_nil] at hn
    simp only [catchToks, Stmt.toks, List.append_assoc, List.cons_append, List.nil_append]
    rw [readClauses, if_pos (by rfl), List.tail_cons, optName_toList h.1 (clause_heads ps _)]
    simp [clauseParamsAt_toks h.2.1, reads_stmts b h.2.2.1 n _ (by omega), reads_clauses cs h.2.2.2 n rest (by omega) hr]
  | .expr _ :: _, h, _, _, _, _ => h.elim
  | .decl _ _ :: _, h, _, _, _, _ => h.elim
  | .block _ :: _, h, _, _, _, _ => h.elim
  | .unchecked _ :: _, h, _, _, _, _ => h.elim
  | .if_ _ _ :: _, h, _, _, _, _ => h.elim
  | .ifElse _ _ _ :: _, h, _, _, _, _ => h.elim
  | .while_ _ _ :: _, h, _, _, _, _ => h.elim
  | .doWhile _ _ :: _, h, _, _, _, _ => h.elim
  | .for_ _ _ _ _ :: _, h, _, _, _, _ => h.elim
  | .return_ _ :: _, h, _, _, _, _ => h.elim
  | .emit _ :: _, h, _, _, _, _ => h.elim
  | .revert _ :: _, h, _, _, _, _ => h.elim
  | .break_ :: _, h, _, _, _, _ => h.elim
  | .continue_ :: _, h, _, _, _, _ => h.elim
  | .placeholder :: _, h, _, _, _, _ => h.elim
  | .try_ _ _ _ _ :: _, h, _, _, _, _ => h.elim
  | .assembly _ _ :: _, h, _, _, _, _ => h.elim
  | .comment _ :: _, h, _, _, _, _ => h.elim
end

end SolGrammar
end Mutagenyx
