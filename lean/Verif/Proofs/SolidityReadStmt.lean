import Verif.Proofs.SolidityReadYul

/-!
# Reading the tokens of Solidity statements gives the statements
-/

namespace Mutagenyx
namespace SolGrammar

/-! ### Declarations are not read as expressions -/

/-- The expression with a name. -/
def pathExpr (n : String) (p : List String) : Expr := p.foldl .member (.leaf n)

theorem foldl_member (p : List String) : (e : Expr) → (hp : Plain e) → primary e = true → isNew e = false → (∀ n ∈ p, isName n = true) →
    Plain (p.foldl .member e) ∧ primary (p.foldl .member e) = true ∧ isNew (p.foldl .member e) = false ∧
      strE (p.foldl .member e) = strE e ++ p.flatMap (fun n => [".", n]) := by
  induction p with
  | nil => intro e hp h1 h2 _; exact ⟨hp, h1, h2, by simp⟩
  | cons n p ih =>
    intro e hp h1 h2 hn
    have h3 := hn n (List.mem_cons_self ..)
    obtain ⟨a, b, c, d⟩ := ih (.member e n) ⟨h1, h2, h3, hp⟩ rfl rfl fun m hm => hn m (List.mem_cons_of_mem _ hm)
    refine ⟨a, b, c, ?_⟩
    simp only [List.foldl_cons, d, strE, List.flatMap_cons, List.append_assoc, List.cons_append, List.nil_append]

theorem pathToks_flat (n : String) (p : List String) : pathToks (n :: p) = n :: p.flatMap (fun m => [".", m]) := by
  induction p generalizing n with
  | nil => rfl
  | cons m p ih =>
    have := ih m
    simp only [pathToks, List.map_cons, sepBy, List.cons_append, List.nil_append, List.flatMap_cons] at this ⊢
    rw [this]

/-- The type as an expression, if it can be one. -/
def Ty.asExpr : Ty → Option Expr
  | .elem t => some (.leaf t)
  | .addressPayable => none
  | .user [] => none
  | .user (n :: p) => some (pathExpr n p)
  | .mapping _ _ => none
  | .array b => b.asExpr.map .emptyIndex
  | .fixed b n => b.asExpr.map (.index · n)

theorem asExpr_toks : (ty : Ty) → ty.Clear → ∀ e, ty.asExpr = some e → Plain e ∧ primary e = true ∧ isNew e = false ∧ strE e = ty.toks
  | .elem t, h, e, he => by
    cases he
    exact ⟨isName_leaf h.1, h.1, rfl, by simp [strE, Ty.toks]⟩
  | .addressPayable, _, e, he => by cases he
  | .user [], _, e, he => by cases he
  | .user (n :: p), h, e, he => by
    cases he
    have h1 := (h.2.1 n (List.mem_cons_self ..)).1
    obtain ⟨a, b, c, d⟩ := foldl_member p (.leaf n) (isName_leaf h1) h1 rfl fun m hm => (h.2.1 m (List.mem_cons_of_mem _ hm)).1
    exact ⟨a, b, c, by rw [Ty.toks, pathToks_flat, pathExpr, d]; simp [strE]⟩
  | .mapping _ _, _, e, he => by cases he
  | .array b, h, e, he => by
    cases hb : b.asExpr with
    | none => simp [Ty.asExpr, hb] at he
    | some x =>
      simp only [Ty.asExpr, hb, Option.map_some, Option.some.injEq] at he
      subst he
      obtain ⟨a, c, d, f⟩ := asExpr_toks b h x hb
      exact ⟨⟨c, d, a⟩, rfl, rfl, by simp [strE, f, Ty.toks]⟩
  | .fixed b n, h, e, he => by
    cases hb : b.asExpr with
    | none => simp [Ty.asExpr, hb] at he
    | some x =>
      simp only [Ty.asExpr, hb, Option.map_some, Option.some.injEq] at he
      subst he
      obtain ⟨a, c, d, f⟩ := asExpr_toks b h.1 x hb
      exact ⟨⟨c, d, a, h.2⟩, rfl, rfl, by simp [strE, f, Ty.toks]⟩

theorem asExpr_none : (ty : Ty) → ty.Clear → ty.asExpr = none →
    (∃ ts, ty.toks = "address" :: "payable" :: ts) ∨ ∃ k v, ∃ ts, (Ty.mapping k v).Clear ∧ ty.toks = (Ty.mapping k v).toks ++ ts
  | .elem _, _, h => by cases h
  | .addressPayable, _, _ => Or.inl ⟨[], rfl⟩
  | .user [], h, _ => absurd rfl h.1
  | .user (_ :: _), _, h => by cases h
  | .mapping k v, h, _ => Or.inr ⟨k, v, [], h, by simp⟩
  | .array b, h, he => by
    have hb : b.asExpr = none := by simpa [Ty.asExpr] using he
    rcases asExpr_none b h hb with ⟨ts, hts⟩ | ⟨k, v, ts, hkv, hts⟩
    · exact Or.inl ⟨ts ++ ["[", "]"], by simp [Ty.toks, hts]⟩
    · exact Or.inr ⟨k, v, ts ++ ["[", "]"], hkv, by rw [show (Ty.array b).toks = b.toks ++ ["[", "]"] from rfl, hts, List.append_assoc]⟩
  | .fixed b n, h, he => by
    have hb : b.asExpr = none := by simpa [Ty.asExpr] using he
    rcases asExpr_none b h.1 hb with ⟨ts, hts⟩ | ⟨k, v, ts, hkv, hts⟩
    · exact Or.inl ⟨_, by rw [Ty.toks, hts, List.cons_append, List.cons_append]⟩
    · exact Or.inr ⟨k, v, _, hkv, by rw [show (Ty.fixed b n).toks = b.toks ++ "[" :: (strE n ++ ["]"]) from rfl, hts, List.append_assoc]⟩

/-- A word that cannot stand behind an expression. -/
def Odd (t : String) : Prop := t ≠ ")" ∧ t ≠ "," ∧ t ≠ ";"

/-- If a type with a word behind it is read as an expression then the expression ends at a word that cannot stand there. -/
theorem ty_no_expr : (ty : Ty) → ty.Clear → (f : Nat) → (w : String) → (rest : List String) → Odd w → Stop 0 (w :: rest) →
    4 * ty.toks.length + 2 ≤ f → ∀ e r, readExpr f 0 (ty.toks ++ w :: rest) = some (e, r) → ∃ x xs, r = x :: xs ∧ Odd x := by
  intro ty
  induction h : ty.toks.length using Nat.strongRecOn generalizing ty with
  | ind N ih =>
  intro hc f w rest hw hs hf e r her
  cases ha : ty.asExpr with
  | some x =>
    obtain ⟨hp, _, _, hx⟩ := asExpr_toks ty hc x ha
    rw [← h, ← hx] at hf
    rw [← hx] at her
    rw [read_at (reads x hp).1 (Nat.zero_le _) (Nat.zero_le _) hs hf] at her
    cases her
    exact ⟨w, rest, rfl, hw⟩
  | none =>
    rcases asExpr_none ty hc ha with ⟨ts, hts⟩ | ⟨k, v, ts, hkv, hts⟩
    · rw [hts] at her h
      simp only [List.length_cons] at h
      obtain ⟨f, rfl⟩ : ∃ g, f = g + 3 := ⟨f - 3, by omega⟩
      have hst := stop_name (t := "payable") (by decide) (by decide) (ts ++ w :: rest)
      rw [List.cons_append, List.cons_append, readExpr, readPrefix] at her
      simp only [show prefix? "address" = none by decide, if_neg (show "address" ≠ "(" by decide), if_neg (show "address" ≠ "new" by decide),
        show isLeaf "address" = true by decide, if_true, if_neg (show "payable" ∉ units by decide), suffixes_stop hst (.leaf "address") (show 1 ≤ f + 1 by omega),
        operators_stop hst (.leaf "address") (show 1 ≤ f + 2 by omega), Option.some.injEq, Prod.mk.injEq] at her
      exact ⟨"payable", ts ++ w :: rest, her.2.symm, by unfold Odd; decide⟩
    · rw [hts] at her h
      simp only [Ty.toks, List.length_append, List.length_cons] at h
      obtain ⟨f, rfl⟩ : ∃ g, f = g + 4 := ⟨f - 4, by omega⟩
      exfalso
      obtain ⟨t, us, htus, ht⟩ := ty_cons k hkv.1
      obtain ⟨more, hmore⟩ : ∃ more, (Ty.mapping k v).toks ++ ts ++ w :: rest = "mapping" :: "(" :: (k.toks ++ "=>" :: more) :=
        ⟨v.toks ++ ([")"] ++ (ts ++ w :: rest)), by simp [Ty.toks]⟩
      have hargs : readArguments (f + 1) (k.toks ++ "=>" :: more) = none := by
        have := ih k.toks.length (by omega) k rfl hkv.1 f "=>" more (by unfold Odd; decide) (stop_arrow more) (by omega)
        rw [htus, List.cons_append] at this ⊢
        rw [readArguments, if_neg (first_ne ht (by decide))]
        cases he : readExpr f 0 (t :: (us ++ "=>" :: more)) with
        | none => rfl
        | some p =>
          obtain ⟨e', r'⟩ := p
          obtain ⟨x, xs, rfl, hx1, hx2, _⟩ := this e' r' he
          simp [hx1, hx2]
      rw [hmore, readExpr, readPrefix] at her
      simp only [show prefix? "mapping" = none by decide, if_neg (show "mapping" ≠ "(" by decide), if_neg (show "mapping" ≠ "new" by decide),
        show isLeaf "mapping" = true by decide, if_true, if_neg (show "(" ∉ units by decide)] at her
      rw [htus, List.cons_append] at her hargs
      rw [readSuffixes.eq_def] at her
      simp only [if_neg (show "(" ≠ "." by decide), if_neg (show "(" ≠ "[" by decide), if_neg (show "(" ≠ "{" by decide), if_true] at her
      split at her
      · rename_i heq
        split at heq
        · rename_i heq'
          cases heq'
          exact first_ne ht (by decide) rfl
        · rename_i heq'
          rw [hargs] at heq
          cases heq
      · cases her

/-! ### Declarations -/

theorem local_word {v : Var} (h : LocalClear v) : ∃ w us, v.toks = v.type.toks ++ w :: us ∧ isName w = true ∧ w ∉ units := by
  obtain ⟨hc, h1, h2, h3, h4, h5, h6⟩ := h
  have ht : v.toks = v.type.toks ++ (v.location.toList ++ v.name.toList) := by
    simp [Var.toks, h1, h2, h3, h4, h5, flag, valueToks]
  cases hn : v.name with
  | none => exact absurd hn h6
  | some n =>
    rw [hn] at ht
    cases hl : v.location with
    | none =>
      rw [hl] at ht
      refine ⟨n, [], by simpa using ht, (hc.name n hn).1, fun hu => (hc.name n hn).2 ?_⟩
      revert hu
      exact (by decide : ∀ t ∈ units, t ∈ reserved) n
    | some l =>
      rw [hl] at ht
      refine ⟨l, [n], by simpa using ht, ?_⟩
      exact (by decide : ∀ t ∈ locations, isName t = true ∧ t ∉ units) l (hc.location l hl)

theorem odd_name {w : String} (h : isName w = true) : Odd w :=
  ⟨isName_ne h (by decide), isName_ne h (by decide), isName_ne h (by decide)⟩

theorem local_no_expr {v : Var} (h : LocalClear v) {f : Nat} {rest : List String} (hf : 4 * v.toks.length + 2 ≤ f) {e : Expr} {r : List String}
    (he : readExpr f 0 (v.toks ++ rest) = some (e, r)) : ∃ x xs, r = x :: xs ∧ Odd x := by
  obtain ⟨w, us, hw, hn, hu⟩ := local_word h
  rw [hw, List.append_assoc, List.cons_append] at he
  rw [hw, List.length_append] at hf
  exact ty_no_expr v.type h.1.type f w (us ++ rest) (odd_name hn) (stop_name hn hu _) (by omega) e r he

/-- The tokens of a place of a declaration. -/
def slotToks (v : Option Var) : List String := (v.map Var.toks).getD []

theorem slots_no_places : (vs : List (Option Var)) → (∀ v, some v ∈ vs → LocalClear v) → (∃ v, some v ∈ vs) → (f : Nat) → (rest : List String) →
    4 * (sepBy "," (vs.map slotToks)).length + 4 ≤ f → readPlaces f (sepBy "," (vs.map slotToks) ++ ")" :: rest) = none
  | [], _, ⟨_, h⟩, _, _, _ => by cases h
  | some v :: vs, h, _, f, rest, hf => by
    obtain ⟨f, rfl⟩ : ∃ g, f = g + 1 := ⟨f - 1, by omega⟩
    obtain ⟨us, hus, hl⟩ : ∃ us, sepBy "," ((some v :: vs).map slotToks) ++ ")" :: rest = v.toks ++ us ∧
        v.toks.length ≤ (sepBy "," ((some v :: vs).map slotToks)).length := by
      cases vs with
      | nil => exact ⟨")" :: rest, by simp [sepBy, slotToks], by simp [sepBy, slotToks]⟩
      | cons x xs => exact ⟨_, by simp only [List.map_cons, sepBy, slotToks, Option.map_some, Option.getD_some, List.append_assoc]; rfl,
          by simp only [List.map_cons, sepBy, slotToks, Option.map_some, Option.getD_some, List.length_append]; omega⟩
    rw [hus]
    have hv := h v (List.mem_cons_self ..)
    obtain ⟨t, ts, hts, ht⟩ := var_cons hv.1
    have key := fun e r => local_no_expr hv (f := f) (rest := us) (by omega) (e := e) (r := r)
    rw [hts, List.cons_append] at key ⊢
    rw [readPlaces, if_neg (by rintro (rfl | rfl) <;> exact first_ne ht (by decide) rfl)]
    cases he : readExpr f 0 (t :: (ts ++ us)) with
    | none => rfl
    | some p =>
      obtain ⟨e', r'⟩ := p
      obtain ⟨x, xs, rfl, hx1, hx2, _⟩ := key e' r' he
      simp [hx1, hx2]
  | [none], _, ⟨_, h⟩, _, _, _ => by simp at h
  | none :: v :: vs, h, ⟨x, hx⟩, f, rest, hf => by
    obtain ⟨f, rfl⟩ : ∃ g, f = g + 1 := ⟨f - 1, by omega⟩
    have ih := slots_no_places (v :: vs) (fun v hv => h v (List.mem_cons_of_mem _ hv)) ⟨x, by simpa using hx⟩ f rest (by
      simp only [List.map_cons, sepBy, slotToks, Option.map_none, Option.getD_none, List.nil_append, List.length_cons] at hf ⊢; omega)
    simp only [List.map_cons, sepBy, slotToks, Option.map_none, Option.getD_none, List.nil_append, List.cons_append] at ih ⊢
    rw [readPlaces, if_pos (Or.inl rfl)]
    simp [ih]

theorem slotAt_toks {o : Option Var} (h : ∀ v, o = some v → v.Clear) {r : List String} (hr : r.head? = some "," ∨ r.head? = some ")") :
    slotAt (slotToks o ++ r) = some (o, r) := by
  cases o with
  | none => simp [slotToks, slotAt, hr]
  | some v =>
    obtain ⟨t, ts, hts, ht⟩ := var_cons (h v rfl)
    have hv := varAt_toks (h v rfl) (rest := r) (by
      cases r with
      | nil => simp at hr
      | cons t ts =>
        simp only [List.head?_cons, Option.some.injEq] at hr
        exact heads_cons (hr.imp id Or.inl))
    simp only [slotToks, Option.map_some, Option.getD_some]
    rw [slotAt, if_neg, hv]
    · rfl
    · rw [hts]
      simp only [List.cons_append, List.head?_cons, Option.some.injEq]
      rintro (rfl | rfl) <;> exact first_ne ht (by decide) rfl

theorem declToks_many {vs : List (Option Var)} (h : ∀ v, vs ≠ [some v]) : declToks vs = "(" :: (sepBy "," (vs.map slotToks) ++ [")"]) := by
  unfold declToks
  split
  · rename_i v
    exact absurd rfl (h v)
  · rfl

theorem local_value {v : Var} (h : LocalClear v) (value : Option Expr) : ({ v with value := value } : Var).toks = v.toks ++ valueToks value := by
  obtain ⟨_, _, _, _, _, h5, _⟩ := h
  simp [Var.toks, h5, valueToks]

/-- Expressions and declarations are read from their tokens. -/
theorem simpleAt_toks {s : Stmt} (h : SimpleClear s) (rest : List String) : simpleAt (s.toks ++ rest) = some (s, rest) := by
  cases s with
  | expr e =>
    simp only [Stmt.toks, List.append_assoc, List.cons_append, List.nil_append]
    rw [simpleAt, exprAt_toks h.1 (stop_semicolon rest)]
    simp
  | decl vs value =>
    obtain ⟨hv, hvs, hne⟩ := h
    have key : ∀ {ts : List String} {x : Stmt × List String}, declAt ts = some x → (∀ e r, exprAt ts = some (e, r) → r.head? ≠ some ";") →
        simpleAt ts = some x := by
      intro ts x hd he
      rw [simpleAt]
      split
      · rename_i e us heq
        rw [if_neg (he e us heq), hd]
      · exact hd
    by_cases hone : ∃ v, vs = [some v]
    · obtain ⟨v, rfl⟩ := hone
      have hl := hvs v (List.mem_cons_self ..)
      have h1 : ({ v with value := value } : Var).Clear :=
        { type := hl.1.type, visibility := hl.1.visibility, location := hl.1.location, name := hl.1.name, value := hv }
      have h2 := varAt_toks h1 (rest := ";" :: rest) (heads_cons (Or.inr (Or.inr rfl)))
      rw [local_value hl] at h2
      have ht : (Stmt.decl [some v] value).toks ++ rest = v.toks ++ valueToks value ++ ";" :: rest := by
        simp [Stmt.toks, declToks]
      rw [ht]
      refine key ?_ ?_
      · obtain ⟨t, ts, hts, ht⟩ := var_cons hl.1
        rw [declAt, if_neg (by rw [hts]; simpa using first_ne ht (by decide)), h2]
        simp only [Option.bind_eq_bind, Option.bind_some, expect_cons]
        have : v.value = none := hl.2.2.2.2.2.1
        obtain ⟨_, _, _, _, _, _, _, _⟩ := v
        simp only at this
        subst this
        rfl
      · intro e r he
        rw [List.append_assoc] at he
        obtain ⟨x, xs, rfl, hx⟩ := local_no_expr hl (by simp only [List.length_append]; omega) he
        simpa using hx.2.2
    · have ht : (Stmt.decl vs value).toks ++ rest = "(" :: (sepBy "," (vs.map slotToks) ++ ")" :: (valueToks value ++ ";" :: rest)) := by
        simp [Stmt.toks, declToks_many fun v hv => hone ⟨v, hv⟩]
      have hlen := sepBy_length "," (vs.map slotToks)
      rw [ht]
      refine key ?_ ?_
      · have hc := commas_toks (p := slotAt) slotToks (rest := ")" :: (valueToks value ++ ";" :: rest)) (by simp) vs
          (by rintro rfl; obtain ⟨_, h⟩ := hne; cases h)
          (fun x hx r hr => slotAt_toks (fun v hv => (hvs v (hv ▸ hx)).1) (hr.imp id fun h => by rw [h]; rfl))
          ("(" :: (sepBy "," (vs.map slotToks) ++ ")" :: (valueToks value ++ ";" :: rest))).length (by
            simp only [List.length_map] at hlen
            simp only [List.length_append, List.length_cons]
            omega)
        rw [declAt, if_pos (by rfl), List.tail_cons, hc]
        simp [valueAt_toks hv (heads_cons (P := Ends) (t := ";") (ts := rest) (Or.inr (Or.inr rfl)))]
      · intro e r he
        exfalso
        obtain ⟨F, hF, hF'⟩ : ∃ F, 4 * ("(" :: (sepBy "," (vs.map slotToks) ++ ")" :: (valueToks value ++ ";" :: rest))).length + 4 = F + 1 + 1 ∧
            4 * (sepBy "," (vs.map slotToks)).length + 4 ≤ F :=
          ⟨4 * (sepBy "," (vs.map slotToks) ++ ")" :: (valueToks value ++ ";" :: rest)).length + 6, by simp only [List.length_cons]; omega,
            by simp only [List.length_append]; omega⟩
        rw [exprAt, hF, readExpr, readPrefix.eq_def] at he
        have hnone := slots_no_places vs hvs hne F (valueToks value ++ ";" :: rest) hF'
        simp only [show prefix? "(" = none by decide, if_true, hnone] at he
        cases he
  | _ => exact absurd h (by simp [SimpleClear])

end SolGrammar
end Mutagenyx
