import Verif.Proofs.SolidityReadFile

/-!
# Reading the tokens of Solidity functions, contracts and files gives them: members and files
-/

namespace Mutagenyx
namespace SolGrammar

/-! ### Uses of modifiers -/

theorem useAt_toks {u : Use} (h : u.Clear) {rest : List String} (hr : Heads (fun t => t ≠ "." ∧ t ≠ "(") rest) :
    useAt (u.toks ++ rest) = some (u, rest) := by
  obtain ⟨hne, hn, ha⟩ := h
  have hp := readPath_toks u.name hne (fun n hn' => (hn n hn').1) (argsToks u.args ++ rest) (by
    cases u.args with
    | none => exact fun t ts ht => (hr t ts ht).1
    | some es => intro t ts ht; cases ht; decide)
  have hargs : argsAt (argsToks u.args ++ rest) = some (u.args, rest) := by
    cases hu : u.args with
    | none => simp [argsToks, argsAt, (hr.imp fun _ h => h.2).head_ne]
    | some es =>
      have := readsArgs es (ha es hu) rest (4 * ("(" :: (strArgs es ++ ")" :: rest)).length + 4) (by
        simp only [List.length_cons, List.length_append]; omega)
      simp only [argsToks, List.cons_append, List.append_assoc, List.nil_append]
      rw [argsAt, if_pos (by rfl), List.tail_cons, this]
      rfl
  rw [Use.toks, List.append_assoc, useAt, hp]
  simp [hargs]

theorem use_cons {u : Use} (h : u.Clear) : ∃ t ts, u.toks = t :: ts ∧ FreeName t := by
  obtain ⟨ts, hts⟩ := pathToks_cons h.1
  exact ⟨_, _, by rw [Use.toks, hts, List.cons_append], h.2.1 _ (List.head_mem h.1)⟩

theorem free_ne {t : String} (h : FreeName t) {u : String} (hu : isName u = false ∨ u ∈ reserved) : t ≠ u := by
  rintro rfl
  rcases hu with hu | hu
  · rw [h.1] at hu; cases hu
  · exact h.2 hu

theorem readUses_toks : (us : List Use) → (∀ u ∈ us, u.Clear) → (rest : List String) →
    (rest.head? = some "returns" ∨ rest.head? = some "{" ∨ rest.head? = some ";") → (n : Nat) → us.length + 1 ≤ n →
    readUses n (us.flatMap Use.toks ++ rest) = some (us, rest)
  | [], _, rest, hr, n, hn => by
    obtain ⟨n, rfl⟩ : ∃ m, n = m + 1 := ⟨n - 1, by omega⟩
    simp [readUses, hr]
  | u :: us, h, rest, hr, n, hn => by
    obtain ⟨n, rfl⟩ : ∃ m, n = m + 1 := ⟨n - 1, by omega⟩
    have ih := readUses_toks us (fun x hx => h x (List.mem_cons_of_mem _ hx)) rest hr n (by simp only [List.length_cons] at hn; omega)
    obtain ⟨t, ts, hts, ht⟩ := use_cons (h u (List.mem_cons_self ..))
    have hu := useAt_toks (h u (List.mem_cons_self ..)) (rest := us.flatMap Use.toks ++ rest) (by
      cases us with
      | nil =>
        intro t ts ht
        simp only [List.flatMap_nil, List.nil_append] at ht
        rw [ht] at hr
        simp only [List.head?_cons, Option.some.injEq] at hr
        rcases hr with rfl | rfl | rfl <;> decide
      | cons v vs =>
        obtain ⟨t', ts', hts', ht'⟩ := use_cons (h v (by simp))
        rw [List.flatMap_cons, hts']
        exact heads_cons ⟨free_ne ht' (Or.inl (by decide)), free_ne ht' (Or.inl (by decide))⟩)
    rw [List.flatMap_cons, List.append_assoc, readUses, if_neg, hu]
    · simp [ih]
    · rw [hts]
      simp only [List.cons_append, List.head?_cons, Option.some.injEq]
      rintro (h | h | h)
      · exact free_ne ht (Or.inr (by decide)) h
      · exact free_ne ht (Or.inl (by decide)) h
      · exact free_ne ht (Or.inl (by decide)) h

theorem pathsAt_toks {ns : List (List String)} (hne : ns ≠ []) (h : ∀ p ∈ ns, p ≠ [] ∧ ∀ n ∈ p, FreeName n) {t : String} {rest : List String}
    (ht : t ≠ "," ∧ t ≠ ".") {n : Nat} (hn : ns.length ≤ n) :
    commas readPath n (sepBy "," (ns.map pathToks) ++ t :: rest) = some (ns, t :: rest) :=
  commas_toks (p := readPath) pathToks (by simpa using ht.1) ns hne (fun p hp r hr => readPath_toks p (h p hp).1
    (fun n hn => ((h p hp).2 n hn).1) r (by
      intro u us hu
      rw [hu] at hr
      rcases hr with hr | hr
      · simp only [List.head?_cons, Option.some.injEq] at hr
        rw [hr]
        decide
      · cases hr
        exact ht.2)) n hn

theorem overrideAt_toks {o : Option (List (List String))} (h : ∀ ns, o = some ns → ∀ p ∈ ns, p ≠ [] ∧ ∀ n ∈ p, FreeName n) {rest : List String}
    (hr : Heads (fun t => t ≠ "override" ∧ t ≠ "(") rest) : overrideAt (overrideToks o ++ rest) = some (o, rest) := by
  match o, h with
  | none, _ => simp [overrideToks, overrideAt, (hr.imp fun _ h => h.1).head_ne]
  | some [], _ => simp [overrideToks, overrideAt, (hr.imp fun _ h => h.2).head_ne]
  | some (p :: ns), h =>
    have hl := sepBy_length "," ((p :: ns).map pathToks)
    have hc := pathsAt_toks (ns := p :: ns) (by simp) (h _ rfl) (t := ")") (rest := rest) (by decide)
      (n := ("override" :: "(" :: (sepBy "," ((p :: ns).map pathToks) ++ ")" :: rest)).length) (by
        simp only [List.length_map] at hl
        simp only [List.length_append, List.length_cons] at hl ⊢
        omega)
    simp only [overrideToks, List.cons_append, List.append_assoc, List.nil_append]
    rw [overrideAt, if_pos (by rfl), List.tail_cons, if_pos (by rfl), List.tail_cons, hc]
    simp

theorem bodyAt_toks {b : Option (List Stmt)} (h : bodyClear b) (rest : List String) : bodyAt (bodyToks b ++ rest) = some (b, rest) := by
  cases b with
  | none => simp [bodyToks, bodyAt]
  | some ss =>
    simp only [bodyToks, Stmt.toks, List.cons_append, List.append_assoc, List.nil_append]
    rw [bodyAt, if_neg (by simp), expect_cons]
    simp only [Option.bind_eq_bind, Option.bind_some]
    rw [reads_stmts ss (h ss rfl) _ rest (by simp only [List.length_append]; omega)]
    rfl

theorem body_heads {P : String → Prop} (h1 : P ";") (h2 : P "{") (b : Option (List Stmt)) (rest : List String) : Heads P (bodyToks b ++ rest) := by
  cases b
  · exact heads_cons h1
  · exact heads_cons h2

theorem body_head (b : Option (List Stmt)) (rest : List String) :
    (bodyToks b ++ rest).head? = some "{" ∨ (bodyToks b ++ rest).head? = some ";" := by
  cases b
  · exact Or.inr rfl
  · exact Or.inl rfl

theorem fnAt_toks {f : Fn} (h : f.Clear) (rest : List String) : ∃ ts, f.toks ++ rest = f.kind :: ts ∧ fnAt f.kind ts = some (f, rest) := by
  refine ⟨f.name.toList ++ (paramsToks f.params ++ (f.visibility.toList ++ (flag f.virtual "virtual" ++ (f.mutability.toList ++
    (overrideToks f.override ++ (f.modifiers.flatMap Use.toks ++ (returnsToks f.returns ++ (bodyToks f.body ++ rest)))))))),
    by simp [Fn.toks], ?_⟩
  have hR : ∀ {P : String → Prop}, P ";" → P "{" → P "returns" → Heads P (returnsToks f.returns ++ (bodyToks f.body ++ rest)) := by
    intro P h1 h2 h3
    refine heads_append ?_ (body_heads h1 h2 _ _)
    cases f.returns
    · exact heads_nil
    · exact heads_cons h3
  have hM : ∀ {P : String → Prop}, P ";" → P "{" → P "returns" → (∀ t, FreeName t → P t) →
      Heads P (f.modifiers.flatMap Use.toks ++ (returnsToks f.returns ++ (bodyToks f.body ++ rest))) := by
    intro P h1 h2 h3 h4
    refine heads_append ?_ (hR h1 h2 h3)
    cases hm : f.modifiers with
    | nil => exact heads_nil
    | cons u us =>
      obtain ⟨t, ts, hts, ht⟩ := use_cons (h.modifiers u (by simp [hm]))
      rw [List.flatMap_cons, hts]
      exact heads_cons (h4 t ht)
  have hO : ∀ {P : String → Prop}, P ";" → P "{" → P "returns" → (∀ t, FreeName t → P t) → P "override" →
      Heads P (overrideToks f.override ++ (f.modifiers.flatMap Use.toks ++ (returnsToks f.returns ++ (bodyToks f.body ++ rest)))) := by
    intro P h1 h2 h3 h4 h5
    refine heads_append ?_ (hM h1 h2 h3 h4)
    rcases f.override with _ | _ | _
    · exact heads_nil
    · exact heads_cons h5
    · exact heads_cons h5
  have hX : ∀ {P : String → Prop}, P ";" → P "{" → P "returns" → (∀ t, FreeName t → P t) → P "override" → (∀ t ∈ mutabilities, P t) →
      Heads P (f.mutability.toList ++ (overrideToks f.override ++ (f.modifiers.flatMap Use.toks ++
        (returnsToks f.returns ++ (bodyToks f.body ++ rest))))) := fun h1 h2 h3 h4 h5 h6 =>
    heads_append (heads_toList fun t ht => h6 t (h.mutability t ht)) (hO h1 h2 h3 h4 h5)
  have hl := flatMap_length Use.toks f.modifiers (fun u hu => by
    obtain ⟨t, ts, hts, _⟩ := use_cons (h.modifiers u hu)
    rw [hts]
    simp)
  have hu := readUses_toks f.modifiers h.modifiers (returnsToks f.returns ++ (bodyToks f.body ++ rest)) (by
    cases f.returns with
    | nil => exact Or.inr (body_head f.body rest)
    | cons => exact Or.inl rfl) ((f.modifiers.flatMap Use.toks ++ (returnsToks f.returns ++ (bodyToks f.body ++ rest))).length + 1) (by
      simp only [List.length_append]; omega)
  unfold fnAt
  rw [optName_toList h.name (by
    rw [paramsToks, List.cons_append]
    exact heads_cons fun h => absurd h.1 (by decide))]
  simp only
  rw [paramsAt_toks h.params]
  simp only
  rw [oneOf_toList h.visibility (heads_append (heads_flag (by decide)) (hX (by decide) (by decide) (by decide)
    (fun t ht hm => ht.2 ((by decide : ∀ t ∈ visibilities, t ∈ reserved) t hm)) (by decide) (by decide)))]
  simp only
  rw [accept_flag (hX (by decide) (by decide) (by decide) (fun t ht => free_ne ht (Or.inr (by decide))) (by decide) (by decide))]
  simp only
  rw [oneOf_toList h.mutability (hO (by decide) (by decide) (by decide)
    (fun t ht hm => ht.2 ((by decide : ∀ t ∈ mutabilities, t ∈ reserved) t hm)) (by decide))]
  simp only
  rw [overrideAt_toks h.override (hM (by decide) (by decide) (by decide)
    (fun t ht => ⟨free_ne ht (Or.inr (by decide)), free_ne ht (Or.inl (by decide))⟩))]
  simp only [Option.bind_eq_bind, Option.bind_some, hu, returnsAt_toks h.returns (body_heads (by decide) (by decide) f.body rest),
    bodyAt_toks h.body]

/-! ### Members -/

theorem fieldAt_toks {v : Var} (h : v.Clear) (rest : List String) : fieldAt ((v.toks ++ [";"]) ++ rest) = some (v, rest) := by
  rw [List.append_assoc, List.cons_append, List.nil_append, fieldAt, varAt_toks h (heads_cons (Or.inr (Or.inr rfl)))]
  simp

theorem usingAt_toks {t : Ty} (h : t.Clear) (g : Bool) (rest : List String) :
    usingAt ("for" :: (t.toks ++ flag g "global" ++ ";" :: rest)) = some (t, g, rest) := by
  rw [usingAt, expect_cons, List.append_assoc]
  simp only [Option.bind_eq_bind, Option.bind_some]
  rw [tyAt_toks h (heads_append (heads_flag (by decide)) (heads_cons (by decide)))]
  simp only [Option.bind_some, accept_flag (b := g) (t := "global") (rest := ";" :: rest) (heads_cons (by decide)), expect_cons]

theorem operatorAt_toks {f : List String × String} (h : f.1 ≠ [] ∧ ∀ n ∈ f.1, FreeName n) (r : List String) :
    operatorAt (pathToks f.1 ++ ["as", f.2] ++ r) = some (f, r) := by
  rw [List.append_assoc, operatorAt, readPath_toks f.1 h.1 (fun n hn => (h.2 n hn).1) _ (by intro t ts ht; cases ht; decide)]
  simp

theorem member_cons : (x : Member) → x.Clear → ∃ t ts, x.toks = t :: ts ∧ t ≠ "}" ∧ t ∉ ["pragma", "import", "abstract"] ++ contractKinds
  | .state v doc, h => by
    obtain ⟨t, ts, hts, ht⟩ := var_cons h.1
    have h3 := h.2.2 t (by rw [hts]; rfl)
    exact ⟨t, _, by rw [Member.toks, hts, List.cons_append], first_ne ht (by decide), fun hm => h3 ((by decide :
      ∀ t ∈ ["pragma", "import", "abstract"] ++ contractKinds, t ∈ memberWords) t hm)⟩
  | .fn f doc, h => ⟨f.kind, _, rfl, (by decide : ∀ t ∈ functionKinds, t ≠ "}" ∧ t ∉ ["pragma", "import", "abstract"] ++ contractKinds)
      f.kind h.1.kind⟩
  | .modifier _ _ _ _ _, _ => ⟨_, _, rfl, by decide⟩
  | .event _ _ _, _ => ⟨_, _, rfl, by decide⟩
  | .error _ _, _ => ⟨_, _, rfl, by decide⟩
  | .struct _ _, _ => ⟨_, _, rfl, by decide⟩
  | .enum _ _, _ => ⟨_, _, rfl, by decide⟩
  | .using_ _ _ _, _ => ⟨_, _, rfl, by decide⟩
  | .operators _ _ _, _ => ⟨_, _, rfl, by decide⟩
  | .type _ _, _ => ⟨_, _, rfl, by decide⟩
  | .comment _, h => h.elim

theorem memberAt_toks : (x : Member) → x.Clear → (rest : List String) → memberAt (x.toks ++ rest) = some (x, rest)
  | .state v doc, h, rest => by
    obtain ⟨hv, rfl, h3⟩ := h
    obtain ⟨t, ts, hts, ht⟩ := var_cons hv
    have hm := h3 t (by rw [hts]; rfl)
    have hne : ∀ w ∈ memberWords, t ≠ w := fun w hw ht => hm (ht ▸ hw)
    have hf := fieldAt_toks hv rest
    rw [hts, List.cons_append, List.cons_append] at hf
    rw [Member.toks, hts, List.cons_append, List.cons_append, memberAt,
      if_neg (fun hx => hm ((by decide : ∀ t ∈ functionKinds, t ∈ memberWords) t hx)), if_neg (hne _ (by decide)), if_neg (hne _ (by decide)),
      if_neg (hne _ (by decide)), if_neg (hne _ (by decide)), if_neg (hne _ (by decide)), if_neg (hne _ (by decide)), if_neg (hne _ (by decide)), hf]
    rfl
  | .fn f doc, h, rest => by
    obtain ⟨hf, rfl⟩ := h
    obtain ⟨ts, h1, h2⟩ := fnAt_toks hf rest
    rw [Member.toks, h1, memberAt, if_pos hf.kind, h2]
    rfl
  | .modifier n ps v b doc, h, rest => by
    obtain ⟨hn, hps, hb, rfl⟩ := h
    simp only [Member.toks, List.cons_append, List.append_assoc]
    rw [memberAt, if_neg (by decide), if_pos rfl, nameAt_cons hn.1]
    simp only [Option.bind_eq_bind, Option.bind_some, paramsAt_toks hps]
    rw [accept_flag (body_heads (by decide) (by decide) b rest)]
    simp [bodyAt_toks hb]
  | .event n ps a, h, rest => by
    simp only [Member.toks, List.cons_append, List.append_assoc, List.nil_append]
    rw [memberAt, if_neg (by decide), if_neg (by decide), if_pos rfl, nameAt_cons h.1.1]
    simp only [Option.bind_eq_bind, Option.bind_some, paramsAt_toks h.2,
      accept_flag (b := a) (t := "anonymous") (rest := ";" :: rest) (heads_cons (by decide)), expect_cons]
  | .error n ps, h, rest => by
    simp only [Member.toks, List.cons_append, List.append_assoc, List.nil_append]
    rw [memberAt, if_neg (by decide), if_neg (by decide), if_neg (by decide), if_pos rfl, nameAt_cons h.1.1]
    simp [paramsAt_toks h.2]
  | .struct n vs, h, rest => by
    have hne : ∀ v ∈ vs, v.toks ++ [";"] ≠ [] := fun v _ => by simp
    have hl := flatMap_length (fun v : Var => v.toks ++ [";"]) vs hne
    have hu := upTo_toks (p := fieldAt) (fun v : Var => v.toks ++ [";"]) (stop := "}") (rest := rest) vs (fun v hv => ⟨by simp, by
      obtain ⟨t, ts, hts, ht⟩ := var_cons (h.2 v hv)
      simp only [hts, List.cons_append]
      exact heads_cons (first_ne ht (by decide))⟩) (fun v hv r _ => fieldAt_toks (h.2 v hv) r)
      (vs.flatMap (fun v => v.toks ++ [";"]) ++ "}" :: rest).length (by simp only [List.length_append, List.length_cons] at hl ⊢; omega)
    simp only [Member.toks, List.cons_append, List.append_assoc, List.nil_append]
    rw [memberAt, if_neg (by decide), if_neg (by decide), if_neg (by decide), if_neg (by decide), if_pos rfl, nameAt_cons h.1.1]
    simp only [Option.bind_eq_bind, Option.bind_some, expect_cons, hu]
  | .enum n vs, h, rest => by
    have hl := namesToks_length vs
    have hc := namesAt_toks h.2.1 (fun n hn => (h.2.2 n hn).1) (rest := "}" :: rest) (by simp) (n := (namesToks vs ++ "}" :: rest).length)
      (by simp only [List.length_append]; omega)
    unfold namesToks at hc
    simp only [Member.toks, List.cons_append, List.append_assoc, List.nil_append]
    rw [memberAt, if_neg (by decide), if_neg (by decide), if_neg (by decide), if_neg (by decide), if_neg (by decide), if_pos rfl, nameAt_cons h.1.1]
    simp only [Option.bind_eq_bind, Option.bind_some, expect_cons, hc]
  | .using_ l t g, h, rest => by
    obtain ⟨ts, hts⟩ := pathToks_cons h.1.1
    have hp := readPath_toks l h.1.1 (fun n hn => (h.1.2 n hn).1) ("for" :: (t.toks ++ flag g "global" ++ ";" :: rest))
      (by intro t ts ht; cases ht; decide)
    have h2 := usingAt_toks h.2 g rest
    simp only [List.append_assoc] at hp h2
    simp only [Member.toks, List.cons_append, List.append_assoc, List.nil_append]
    rw [memberAt, if_neg (by decide), if_neg (by decide), if_neg (by decide), if_neg (by decide), if_neg (by decide), if_neg (by decide),
      if_pos rfl, if_neg (by rw [hts]; simpa using free_ne (h.1.2 _ (List.head_mem h.1.1)) (Or.inl (by decide))), hp]
    simp only [Option.bind_eq_bind, Option.bind_some, h2]
  | .operators fs t g, h, rest => by
    have hl := sepBy_length "," (fs.map fun f => pathToks f.1 ++ ["as", f.2])
    have h2 := usingAt_toks h.2.2 g rest
    have hc := commas_toks (p := operatorAt) (fun f => pathToks f.1 ++ ["as", f.2])
      (rest := "}" :: "for" :: (t.toks ++ flag g "global" ++ ";" :: rest)) (by simp) fs h.1 (fun f hf r _ => operatorAt_toks (h.2.1 f hf) r)
      ("{" :: (sepBy "," (fs.map fun f => pathToks f.1 ++ ["as", f.2]) ++ "}" :: "for" :: (t.toks ++ flag g "global" ++ ";" :: rest))).length (by
        simp only [List.length_map] at hl
        simp only [List.length_append, List.length_cons] at hl ⊢
        omega)
    simp only [List.append_assoc] at h2 hc
    simp only [Member.toks, List.cons_append, List.append_assoc, List.nil_append]
    rw [memberAt, if_neg (by decide), if_neg (by decide), if_neg (by decide), if_neg (by decide), if_neg (by decide), if_neg (by decide),
      if_pos rfl, if_pos (by rfl), List.tail_cons, hc]
    simp only [Option.bind_eq_bind, Option.bind_some, expect_cons, h2]
  | .type n t, h, rest => by
    simp only [Member.toks, List.cons_append, List.append_assoc, List.nil_append]
    rw [memberAt, if_neg (by decide), if_neg (by decide), if_neg (by decide), if_neg (by decide), if_neg (by decide), if_neg (by decide),
      if_neg (by decide), if_pos rfl, nameAt_cons h.1.1]
    simp [tyAt_toks h.2 (heads_cons (P := fun t => t ≠ "." ∧ t ≠ "payable" ∧ t ≠ "[") (t := ";") (ts := rest) (by decide))]
  | .comment _, h, _ => h.elim

/-! ### Contracts -/

theorem basesAt_toks {us : List Use} (h : ∀ u ∈ us, u.Clear) (rest : List String) : basesAt (basesToks us ++ "{" :: rest) = some (us, "{" :: rest) := by
  cases us with
  | nil => simp [basesToks, basesAt]
  | cons u us =>
    have hl := sepBy_length "," ((u :: us).map Use.toks)
    have hc := commas_toks (p := useAt) Use.toks (rest := "{" :: rest) (by simp) (u :: us) (by simp) (fun x hx r hr => useAt_toks (h x hx) (by
      intro t ts ht
      rw [ht] at hr
      rcases hr with hr | hr
      · simp only [List.head?_cons, Option.some.injEq] at hr
        rw [hr]
        decide
      · cases hr
        decide)) ("is" :: (sepBy "," ((u :: us).map Use.toks) ++ "{" :: rest)).length (by
        simp only [List.length_map] at hl
        simp only [List.length_append, List.length_cons] at hl ⊢
        omega)
    simp only [basesToks, List.cons_append]
    rw [basesAt, if_pos (by rfl), List.tail_cons, hc]

theorem contractAt_toks {c : Contract} (h : c.Clear) (rest : List String) : contractAt c.abstract_ c.kind
    (c.name :: (basesToks c.bases ++ "{" :: (c.members.flatMap Member.toks ++ "}" :: rest))) = some (c, rest) := by
  have hne : ∀ m ∈ c.members, m.toks ≠ [] ∧ Heads (· ≠ "}") m.toks := fun m hm => by
    obtain ⟨t, ts, hts, ht, _⟩ := member_cons m (h.members m hm)
    rw [hts]
    exact ⟨by simp, heads_cons ht⟩
  have hl := flatMap_length Member.toks c.members fun m hm => (hne m hm).1
  have hu := upTo_toks (p := memberAt) Member.toks (stop := "}") (rest := rest) c.members hne (fun m hm r _ => memberAt_toks m (h.members m hm) r)
    (c.members.flatMap Member.toks ++ "}" :: rest).length (by simp only [List.length_append, List.length_cons]; omega)
  rw [contractAt, nameAt_cons h.name.1]
  simp only [Option.bind_eq_bind, Option.bind_some, basesAt_toks h.bases, expect_cons, hu]
  have := h.doc
  obtain ⟨_, _, _, _, _, _⟩ := c
  simp only at this
  subst this
  rfl

/-! ### Files -/

theorem versionAt_toks {v : Version} (h : v.Clear) {r : List String} (hr : Heads (· ≠ ".") r) : versionAt (v.toks ++ r) = some (v, r) := by
  have h1 : oneOf ["<", "<=", ">=", ">", "^"] (v.op.toList ++ (v.first :: (patchToks v.patch ++ r))) = (v.op, v.first :: (patchToks v.patch ++ r)) :=
    oneOf_toList h.op (heads_cons fun hm => h.first (by simp only [List.mem_cons] at hm ⊢; exact Or.inr (Or.inr hm)))
  rw [Version.toks, List.append_assoc, List.cons_append, versionAt, h1]
  simp only [tokenAt, Option.bind_eq_bind, Option.bind_some]
  obtain ⟨op, first, patch⟩ := v
  cases patch with
  | none => simp [patchToks, hr.head_ne]
  | some p => simp [patchToks, tokenAt]

theorem asAt_toks {o : Option String} (h : ∀ n, o = some n → FreeName n) {r : List String} (hr : Heads (· ≠ "as") r) :
    asAt (asToks o ++ r) = some (o, r) := by
  cases o with
  | none => simp [asToks, asAt, hr.head_ne]
  | some n => simp [asToks, asAt, nameAt_cons (h n rfl).1]

theorem importAt_toks {i : Import} (h1 : ∀ n, i.alias_ = some n → FreeName n) (h2 : ∀ s ∈ i.symbols, FreeName s.1 ∧ ∀ n, s.2 = some n → FreeName n)
    (rest : List String) : ∃ ts, i.toks ++ rest = "import" :: ts ∧ importAt ts = some (i, rest) := by
  obtain ⟨file, alias_, symbols⟩ := i
  simp only at h1 h2
  have hend : asAt (asToks alias_ ++ ";" :: rest) = some (alias_, ";" :: rest) := asAt_toks h1 (heads_cons (by decide))
  cases symbols with
  | nil =>
    refine ⟨quoted file :: (asToks alias_ ++ ";" :: rest), by simp [Import.toks], ?_⟩
    rw [importAt, if_neg (by simpa using quoted_ne (u := "{") (by decide)), literalAt_quoted]
    simp [hend]
  | cons s ss =>
    have hl := sepBy_length "," ((s :: ss).map fun s => s.1 :: asToks s.2)
    have hc := commas_toks (p := symbolAt) (fun s => s.1 :: asToks s.2) (rest := "}" :: "from" :: quoted file :: (asToks alias_ ++ ";" :: rest))
      (by simp) (s :: ss) (by simp) (fun x hx r hr => by
        have := asAt_toks (h2 x hx).2 (r := r) (by
          intro t ts ht
          rw [ht] at hr
          rcases hr with hr | hr
          · simp only [List.head?_cons, Option.some.injEq] at hr
            rw [hr]
            decide
          · cases hr
            decide)
        simp only [List.cons_append]
        rw [symbolAt, nameAt_cons (h2 x hx).1.1]
        simp [this])
      ("{" :: (sepBy "," ((s :: ss).map fun s => s.1 :: asToks s.2) ++ "}" :: "from" :: quoted file :: (asToks alias_ ++ ";" :: rest))).length (by
        simp only [List.length_map] at hl
        simp only [List.length_append, List.length_cons] at hl ⊢
        omega)
    refine ⟨"{" :: (sepBy "," ((s :: ss).map fun s => s.1 :: asToks s.2) ++ "}" :: "from" :: quoted file :: (asToks alias_ ++ ";" :: rest)),
      by simp [Import.toks], ?_⟩
    rw [importAt, if_pos (by rfl), List.tail_cons, hc]
    simp [literalAt_quoted, hend]

theorem itemAt_toks : (x : Item) → x.Clear → (rest : List String) → itemAt (x.toks ++ rest) = some (x, rest)
  | .pragma vs, h, rest => by
    have hcons : ∀ v ∈ vs, ∃ t ts, v.toks = t :: ts ∧ t ≠ ";" ∧ t ≠ "." := fun v hv => by
      have hc := h v hv
      cases ho : v.op with
      | none =>
        refine ⟨v.first, _, by rw [Version.toks, ho]; rfl, ?_, ?_⟩
        · intro hx; exact hc.first (by rw [hx]; decide)
        · intro hx; exact hc.first (by rw [hx]; decide)
      | some o =>
        exact ⟨o, _, by rw [Version.toks, ho]; rfl, (by decide : ∀ o ∈ ["<", "<=", ">=", ">", "^"], o ≠ ";" ∧ o ≠ ".") o (hc.op o ho)⟩
    have hne : ∀ v ∈ vs, v.toks ≠ [] ∧ Heads (· ≠ ";") v.toks := fun v hv => by
      obtain ⟨t, ts, hts, ht, _⟩ := hcons v hv
      rw [hts]
      exact ⟨by simp, heads_cons ht⟩
    have hl := flatMap_length Version.toks vs fun v hv => (hne v hv).1
    have hu := upTo_toks (p := versionAt) Version.toks (stop := ";") (rest := rest) vs hne (fun v hv r hr => versionAt_toks (h v hv) (by
      rcases hr with rfl | ⟨y, hy, r', rfl⟩
      · exact heads_cons (by decide)
      · obtain ⟨t, ts, hts, _, ht⟩ := hcons y hy
        rw [hts]
        exact heads_cons ht)) (vs.flatMap Version.toks ++ ";" :: rest).length (by simp only [List.length_append, List.length_cons]; omega)
    simp only [Item.toks, List.cons_append, List.append_assoc, List.nil_append]
    rw [itemAt, if_pos rfl, expect_cons]
    simp only [Option.bind_eq_bind, Option.bind_some, hu]
  | .import_ i, h, rest => by
    obtain ⟨ts, h1, h2⟩ := importAt_toks h.1 h.2 rest
    rw [Item.toks, h1, itemAt.eq_def]
    simp only [if_neg (show "import" ≠ "pragma" by decide), if_true, h2, Option.map_some]
  | .contract c, h, rest => by
    have hc := contractAt_toks h rest
    have hk := h.kind
    cases ha : c.abstract_ with
    | false =>
      rw [ha] at hc
      simp only [Item.toks, Contract.toks, ha, flag, List.nil_append, Bool.false_eq_true, if_false, List.cons_append, List.append_assoc]
      rw [itemAt, if_neg, if_neg, if_pos hk, hc]
      · rfl
      · exact (by decide : ∀ t ∈ contractKinds, t ≠ "import") _ hk
      · exact (by decide : ∀ t ∈ contractKinds, t ≠ "pragma") _ hk
    | true =>
      rw [ha] at hc
      simp only [Item.toks, Contract.toks, ha, flag, if_true, List.cons_append, List.append_assoc, List.nil_append]
      rw [itemAt, if_neg (by decide), if_neg (by decide), if_neg (by decide), if_pos rfl]
      simp only [if_pos hk, hc, Option.map_some]
  | .member x, h, rest => by
    obtain ⟨t, ts, hts, _, ht⟩ := member_cons x h
    have hm := memberAt_toks x h rest
    have hne : ∀ w ∈ ["pragma", "import", "abstract"] ++ contractKinds, t ≠ w := fun w hw htw => ht (htw ▸ hw)
    rw [hts, List.cons_append] at hm
    rw [Item.toks, hts, List.cons_append, itemAt.eq_def]
    simp only [if_neg (hne "pragma" (by decide)), if_neg (hne "import" (by decide)),
      if_neg (fun hx => ht ((by decide : ∀ t ∈ contractKinds, t ∈ ["pragma", "import", "abstract"] ++ contractKinds) t hx)),
      if_neg (hne "abstract" (by decide)), hm, Option.map_some]

theorem item_cons (x : Item) (h : x.Clear) : x.toks ≠ [] := by
  cases x with
  | pragma vs => simp [Item.toks]
  | import_ i => simp [Item.toks, Import.toks]
  | contract c => simp [Item.toks, Contract.toks]
  | member x =>
    obtain ⟨t, ts, hts, _⟩ := member_cons x h
    simp [Item.toks, hts]

theorem readItems_toks : (xs : List Item) → (∀ x ∈ xs, x.Clear) → (n : Nat) → xs.length < n → readItems n (xs.flatMap Item.toks) = some xs
  | [], _, n, hn => by
    obtain ⟨n, rfl⟩ : ∃ m, n = m + 1 := ⟨n - 1, by omega⟩
    simp [readItems]
  | x :: xs, h, n, hn => by
    obtain ⟨n, rfl⟩ : ∃ m, n = m + 1 := ⟨n - 1, by omega⟩
    have ih := readItems_toks xs (fun y hy => h y (List.mem_cons_of_mem _ hy)) n (by simp only [List.length_cons] at hn; omega)
    have hx := h x (List.mem_cons_self ..)
    have h1 := itemAt_toks x hx (xs.flatMap Item.toks)
    rw [List.flatMap_cons]
    cases ht : x.toks with
    | nil => exact absurd ht (item_cons x hx)
    | cons t ts =>
      rw [ht] at h1
      rw [List.cons_append] at h1 ⊢
      rw [readItems, h1]
      simp [ih]

/-- Reading the tokens of a file gives the file. -/
theorem readItems_file {f : SourceFile} (h : f.Clear) : readItems (f.toks.length + 1) f.toks = some f.items := by
  have hl := flatMap_length Item.toks f.items fun x hx => item_cons x (h.2 x hx)
  exact readItems_toks f.items h.2 _ (by unfold SourceFile.toks; omega)

/-! ### Without comments -/

mutual
theorem bare_toks : (s : Stmt) → s.bare.toks = s.toks
  | .expr _ => by rw [Stmt.bare] <;> simp
  | .decl _ _ => by rw [Stmt.bare] <;> simp
  | .block ss => by rw [Stmt.bare, Stmt.toks, Stmt.toks, bareStmts_toks ss]
  | .unchecked ss => by rw [Stmt.bare, Stmt.toks, Stmt.toks, bareStmts_toks ss]
  | .if_ c t => by rw [Stmt.bare, Stmt.toks, Stmt.toks, bare_toks t]
  | .ifElse c t f => by rw [Stmt.bare, Stmt.toks, Stmt.toks, bare_toks t, bare_toks f]
  | .while_ c b => by rw [Stmt.bare, Stmt.toks, Stmt.toks, bare_toks b]
  | .doWhile b c => by rw [Stmt.bare, Stmt.toks, Stmt.toks, bare_toks b]
  | .for_ i c s b => by rw [Stmt.bare, Stmt.toks, Stmt.toks, bare_toks i, bare_toks b]
  | .return_ _ => by rw [Stmt.bare] <;> simp
  | .emit _ => by rw [Stmt.bare] <;> simp
  | .revert _ => by rw [Stmt.bare] <;> simp
  | .break_ => by rw [Stmt.bare] <;> simp
  | .continue_ => by rw [Stmt.bare] <;> simp
  | .placeholder => by rw [Stmt.bare] <;> simp
  | .try_ e rs b cs => by rw [Stmt.bare, Stmt.toks, Stmt.toks, bareStmts_toks b, bareClauses_toks cs]
  | .clause n ps b => by rw [Stmt.bare, Stmt.toks, Stmt.toks, bareStmts_toks b]
  | .assembly _ _ => by rw [Stmt.bare] <;> simp
  | .comment _ => by rw [Stmt.bare] <;> simp
theorem bareStmts_toks : (ss : List Stmt) → stmtsToks (bareStmts ss) = stmtsToks ss
  | [] => by rw [bareStmts]
  | s :: ss => by
    by_cases h : ∃ t, s = .comment t
    · obtain ⟨t, rfl⟩ := h
      rw [bareStmts, stmtsToks, Stmt.toks, List.nil_append, bareStmts_toks ss]
    · rw [bareStmts, stmtsToks, stmtsToks, bare_toks s, bareStmts_toks ss]
      exact fun t ht => h ⟨t, ht⟩
theorem bareClauses_toks : (ss : List Stmt) → catchToks (bareClauses ss) = catchToks ss
  | [] => by rw [bareClauses]
  | s :: ss => by rw [bareClauses, catchToks, catchToks, bare_toks s, bareClauses_toks ss]
end

theorem bodyBare_toks (b : Option (List Stmt)) : bodyToks (b.map bareStmts) = bodyToks b := by
  cases b with
  | none => rfl
  | some ss => simp [bodyToks, Stmt.toks, bareStmts_toks]

theorem memberBare_toks (x : Member) : (x.bare.map Member.toks).getD [] = x.toks := by
  cases x <;> simp [Member.bare, Member.toks, Fn.bare, Fn.toks, bodyBare_toks]

theorem flatMap_bare {α : Type} (bare : α → Option α) (toks : α → List String) (h : ∀ x, ((bare x).map toks).getD [] = toks x) :
    (xs : List α) → (xs.filterMap bare).flatMap toks = xs.flatMap toks
  | [] => rfl
  | x :: xs => by
    have := h x
    cases hb : bare x with
    | none =>
      rw [hb] at this
      simp only [Option.map_none, Option.getD_none] at this
      rw [List.filterMap_cons_none hb, List.flatMap_cons, ← this, List.nil_append, flatMap_bare bare toks h xs]
    | some y =>
      rw [hb] at this
      simp only [Option.map_some, Option.getD_some] at this
      rw [List.filterMap_cons_some hb, List.flatMap_cons, List.flatMap_cons, this, flatMap_bare bare toks h xs]

theorem contractBare_toks (c : Contract) : c.bare.toks = c.toks := by
  simp only [Contract.toks, Contract.bare, flatMap_bare Member.bare Member.toks memberBare_toks]

theorem itemBare_toks (x : Item) : (x.bare.map Item.toks).getD [] = x.toks := by
  cases x with
  | pragma vs => rfl
  | import_ i => rfl
  | contract c => simp [Item.bare, Item.toks, contractBare_toks]
  | member x =>
    have := memberBare_toks x
    simp only [Item.bare, Item.toks, Option.map_map] at this ⊢
    rw [← this]
    cases x.bare <;> rfl

theorem fileBare_toks (f : SourceFile) : f.bare.toks = f.toks := flatMap_bare Item.bare Item.toks itemBare_toks f.items

end SolGrammar
end Mutagenyx
