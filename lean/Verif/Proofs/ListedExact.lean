import Verif.Proofs.Candidates

/-!
# Exactly which nodes are candidates with a function list

Used by C12.  The flag of the traversal after a node is the flag before it, unless the node contains a
listed one; with that the candidates of a node and of a list of children are described by induction.
-/

namespace Mutagenyx
open Json

/-- No node of the tree is listed. -/
def CleanTree (cx : LangCtx) (names : List String) (j : Json) : Prop :=
  ∀ s n, nodeAt s j = some n → listedName cx names n = false

/-- What the flag `k` at the beginning of `j` means for the position `p`. -/
def FlagAt (cx : LangCtx) (names : List String) (k : Prop) (p : Pos) (j : Json) : Prop :=
  ListedSoFar cx names p j ∨ (k ∧ NoneEndedBefore cx names p j)

theorem cleanTree_iff (cx : LangCtx) (names : List String) (j : Json) :
    CleanTree cx names j ↔ listedName cx names j = false ∧ ∀ c ∈ j.children, CleanTree cx names c := by
  constructor
  · intro h
    refine ⟨h [] j rfl, fun c hc s n hn => ?_⟩
    obtain ⟨d, hd⟩ := List.mem_iff_getElem?.1 hc
    exact h (d :: s) n (by simp [nodeAt, hd, hn])
  · rintro ⟨h0, h⟩ s n hn
    cases s with
    | nil => simp only [nodeAt, Option.some.injEq] at hn; rw [← hn]; exact h0
    | cons d s =>
      simp only [nodeAt] at hn
      split at hn
      · rename_i c hc
        exact h c (List.mem_of_getElem? hc) s n hn
      · cases hn

theorem noneEnded_nil (cx : LangCtx) (names : List String) (j : Json) :
    NoneEndedBefore cx names [] j := by
  intro s n _ _ hd
  cases s <;> exact hd.elim

theorem noneEnded_cons (cx : LangCtx) (names : List String) (j c : Json) (d : Nat) (p : Pos)
    (hd : j.children[d]? = some c) :
    NoneEndedBefore cx names (d :: p) j ↔
      (∀ b ∈ j.children.take d, CleanTree cx names b) ∧ NoneEndedBefore cx names p c := by
  constructor
  · intro h
    refine ⟨?_, ?_⟩
    · intro b hb s n hn
      obtain ⟨e, he⟩ := List.mem_iff_getElem?.1 hb
      have hlt : e < d := by
        obtain ⟨h1, _⟩ := List.getElem?_eq_some_iff.1 he
        simp only [List.length_take] at h1; omega
      rw [List.getElem?_take_of_lt hlt] at he
      cases hl : listedName cx names n with
      | false => rfl
      | true =>
        have := h (e :: s) n (by simp [nodeAt, he, hn]) hl (Or.inl hlt)
        obtain ⟨t, ht⟩ := this
        simp only [List.cons_append, List.cons.injEq] at ht
        omega
    · intro s n hn hl hs
      have := h (d :: s) n (by simp [nodeAt, hd, hn]) hl (Or.inr ⟨rfl, hs⟩)
      obtain ⟨t, ht⟩ := this
      simp only [List.cons_append, List.cons.injEq, true_and] at ht
      exact ⟨t, ht⟩
  · rintro ⟨h1, h2⟩ s n hn hl hs
    cases s with
    | nil => exact List.nil_prefix
    | cons e s =>
      simp only [nodeAt] at hn
      split at hn
      · rename_i b hb
        rcases hs with hlt | ⟨rfl, hs⟩
        · have hmem : b ∈ j.children.take d :=
            List.mem_iff_getElem?.2 ⟨e, by rw [List.getElem?_take_of_lt hlt]; exact hb⟩
          have := h1 b hmem s n hn
          rw [this] at hl; cases hl
        · rw [hd] at hb; cases hb
          obtain ⟨t, ht⟩ := h2 s n hn hl hs
          exact ⟨t, by rw [← ht]; rfl⟩
      · cases hn

theorem listedSoFar_nil (cx : LangCtx) (names : List String) (j : Json) :
    ListedSoFar cx names [] j ↔ listedName cx names j = true := by
  constructor
  · rintro ⟨q, r, n, hp, hn, hl, _⟩
    obtain ⟨rfl, rfl⟩ := List.append_eq_nil_iff.1 hp.symm
    simp only [nodeAt, Option.some.injEq] at hn
    rw [hn]; exact hl
  · intro h
    exact ⟨[], [], j, rfl, rfl, h, noneEnded_nil _ _ _⟩

theorem listedSoFar_cons (cx : LangCtx) (names : List String) (j c : Json) (d : Nat) (p : Pos)
    (hd : j.children[d]? = some c) :
    ListedSoFar cx names (d :: p) j ↔
      (listedName cx names j = true ∧ NoneEndedBefore cx names (d :: p) j) ∨
        ListedSoFar cx names p c := by
  constructor
  · rintro ⟨q, r, n, hp, hn, hl, hno⟩
    cases q with
    | nil =>
      simp only [nodeAt, Option.some.injEq] at hn
      subst hn
      rw [List.nil_append] at hp
      subst hp
      exact Or.inl ⟨hl, hno⟩
    | cons e q =>
      simp only [List.cons_append, List.cons.injEq] at hp
      obtain ⟨rfl, rfl⟩ := hp
      simp only [nodeAt, hd] at hn
      exact Or.inr ⟨q, r, n, rfl, hn, hl, hno⟩
  · rintro (⟨hl, hno⟩ | ⟨q, r, n, rfl, hn, hl, hno⟩)
    · exact ⟨[], d :: p, j, rfl, rfl, hl, hno⟩
    · exact ⟨d :: q, r, n, rfl, by simp [nodeAt, hd, hn], hl, hno⟩

theorem flagAt_nil (cx : LangCtx) (names : List String) (k : Prop) (j : Json) :
    FlagAt cx names k [] j ↔ (k ∨ listedName cx names j = true) := by
  unfold FlagAt
  rw [listedSoFar_nil]
  constructor
  · rintro (h | ⟨h, _⟩)
    · exact Or.inr h
    · exact Or.inl h
  · rintro (h | h)
    · exact Or.inr ⟨h, noneEnded_nil _ _ _⟩
    · exact Or.inl h

theorem flagAt_cons (cx : LangCtx) (names : List String) (k : Prop) (j c : Json) (d : Nat) (p : Pos)
    (hd : j.children[d]? = some c) :
    FlagAt cx names k (d :: p) j ↔
      FlagAt cx names ((k ∨ listedName cx names j = true) ∧
        ∀ b ∈ j.children.take d, CleanTree cx names b) p c := by
  unfold FlagAt
  rw [listedSoFar_cons cx names j c d p hd, noneEnded_cons cx names j c d p hd]
  constructor
  · rintro ((⟨h1, h2, h3⟩ | h) | ⟨h1, h2, h3⟩)
    · exact Or.inr ⟨⟨Or.inr h1, h2⟩, h3⟩
    · exact Or.inl h
    · exact Or.inr ⟨⟨Or.inl h1, h2⟩, h3⟩
  · rintro (h | ⟨⟨h1 | h1, h2⟩, h3⟩)
    · exact Or.inl (Or.inr h)
    · exact Or.inr ⟨h1, h2, h3⟩
    · exact Or.inl (Or.inl ⟨h1, h2, h3⟩)

/-- Candidates and flag of a node, and of a list of children, exactly. -/
theorem cand_exact_aux (cx : LangCtx) {names : List String} (hne : names ≠ []) (mut? : Json → Bool)
    (j : Json) : ∀ k : Bool,
    ((cand cx (functionPermissions names) mut? j k).2 = true ↔ k = true ∧ CleanTree cx names j) ∧
    ∀ p, p ∈ (cand cx (functionPermissions names) mut? j k).1 ↔
      ∃ n, nodeAt p j = some n ∧ mut? n = true ∧ FlagAt cx names (k = true) p j := by
  induction j using induct with
  | h j ih =>
    intro k
    have key : ∀ (xs : List Json) (i : Nat) (k : Bool),
        (∀ c ∈ xs, ∀ k : Bool,
          ((cand cx (functionPermissions names) mut? c k).2 = true ↔ k = true ∧ CleanTree cx names c) ∧
          ∀ p, p ∈ (cand cx (functionPermissions names) mut? c k).1 ↔
            ∃ n, nodeAt p c = some n ∧ mut? n = true ∧ FlagAt cx names (k = true) p c) →
        ((candList cx (functionPermissions names) mut? i xs k).2 = true ↔
          k = true ∧ ∀ c ∈ xs, CleanTree cx names c) ∧
        ∀ p, p ∈ (candList cx (functionPermissions names) mut? i xs k).1 ↔
          ∃ d c q n, p = (i + d) :: q ∧ xs[d]? = some c ∧ nodeAt q c = some n ∧ mut? n = true ∧
            FlagAt cx names (k = true ∧ ∀ b ∈ xs.take d, CleanTree cx names b) q c := by
      intro xs
      induction xs with
      | nil => intro i k _; simp [candList]
      | cons x xs ihx =>
        intro i k hx
        obtain ⟨h1, h2⟩ := hx x (by simp) k
        obtain ⟨g1, g2⟩ := ihx (i + 1) (cand cx (functionPermissions names) mut? x k).2
          (fun c hc => hx c (by simp [hc]))
        refine ⟨?_, ?_⟩
        · simp only [candList]
          rw [g1, h1]
          simp [and_assoc]
        · intro p
          simp only [candList, List.mem_append, List.mem_map]
          constructor
          · rintro (⟨q, hq, rfl⟩ | hp)
            · obtain ⟨n, hn, hm, hf⟩ := (h2 q).1 hq
              refine ⟨0, x, q, n, by simp, by simp, hn, hm, ?_⟩
              simpa [FlagAt] using hf
            · obtain ⟨d, c, q, n, rfl, hd, hn, hm, hf⟩ := (g2 p).1 hp
              refine ⟨d + 1, c, q, n, ?_, by simpa using hd, hn, hm, ?_⟩
              · rw [show i + 1 + d = i + (d + 1) by omega]
              · rw [h1] at hf
                simpa [and_assoc] using hf
          · rintro ⟨d, c, q, n, rfl, hd, hn, hm, hf⟩
            cases d with
            | zero =>
              simp only [List.getElem?_cons_zero, Option.some.injEq] at hd
              subst hd
              refine Or.inl ⟨q, (h2 q).2 ⟨n, hn, hm, ?_⟩, by simp⟩
              simpa [FlagAt] using hf
            | succ d =>
              refine Or.inr ((g2 _).2 ⟨d, c, q, n, ?_, by simpa using hd, hn, hm, ?_⟩)
              · rw [show i + 1 + d = i + (d + 1) by omega]
              · rw [h1]
                simpa [and_assoc] using hf
    obtain ⟨g1, g2⟩ := key j.children 0 (if listedName cx names j then true else k) ih
    have hk : ((if listedName cx names j then true else k) = true) ↔
        (k = true ∨ listedName cx names j = true) := by
      cases listedName cx names j <;> simp
    rw [cand_eq]
    simp only [visit_ok, mutate_eq_listed cx hne, mutateChildren_eq_listed cx hne, if_true]
    refine ⟨?_, ?_⟩
    · rw [cleanTree_iff]
      cases hl : listedName cx names j with
      | true => simp
      | false =>
        rw [hl] at g1
        simpa using g1
    · intro p
      rw [List.mem_append, g2]
      simp only [hk]
      cases p with
      | nil =>
        rw [flagAt_nil]
        simp only [nodeAt, Option.some.injEq]
        constructor
        · rintro (h | ⟨d, c, q, n, h, _⟩)
          · split at h
            · rename_i h'
              simp only [Bool.and_eq_true, Bool.or_eq_true] at h'
              exact ⟨j, rfl, h'.2, h'.1⟩
            · cases h
          · cases h
        · rintro ⟨n, rfl, hm, hf⟩
          refine Or.inl ?_
          rw [if_pos (by simp only [Bool.and_eq_true, Bool.or_eq_true]; exact ⟨hf, hm⟩)]
          simp
      | cons d p =>
        constructor
        · rintro (h | ⟨e, c, q, n, h, hd, hn, hm, hf⟩)
          · split at h <;> simp at h
          · simp only [Nat.zero_add, List.cons.injEq] at h
            obtain ⟨rfl, rfl⟩ := h
            refine ⟨n, by simp [nodeAt, hd, hn], hm, ?_⟩
            rw [flagAt_cons cx names _ j c d p hd]
            exact hf
        · rintro ⟨n, hn, hm, hf⟩
          simp only [nodeAt] at hn
          split at hn
          · rename_i c hd
            rw [flagAt_cons cx names _ j c d p hd] at hf
            exact Or.inr ⟨d, c, p, n, by simp, hd, hn, hm, hf⟩
          · cases hn

theorem cand_exact (cx : LangCtx) {names : List String} (hne : names ≠ []) (mut? : Json → Bool)
    (j : Json) (p : Pos) :
    p ∈ (cand cx (functionPermissions names) mut? j false).1 ↔
      ∃ n, nodeAt p j = some n ∧ mut? n = true ∧ ListedSoFar cx names p j := by
  have h := (cand_exact_aux cx hne mut? j false).2 p
  simpa [FlagAt] using h

end Mutagenyx
