import Verif.Proofs.LoopLog
import Verif.Proofs.Select

/-! Helper lemmas about `generateMutations`. -/

namespace Mutagenyx
variable {R : Type}

namespace Run
theorem bind_def {α β : Type} (x : Run α) (f : α → Run β) (log : List Ev) :
    (x >>= f) log = match x log with
      | (.ok a, log') => f a log'
      | (.err e, log') => (.err e, log')
      | (.panic, log') => (.panic, log')
      | (.outOfFuel, log') => (.outOfFuel, log') := rfl

theorem pure_def {α : Type} (a : α) (log : List Ev) : (pure a : Run α) log = (.ok a, log) := rfl

/-- Failure of the first part is failure of the whole. -/
theorem bind_cases {α β : Type} {x : Run α} {f : α → Run β} {log log' : List Ev} {o : Outcome β}
    (h : (x >>= f) log = (o, log')) :
    (∃ a l1, x log = (.ok a, l1) ∧ f a l1 = (o, log')) ∨
    ((∀ a, x log ≠ (.ok a, log')) ∧ (∀ b, o ≠ .ok b) ∧ (x log).2 = log') := by
  rw [bind_def] at h
  cases hx : x log with
  | mk r l1 =>
    rw [hx] at h
    cases r with
    | ok a => left; exact ⟨a, l1, rfl, h⟩
    | err e => right; cases h; exact ⟨by simp, by simp, rfl⟩
    | panic => right; cases h; exact ⟨by simp, by simp, rfl⟩
    | outOfFuel => right; cases h; exact ⟨by simp, by simp, rfl⟩
end Run

/-- The event of the original, if it is to be printed. -/
def originalEvents (lang : Lang R) (p : Params R) (ast : Json) : List Ev :=
  if p.printOriginal then
    [.output (if p.useStdout then none else printTarget lang.ext p.fileName p.outputDirectory) (.original ast)]
  else []

/-- The event of the configuration, if it is to be saved. -/
def configEvents (w : World R) (lang : Lang R) (p : Params R) : List Ev :=
  if p.saveConfig then
    [.output (if p.useStdout then none else configTarget p.fileName p.outputDirectory)
      (.config (savedConfig w.defaultCompiler lang.language p))]
  else []

theorem emit_ok {w : World R} {d : Option String} {it : Item} {log log' : List Ev}
    (h : Run.emit w d it log = (.ok (), log')) : log' = log ++ [.output d it] := by
  unfold Run.emit at h
  cases ho : w.output log d it <;> rw [ho] at h <;> cases h
  rfl

theorem emit_fail {w : World R} {d : Option String} {it : Item} {log : List Ev}
    (h : (Run.emit w d it log).1 ≠ .ok ()) : (Run.emit w d it log).2 = log := by
  unfold Run.emit at h ⊢
  cases ho : w.output log d it <;> rw [ho] at h <;> simp_all

theorem unwrap_cases {α : Type} (o : Option α) (log : List Ev) :
    (∃ a, o = some a ∧ unwrap o log = (.ok a, log)) ∨ (o = none ∧ unwrap o log = (.panic, log)) := by
  cases o with
  | none => right; exact ⟨rfl, rfl⟩
  | some a => left; exact ⟨a, rfl, rfl⟩

theorem printOriginal_spec (w : World R) (lang : Lang R) (p : Params R) (ast : Json) (log : List Ev) :
    (printOriginalStep w lang p ast log = (.ok (), log ++ originalEvents lang p ast)) ∨
    ((printOriginalStep w lang p ast log).1 ≠ .ok () ∧ (printOriginalStep w lang p ast log).2 = log) := by
  unfold printOriginalStep originalEvents
  by_cases hp : p.printOriginal = true
  · simp only [hp, if_true]
    by_cases hs : p.useStdout = true
    · simp only [hs, if_true]
      cases he : Run.emit w none (.original ast) log with
      | mk o l =>
        by_cases ho : o = .ok ()
        · subst ho; left; rw [emit_ok he]
        · right
          have := emit_fail (w := w) (d := none) (it := .original ast) (log := log) (by rw [he]; exact ho)
          rw [he] at this
          exact ⟨ho, this⟩
    · simp only [hs, Bool.false_eq_true, if_false]
      rw [Run.bind_def]
      rcases unwrap_cases (printTarget lang.ext p.fileName p.outputDirectory) log with ⟨f, h1, h2⟩ | ⟨h1, h2⟩
      · rw [h2, h1]
        simp only
        cases he : Run.emit w (some f) (.original ast) log with
        | mk o l =>
          by_cases ho : o = .ok ()
          · subst ho; left; rw [emit_ok he]
          · right
            have := emit_fail (w := w) (d := some f) (it := .original ast) (log := log) (by rw [he]; exact ho)
            rw [he] at this
            exact ⟨ho, this⟩
      · rw [h2]; right; simp
  · left; simp [hp, Run.pure_def]

theorem saveConfig_spec (w : World R) (lang : Lang R) (p : Params R) (log : List Ev) :
    (saveConfigStep w lang p log = (.ok (), log ++ configEvents w lang p)) ∨
    ((saveConfigStep w lang p log).1 ≠ .ok () ∧ (saveConfigStep w lang p log).2 = log) := by
  unfold saveConfigStep configEvents
  by_cases hp : p.saveConfig = true
  · simp only [hp, if_true]
    rw [Run.bind_def]
    rcases unwrap_cases (configTarget p.fileName p.outputDirectory) log with ⟨f, h1, h2⟩ | ⟨h1, h2⟩
    · rw [h2, h1]
      simp only
      by_cases hs : p.useStdout = true
      · simp only [hs, if_true]
        cases he : Run.emit w none (.config (savedConfig w.defaultCompiler lang.language p)) log with
        | mk o l =>
          by_cases ho : o = .ok ()
          · subst ho; left; rw [emit_ok he]
          · right
            have := emit_fail (w := w) (d := none) (it := .config (savedConfig w.defaultCompiler lang.language p)) (log := log)
              (by rw [he]; exact ho)
            rw [he] at this
            exact ⟨ho, this⟩
      · simp only [hs, Bool.false_eq_true, if_false]
        cases he : Run.emit w (some f) (.config (savedConfig w.defaultCompiler lang.language p)) log with
        | mk o l =>
          by_cases ho : o = .ok ()
          · subst ho; left; rw [emit_ok he]
          · right
            have := emit_fail (w := w) (d := some f) (it := .config (savedConfig w.defaultCompiler lang.language p)) (log := log)
              (by rw [he]; exact ho)
            rw [he] at this
            exact ⟨ho, this⟩
    · rw [h2]; right; simp
  · left; simp [hp, Run.pure_def]

/-- What the mutation loop of a file uses. -/
def fileCtx (w : World R) (p : Params R) (before : List Ev) (language : Language) (ast : Json) : LoopCtx R :=
  loopCtx w (w.lang language) p (w.shuffle (selectMutators (w.lang language) p.mutations))
      (countMutableNodes (w.lang language).ctx (functionPermissions p.functions)
        (w.shuffle (selectMutators (w.lang language) p.mutations)) ast)
      (calculateNodePaths (w.lang language).ctx (functionPermissions p.functions) ast) ast
      (before ++ originalEvents (w.lang language) p ast ++ configEvents w (w.lang language) p)

theorem fileCtx_verify (w : World R) (p : Params R) (before : List Ev) (language : Language) (ast : Json) :
    (fileCtx w p before language ast).verify = p.verify := rfl

variable [Rand R]

/-- What happened when the mutation loop of a file ran. -/
structure LoopRan (w : World R) (fuel : Nat) (p : Params R) (before : List Ev) (o : Outcome Unit)
    (language : Language) (ft : FileType) (ast : Json) (todo : List MutationType) (rng : R)
    (s : LoopState R) : Prop where
  recognized : w.recognize before p.fileName p.preferences = .ok (language, ft)
  notConfig : ft ≠ .config
  loaded : w.load before language ft p.fileName p.preferences = .ok ast
  selected : selectAlgorithms fuel
    (countMutableNodes (w.lang language).ctx (functionPermissions p.functions)
      (w.shuffle (selectMutators (w.lang language) p.mutations)) ast) p.numberOfMutants p.rng = .ok (todo, rng)
  loop : mutLoop (fileCtx w p before language ast)
    (51 * todo.length + 1) { todo := todo, rng := rng } = some (o, s)

theorem mutationPhase_spec (w : World R) (lang : Lang R) (p : Params R) (ms : List (Mutator R))
    (table : CountTable) (paths : PathMap) (ast : Json) (todo : List MutationType) (rng : R) (before : List Ev) :
    ∃ o s, mutLoop (loopCtx w lang p ms table paths ast before) (51 * todo.length + 1)
        { todo := todo, rng := rng } = some (o, s) ∧
      mutationPhase w lang p ms table paths ast todo rng before = (o, before ++ s.log) := by
  obtain ⟨o, s, -, -, -, h1, -⟩ := mutLoop_spec (loopCtx w lang p ms table paths ast before) todo
    (51 * todo.length + 1) _ [] (loopInv_init _ todo rng) (by simp only [loopMeasure]; omega)
  refine ⟨o, s, h1, ?_⟩
  unfold mutationPhase
  rw [h1]

/-- The shape of the run for one file. -/
theorem generate_decompose (w : World R) (fuel : Nat) (p : Params R) (before log' : List Ev)
    (o : Outcome Unit) (h : generateMutations w fuel p before = (o, log')) :
    (o ≠ .ok () ∧ ∃ pre, log' = before ++ pre ∧
      (pre = [] ∨ ∃ language ast, pre = originalEvents (w.lang language) p ast ∨
        pre = originalEvents (w.lang language) p ast ++ configEvents w (w.lang language) p)) ∨
    ∃ language ft ast todo rng s, LoopRan w fuel p before o language ft ast todo rng s ∧
      log' = before ++ originalEvents (w.lang language) p ast ++ configEvents w (w.lang language) p ++ s.log := by
  unfold generateMutations at h
  rcases Run.bind_cases h with ⟨⟨language, ft⟩, l1, h1, hA⟩ | ⟨-, h2, h3⟩
  rotate_left
  · exact Or.inl ⟨h2 (), [], by rw [← h3]; simp [Run.lift], Or.inl rfl⟩
  have hl1 : l1 = before := by unfold Run.lift at h1; injection h1 with _ e; exact e.symm
  subst hl1
  have hrec : w.recognize l1 p.fileName p.preferences = .ok (language, ft) := by
    unfold Run.lift at h1; injection h1
  simp only at hA
  rcases Run.bind_cases hA with ⟨ast, l2, h1', hB⟩ | ⟨-, h2, h3⟩
  rotate_left
  · exact Or.inl ⟨h2 (), [], by rw [← h3]; simp [Run.lift], Or.inl rfl⟩
  have hl2 : l2 = l1 := by unfold Run.lift at h1'; injection h1' with _ e; exact e.symm
  subst hl2
  have hload : ft ≠ .config ∧ w.load l2 language ft p.fileName p.preferences = .ok ast := by
    unfold Run.lift at h1'
    injection h1' with e _
    cases ft with
    | config => cases e
    | source => exact ⟨by simp, e⟩
    | ast => exact ⟨by simp, e⟩
  split at hB
  · left
    unfold Run.lift at hB
    injection hB with e1 e2
    exact ⟨by rw [← e1]; simp, [], by rw [← e2]; simp, Or.inl rfl⟩
  · rcases Run.bind_cases hB with ⟨⟨⟩, l3, h1'', hC⟩ | ⟨-, h2, h3⟩
    rotate_left
    · rcases printOriginal_spec w (w.lang language) p ast l2 with hp | ⟨-, hp⟩
      · refine Or.inl ⟨h2 (), originalEvents (w.lang language) p ast, ?_, Or.inr ⟨language, ast, Or.inl rfl⟩⟩
        rw [← h3, hp]
      · exact Or.inl ⟨h2 (), [], by rw [← h3, hp]; simp, Or.inl rfl⟩
    have hl3 : l3 = l2 ++ originalEvents (w.lang language) p ast := by
      rcases printOriginal_spec w (w.lang language) p ast l2 with hp | ⟨hp, -⟩
      · rw [hp] at h1''; injection h1'' with _ e; exact e.symm
      · rw [h1''] at hp; exact absurd rfl hp
    subst hl3
    rcases Run.bind_cases hC with ⟨⟨⟩, l4, h1''', hD⟩ | ⟨-, h2, h3⟩
    rotate_left
    · rcases saveConfig_spec w (w.lang language) p (l2 ++ originalEvents (w.lang language) p ast) with hp | ⟨-, hp⟩
      · refine Or.inl ⟨h2 (), originalEvents (w.lang language) p ast ++ configEvents w (w.lang language) p, ?_,
          Or.inr ⟨language, ast, Or.inr rfl⟩⟩
        rw [← h3, hp]; simp
      · refine Or.inl ⟨h2 (), originalEvents (w.lang language) p ast, ?_, Or.inr ⟨language, ast, Or.inl rfl⟩⟩
        rw [← h3, hp]
    have hl4 : l4 = l2 ++ originalEvents (w.lang language) p ast ++ configEvents w (w.lang language) p := by
      rcases saveConfig_spec w (w.lang language) p (l2 ++ originalEvents (w.lang language) p ast) with hp | ⟨hp, -⟩
      · rw [hp] at h1'''; injection h1''' with _ e; exact e.symm
      · rw [h1'''] at hp; exact absurd rfl hp
    subst hl4
    rcases Run.bind_cases hD with ⟨⟨todo, rng⟩, l5, h5, hE⟩ | ⟨-, h2, h3⟩
    rotate_left
    · refine Or.inl ⟨h2 (), originalEvents (w.lang language) p ast ++ configEvents w (w.lang language) p, ?_,
        Or.inr ⟨language, ast, Or.inr rfl⟩⟩
      rw [← h3]; simp [Run.lift]
    unfold Run.lift at h5
    injection h5 with hsel hl5
    subst hl5
    simp only at hE
    obtain ⟨o', s, hloop, hphase⟩ := mutationPhase_spec w (w.lang language) p
      (w.shuffle (selectMutators (w.lang language) p.mutations))
      (countMutableNodes (w.lang language).ctx (functionPermissions p.functions)
        (w.shuffle (selectMutators (w.lang language) p.mutations)) ast)
      (calculateNodePaths (w.lang language).ctx (functionPermissions p.functions) ast) ast todo rng
      (l2 ++ originalEvents (w.lang language) p ast ++ configEvents w (w.lang language) p)
    rw [hphase] at hE
    injection hE with ho hlog
    subst ho
    right
    exact ⟨language, ft, ast, todo, rng, s, ⟨hrec, hload.1, hload.2, hsel, hloop⟩, hlog.symm⟩

omit [Rand R] in
/-- The mutator table has one entry per algorithm. -/
theorem selectMutators_nodup (l : Lang R) (types : List MutationType) :
    ((selectMutators l types).map (·.implements)).Nodup := by
  have hmem : ∀ (m : Mutator R) (tbl : List (Mutator R)) t, t ∈ (insertMutator m tbl).map (·.implements) →
      t = m.implements ∨ t ∈ tbl.map (·.implements) := by
    intro m tbl
    induction tbl with
    | nil => intro t h; left; simpa [insertMutator] using h
    | cons x xs ih =>
      intro t h
      simp only [insertMutator] at h
      split at h
      · simp only [List.map_cons, List.mem_cons] at h ⊢
        rcases h with h | h
        · exact Or.inl h
        · exact Or.inr (Or.inr h)
      · simp only [List.map_cons, List.mem_cons] at h ⊢
        rcases h with h | h
        · exact Or.inr (Or.inl h)
        · rcases ih t h with h | h
          · exact Or.inl h
          · exact Or.inr (Or.inr h)
  have hins : ∀ (m : Mutator R) (tbl : List (Mutator R)), (tbl.map (·.implements)).Nodup →
      ((insertMutator m tbl).map (·.implements)).Nodup := by
    intro m tbl
    induction tbl with
    | nil => intro _; simp [insertMutator]
    | cons x xs ih =>
      intro h
      simp only [insertMutator]
      split
      · rename_i hx
        simp only [List.map_cons, List.nodup_cons] at h ⊢
        rw [← hx]; exact h
      · rename_i hx
        simp only [List.map_cons, List.nodup_cons] at h ⊢
        refine ⟨fun hm => ?_, ih h.2⟩
        rcases hmem m xs _ hm with h' | h'
        · exact hx h'
        · exact h.1 h'
  unfold selectMutators
  have : ∀ (ms tbl : List (Mutator R)), (tbl.map (·.implements)).Nodup →
      ((ms.foldl (fun tbl m => insertMutator m tbl) tbl).map (·.implements)).Nodup := by
    intro ms
    induction ms with
    | nil => intro tbl h; exact h
    | cons m ms ih => intro tbl h; exact ih _ (hins m tbl h)
  exact this _ [] (by simp)

end Mutagenyx
