import Verif.Spec.Runs
import Verif.Proofs.Repro
import Verif.Props.Config

/-!
# C17, C18, C19 and C21: whole runs
-/

namespace Mutagenyx
variable {R : Type}

/-! ### C17 -/

theorem Run.lift_def {α : Type} (f : List Ev → Outcome α) (log : List Ev) :
    Run.lift f log = (f log, log) := rfl

theorem runAll_shuffle [Rand R] (w : World R) (sh : List (Mutator R) → List (Mutator R))
    (h1 : ∀ l, (w.shuffle l).Perm l) (h2 : ∀ l, (sh l).Perm l) (fuel : Nat) (ps : List (Params R)) :
    runAll w fuel ps = runAll { w with shuffle := sh } fuel ps := by
  induction ps with
  | nil => rfl
  | cons p ps ih =>
    unfold runAll
    rw [ih, generate_shuffle w sh h1 h2]

theorem collect_order (w : World R) (sh : List (Mutator R) → List (Mutator R)) {o1 o2 : List MutationType}
    (ho : o1.Perm o2) (hn : o1.Nodup) (a : Args) (fs : List String) :
    ∀ seed, collectParams w o1 a fs seed = collectParams { w with shuffle := sh } o2 a fs seed := by
  have hall : MutationType.getAll o1 = MutationType.getAll o2 := by
    unfold MutationType.getAll
    exact MutationType.sortStr_eq_of_perm hn ho
  have harg : argMutations o1 a = argMutations o2 a := by unfold argMutations; rw [hall]
  induction fs with
  | nil => intro seed; rfl
  | cons f fs ih =>
    intro seed
    unfold collectParams
    congr 1
    funext x
    obtain ⟨lang, ft⟩ := x
    have hc : ∀ c, configParams w.toStart o1 a lang c seed = configParams w.toStart o2 a lang c seed := by
      intro c
      unfold configParams
      rw [hall, harg]
    have hp : plainParams w.toStart o1 a f seed = plainParams w.toStart o2 a f seed := by
      unfold plainParams
      rw [harg]
    cases ft <;> simp only [ih, hc, hp]

/-- **C17, partial.** The result of a run and everything it writes do not depend on the iteration order of
the mutator table or of the table of all algorithms.  Missing: the hash map inside the
function-argument-swap mutator, where the order does matter (see `C17_swap_arguments_counterexample`). -/
theorem C17_table_order_irrelevant_partial [Rand R] (w : World R) (sh : List (Mutator R) → List (Mutator R))
    (h1 : ∀ l, (w.shuffle l).Perm l) (h2 : ∀ l, (sh l).Perm l) (o1 o2 : List MutationType)
    (ho : o1.Perm o2) (hn : o1.Nodup) (fuel : Nat) (a : Args) (log : List Ev) :
    generateMutants w o1 fuel a log = generateMutants { w with shuffle := sh } o2 fuel a log := by
  unfold generateMutants
  rw [collect_order w sh ho hn]
  have : (fun ps => runAll w fuel ps) = fun ps => runAll { w with shuffle := sh } fuel ps :=
    funext (runAll_shuffle w sh h1 h2 fuel)
  rw [this]

/-! ### C19 -/

theorem config_fields (st : Start R) (order : List MutationType) (a : Args) (lang : Language) (c : Config)
    (seed : Nat) : (configParams st order a lang c seed).2 = c.seed.getD seed ∧
    (configParams st order a lang c seed).1.map (·.fileName) = c.filenames ∧
    ∀ q ∈ (configParams st order a lang c seed).1, FromConfig st order a lang c (c.seed.getD seed) q := by
  have hmain : ∀ (f dir : String) (std : Bool),
      (c.outputDirectory = some "stdout" → std = true ∧ dir = a.outputDirectory) →
      (∀ d, c.outputDirectory = some d → d ≠ "stdout" → std = a.stdout ∧ dir = d) →
      (c.outputDirectory = none → std = a.stdout ∧ dir = a.outputDirectory) →
      FromConfig st order a lang c (c.seed.getD seed)
        { fileName := f
          numberOfMutants := i64AsU64 c.numberOfMutants
          rngSeed := c.seed.getD seed
          rng := st.seedRng (c.seed.getD seed)
          outputDirectory := dir
          useStdout := std
          mutations := if c.allMutations then MutationType.getAll order
            else if c.mutations.isEmpty then argMutations order a else c.mutations
          verify := c.verifyMutants
          printOriginal := c.printOriginal
          saveConfig := a.saveConfig
          preferences := overridePrefs lang c.compilerDetails a.preferences
          functions := if c.functions.isEmpty then a.functions else c.functions } := by
    intro f dir std g1 g2 g3
    constructor
    · intro h0 h1
      simp only [i64AsU64]
      omega
    · rfl
    · rfl
    · rfl
    · rfl
    · intro h; simp [h]
    · intro h1 h2; simp [h1, h2]
    · intro h1 h2; simp [h1, h2]
    · intro h; simp [h]
    · intro h; simp [h]
    · exact g1
    · exact g2
    · exact g3
    · rfl
    · intro d lp h1 h2
      simp only [overridePrefs, h1, h2]
      refine ⟨lp.setPrefs "compiler" d, ?_, ?_, ?_, ?_⟩
      · simp [Prefs.getPrefs, Prefs.setPrefs, Prefs.get?_set]
      · simp [Prefs.getPrefs, Prefs.setPrefs, Prefs.get?_set]
      · intro k hk; simp [Prefs.setPrefs, Prefs.get?_set, Ne.symm hk]
      · intro k hk; simp [Prefs.setPrefs, Prefs.get?_set, Ne.symm hk]
    · intro h; simp only [overridePrefs, h]
  unfold configParams
  simp only
  cases hod : c.outputDirectory with
  | none =>
    refine ⟨trivial, by simp only [List.map_map]; exact List.map_id c.filenames, ?_⟩
    intro q hq
    simp only [List.mem_map] at hq
    obtain ⟨f, hf, rfl⟩ := hq
    exact hmain f _ _ (by simp [hod]) (by simp [hod]) (by simp [hod])
  | some d =>
    by_cases hd : d = "stdout"
    · simp only [hd, if_true]
      refine ⟨trivial, by simp only [List.map_map]; exact List.map_id c.filenames, ?_⟩
      intro q hq
      simp only [List.mem_map] at hq
      obtain ⟨f, hf, rfl⟩ := hq
      exact hmain f _ _ (by simp) (by simp [hod, hd]) (by simp [hod])
    · simp only [hd, if_false]
      refine ⟨trivial, by simp only [List.map_map]; exact List.map_id c.filenames, ?_⟩
      intro q hq
      simp only [List.mem_map] at hq
      obtain ⟨f, hf, rfl⟩ := hq
      exact hmain f _ _ (by simp [hod, hd]) (by simp [hod]) (by simp [hod])

theorem collect_log (w : World R) (order : List MutationType) (a : Args) (fs : List String) :
    ∀ seed log, (collectParams w order a fs seed log).2 = log := by
  induction fs with
  | nil => intro _ _; rfl
  | cons f fs ih =>
    intro seed log
    unfold collectParams
    rw [Run.bind_def]
    simp only [Run.lift_def]
    cases hr : w.recognize log f a.preferences with
    | ok x =>
      obtain ⟨lang, ft⟩ := x
      have plain : ((do
          let rest ← collectParams w order a fs seed
          pure (plainParams w.toStart order a f seed :: rest) : Run _) log).2 = log := by
        rw [Run.bind_def]
        have := ih seed log
        cases hx : collectParams w order a fs seed log with
        | mk o l => rw [hx] at this; subst this; cases o <;> rfl
      cases ft with
      | source => exact plain
      | ast => exact plain
      | config =>
        simp only
        rw [Run.bind_def]
        simp only [Run.lift_def]
        cases hc : Config.newFromFile f (w.loadJson log f) with
        | ok c =>
          simp only
          rw [Run.bind_def]
          have := ih (configParams w.toStart order a lang c seed).2 log
          cases hx : collectParams w order a fs (configParams w.toStart order a lang c seed).2 log with
          | mk o l => rw [hx] at this; subst this; cases o <;> rfl
        | err e => rfl
        | panic => rfl
        | outOfFuel => rfl
    | err e => rfl
    | panic => rfl
    | outOfFuel => rfl

/-- **C19, partial.** The parameters collected for the inputs are, in order: for each source or AST file,
those of the command line; for each configuration file, one for each of its files, following the
documented precedence, where a seed missing from the configuration file is taken from the last earlier
configuration file that gave one, otherwise from the command line.  Missing: that a missing seed is always
taken from the command line, which is false (`C19_seed_counterexample`). -/
theorem C19_precedence_partial (w : World R) (order : List MutationType) (a : Args) (log log' : List Ev)
    (ps : List (Params R))
    (h : collectParams w order a a.files (argSeed w.toStart a) log = (.ok ps, log')) :
    Collected w order a log none a.files ps := by
  have key : ∀ (fs : List String) (s : Option Nat) (ps : List (Params R)) (log' : List Ev),
      collectParams w order a fs (s.getD (argSeed w.toStart a)) log = (.ok ps, log') →
      Collected w order a log s fs ps := by
    intro fs
    induction fs with
    | nil =>
      intro s ps log' h
      unfold collectParams at h
      cases h
      exact .nil s
    | cons f fs ih =>
      intro s ps log' h
      unfold collectParams at h
      rw [Run.bind_def] at h
      simp only [Run.lift_def] at h
      cases hr : w.recognize log f a.preferences with
      | ok x =>
        rw [hr] at h
        obtain ⟨lang, ft⟩ := x
        have plain : ft ≠ .config → ((do
            let rest ← collectParams w order a fs (s.getD (argSeed w.toStart a))
            pure (plainParams w.toStart order a f (s.getD (argSeed w.toStart a)) :: rest) : Run _) log) = (.ok ps, log') →
            Collected w order a log s (f :: fs) ps := by
          intro hft h
          rw [Run.bind_def] at h
          cases hx : collectParams w order a fs (s.getD (argSeed w.toStart a)) log with
          | mk o l =>
            rw [hx] at h
            cases o with
            | ok rest =>
              simp only [Run.pure_def, Prod.mk.injEq, Outcome.ok.injEq] at h
              rw [← h.1]
              exact .plain hr hft ⟨rfl, rfl, rfl, rfl, rfl, rfl, rfl, rfl, rfl, rfl, rfl, rfl⟩ (ih s rest l hx)
            | err e => cases h
            | panic => cases h
            | outOfFuel => cases h
        cases ft with
        | source => exact plain (by simp) h
        | ast => exact plain (by simp) h
        | config =>
          simp only at h
          rw [Run.bind_def] at h
          simp only [Run.lift_def] at h
          cases hc : Config.newFromFile f (w.loadJson log f) with
          | ok c =>
            rw [hc] at h
            simp only at h
            rw [Run.bind_def] at h
            obtain ⟨e1, e2, e3⟩ := config_fields w.toStart order a lang c (s.getD (argSeed w.toStart a))
            have hs : c.seed.getD (s.getD (argSeed w.toStart a)) = (c.seed.or s).getD (argSeed w.toStart a) := by
              cases c.seed <;> rfl
            rw [e1, hs] at h
            cases hx : collectParams w order a fs ((c.seed.or s).getD (argSeed w.toStart a)) log with
            | mk o l =>
              rw [hx] at h
              cases o with
              | ok rest =>
                simp only [Run.pure_def, Prod.mk.injEq, Outcome.ok.injEq] at h
                rw [← h.1]
                rw [hs] at e3
                exact .config hr hc e2 e3 (ih _ rest l hx)
              | err e => cases h
              | panic => cases h
              | outOfFuel => cases h
          | err e => rw [hc] at h; cases h
          | panic => rw [hc] at h; cases h
          | outOfFuel => rw [hc] at h; cases h
      | err e => rw [hr] at h; cases h
      | panic => rw [hr] at h; cases h
      | outOfFuel => rw [hr] at h; cases h
  exact key a.files none ps log' h

/-! ### C21 -/

/-- **C21**: parameters are collected without writing anything, so an error in them (an input that is not
recognised, a bad configuration file) ends the run before any output. -/
theorem C21_parameter_errors_first [Rand R] (w : World R) (order : List MutationType) (fuel : Nat) (a : Args)
    (log : List Ev)
    (h : ∀ ps, (collectParams w order a a.files (argSeed w.toStart a) log).1 ≠ .ok ps) :
    (generateMutants w order fuel a log).2 = log ∧ (generateMutants w order fuel a log).1 ≠ .ok () := by
  unfold generateMutants
  rw [Run.bind_def]
  have hl := collect_log w order a a.files (argSeed w.toStart a) log
  cases hx : collectParams w order a a.files (argSeed w.toStart a) log with
  | mk o l =>
    rw [hx] at hl h
    cases o with
    | ok ps => exact absurd rfl (h ps)
    | err e => exact ⟨hl, by simp⟩
    | panic => exact ⟨hl, by simp⟩
    | outOfFuel => exact ⟨hl, by simp⟩

/-- **C21**: processing a file only adds to the log, whatever its outcome. -/
theorem C21_output_only_added [Rand R] (w : World R) (fuel : Nat) (p : Params R) (log : List Ev) :
    ∃ own, (generateMutations w fuel p log).2 = log ++ own := by
  cases h : generateMutations w fuel p log with
  | mk o log' =>
    rcases generate_decompose w fuel p log log' o h with ⟨-, pre, h1, -⟩ | ⟨lg, ft, ast, todo, rng, s, -, h1⟩
    · exact ⟨pre, h1⟩
    · exact ⟨originalEvents (w.lang lg) p ast ++ configEvents w (w.lang lg) p ++ s.log, by
        rw [h1]; simp only [List.append_assoc]⟩

/-- **C21**: once the parameters are known, either every file is processed, in order, or there is a first
failing one: the files before it were processed completely, its own failure is the result of the run, its
own output is the last of the log, and nothing of the later files happens. -/
theorem C21_first_failure_stops [Rand R] (w : World R) (order : List MutationType) (fuel : Nat) (a : Args)
    (log : List Ev) (ps : List (Params R)) (log0 : List Ev)
    (hps : collectParams w order a a.files (argSeed w.toStart a) log = (.ok ps, log0)) :
    (∃ log', AllDone w fuel ps log log' ∧ generateMutants w order fuel a log = (.ok (), log')) ∨
    ∃ done p later mid, ps = done ++ p :: later ∧ AllDone w fuel done log mid ∧
      (generateMutations w fuel p mid).1 ≠ .ok () ∧
      generateMutants w order fuel a log = generateMutations w fuel p mid := by
  have key : ∀ (ps : List (Params R)) (log : List Ev),
      (∃ log', AllDone w fuel ps log log' ∧ runAll w fuel ps log = (.ok (), log')) ∨
      ∃ done p later mid, ps = done ++ p :: later ∧ AllDone w fuel done log mid ∧
        (generateMutations w fuel p mid).1 ≠ .ok () ∧ runAll w fuel ps log = generateMutations w fuel p mid := by
    intro ps
    induction ps with
    | nil => intro log; left; exact ⟨log, .nil log, rfl⟩
    | cons p ps ih =>
      intro log
      unfold runAll
      rw [Run.bind_def]
      cases hg : generateMutations w fuel p log with
      | mk o l =>
        have fail : o ≠ .ok () → ∃ done q later mid, p :: ps = done ++ q :: later ∧ AllDone w fuel done log mid ∧
            (generateMutations w fuel q mid).1 ≠ .ok () ∧ (o, l) = generateMutations w fuel q mid := by
          intro ho
          exact ⟨[], p, ps, log, rfl, .nil log, by rw [hg]; exact ho, hg.symm⟩
        cases o with
        | ok u =>
          cases u
          simp only
          rcases ih l with ⟨log', h1, h2⟩ | ⟨done, q, later, mid, h1, h2, h3, h4⟩
          · left; exact ⟨log', .cons hg h1, h2⟩
          · right; exact ⟨p :: done, q, later, mid, by rw [h1]; rfl, .cons hg h2, h3, h4⟩
        | err e => right; exact fail (by simp)
        | panic => right; exact fail (by simp)
        | outOfFuel => right; exact fail (by simp)
  have hl : log0 = log := by
    have := collect_log w order a a.files (argSeed w.toStart a) log
    rw [hps] at this; exact this
  have hgen : generateMutants w order fuel a log = runAll w fuel ps log := by
    unfold generateMutants
    rw [Run.bind_def, hps, hl]
  rw [hgen]
  exact key ps log

/-! ### C18 -/

theorem collected_seed (w : World R) (order : List MutationType) (a : Args) (log : List Ev)
    {s : Option Nat} {fs : List String} {ps : List (Params R)} (h : Collected w order a log s fs ps) :
    (∀ before f after, fs = before ++ f :: after → PlainInput w a log f →
      s = none ∧ ∀ g ∈ before, ¬ GivesSeed w a log g) →
    ∀ p ∈ ps, p.rng = w.seedRng p.rngSeed := by
  induction h with
  | nil s => intro _ p hp; simp at hp
  | @plain s f fs p ps lang ft hr hft hp rest ih =>
    intro hsafe q hq
    rcases List.mem_cons.1 hq with rfl | hq
    · have := (hsafe [] f fs rfl ⟨lang, ft, hr, hft⟩).1
      rw [hp.rng, hp.recorded, this]; rfl
    · refine ih ?_ q hq
      intro before g after e hg
      have := hsafe (f :: before) g after (by rw [e]; rfl) hg
      exact ⟨this.1, fun x hx => this.2 x (List.mem_cons_of_mem _ hx)⟩
  | @config s f fs qs ps lang c hr hc names hq rest ih =>
    intro hsafe q hq'
    rcases List.mem_append.1 hq' with hq' | hq'
    · rw [(hq q hq').rng, (hq q hq').recorded]
    · refine ih ?_ q hq'
      intro before g after e hg
      have := hsafe (f :: before) g after (by rw [e]; rfl) hg
      refine ⟨?_, fun x hx => this.2 x (List.mem_cons_of_mem _ hx)⟩
      have hno := this.2 f (by simp)
      cases hcs : c.seed with
      | none => rw [this.1]; rfl
      | some v => exact absurd ⟨lang, c, hr, hc, by rw [hcs]; rfl⟩ hno

/-- **C18, partial.** As long as no source or AST file comes after a configuration file that gives a seed,
every file is mutated with the seed that its saved configuration names.  Missing: the other order of
inputs, for which this is false (`C18_seed_counterexample`). -/
theorem C18_recorded_seed_partial (w : World R) (order : List MutationType) (a : Args) (log log' : List Ev)
    (ps : List (Params R))
    (h : collectParams w order a a.files (argSeed w.toStart a) log = (.ok ps, log'))
    (hsafe : ∀ before f after, a.files = before ++ f :: after → PlainInput w a log f →
      ∀ g ∈ before, ¬ GivesSeed w a log g) :
    ∀ p ∈ ps, p.rng = w.seedRng p.rngSeed ∧ ∀ lang, (savedConfig w.defaultCompiler lang p).seed = some p.rngSeed := by
  intro p hp
  refine ⟨?_, fun _ => rfl⟩
  exact collected_seed w order a log (C19_precedence_partial w order a log log' ps h)
    (fun b f c e hf => ⟨rfl, hsafe b f c e hf⟩) p hp

theorem collected_given (w : World R) (order : List MutationType) (a : Args) (log : List Ev)
    {s : Option Nat} {fs : List String} {ps : List (Params R)} (h : Collected w order a log s fs ps) :
    s = none → (∀ g ∈ fs, ¬ GivesSeed w a log g) →
    ∀ p ∈ ps, p.rng = w.seedRng (argSeed w.toStart a) ∧ p.rngSeed = argSeed w.toStart a := by
  induction h with
  | nil s => intro _ _ p hp; simp at hp
  | @plain s f fs p ps lang ft hr hft hp rest ih =>
    intro hs hno q hq
    rcases List.mem_cons.1 hq with rfl | hq
    · exact ⟨hp.rng, by rw [hp.recorded, hs]; rfl⟩
    · exact ih hs (fun g hg => hno g (List.mem_cons_of_mem _ hg)) q hq
  | @config s f fs qs ps lang c hr hc names hq rest ih =>
    intro hs hno q hq'
    have hcs : c.seed = none := by
      cases hcs : c.seed with
      | none => rfl
      | some v => exact absurd ⟨lang, c, hr, hc, by rw [hcs]; rfl⟩ (hno f (by simp))
    rcases List.mem_append.1 hq' with hq' | hq'
    · have h1 := (hq q hq').rng
      have h2 := (hq q hq').recorded
      rw [hcs, hs] at h1 h2
      exact ⟨h1, h2⟩
    · exact ih (by rw [hcs, hs]; rfl) (fun g hg => hno g (List.mem_cons_of_mem _ hg)) q hq'

/-- **C18.** The seed of the command line is the one that is used and recorded for every file, if no configuration file
gives a seed.  0 is a seed like any other; only for a negative number the clock is used instead. -/
theorem C18_given_seed (w : World R) (order : List MutationType) (a : Args) (log log' : List Ev) (ps : List (Params R))
    (h : collectParams w order a a.files (argSeed w.toStart a) log = (.ok ps, log'))
    (hno : ∀ g ∈ a.files, ¬ GivesSeed w a log g) :
    (∀ n : Nat, n < 2 ^ 63 → a.rngSeed = n → ∀ p ∈ ps, p.rng = w.seedRng n ∧ p.rngSeed = n) ∧
    (a.rngSeed < 0 → ∀ p ∈ ps, p.rng = w.seedRng w.now ∧ p.rngSeed = w.now) := by
  have hall := collected_given w order a log (C19_precedence_partial w order a log log' ps h) rfl hno
  refine ⟨fun n hn ha p hp => ?_, fun ha p hp => ?_⟩
  · have e : argSeed w.toStart a = n := by
      unfold argSeed
      rw [if_neg (by omega), ha]
      unfold i64AsU64
      omega
    rw [← e]
    exact hall p hp
  · have e : argSeed w.toStart a = w.now := if_pos ha
    rw [← e]
    exact hall p hp

theorem generate_congr [Rand R] (w : World R) (hw : PrefsAsMaps w) (fuel : Nat) (p q : Params R)
    (h : q = { p with preferences := q.preferences, saveConfig := false })
    (hc : Pref.canon (.map q.preferences) = Pref.canon (.map p.preferences)) :
    generateMutations w fuel q = generateMutations w fuel { p with saveConfig := false } := by
  generalize q.preferences = pr at h hc
  subst h
  unfold generateMutations
  have h1 : (fun log => w.recognize log p.fileName pr) = fun log => w.recognize log p.fileName p.preferences :=
    funext fun log => hw.recognize _ _ _ _ hc
  have h2 : ∀ log lang ft, w.load log lang ft p.fileName pr = w.load log lang ft p.fileName p.preferences :=
    fun log lang ft => hw.load _ _ _ _ _ _ hc
  have h3 : ∀ log lang f m, w.compiles log lang f pr m = w.compiles log lang f p.preferences m :=
    fun _ _ _ _ => hw.compiles _ _ _ _ _ _ hc
  have hphase : ∀ lang ms table paths ast todo rng,
      mutationPhase w lang { p with preferences := pr, saveConfig := false } ms table paths ast todo rng =
      mutationPhase w lang { p with saveConfig := false } ms table paths ast todo rng := by
    intro lang ms table paths ast todo rng
    funext before
    unfold mutationPhase
    have : loopCtx w lang { p with preferences := pr, saveConfig := false } ms table paths ast before =
        loopCtx w lang { p with saveConfig := false } ms table paths ast before := by
      unfold loopCtx
      simp only [h3]
    rw [this]
  simp only [h1, h2, hphase]
  rfl

theorem set_self (p : Prefs) (k : String) (v : Pref) (h : p.get? k = some v) : p.set k v = p := by
  induction p with
  | nil => cases h
  | cons e rest ih =>
    obtain ⟨l, x⟩ := e
    simp only [Prefs.get?] at h
    simp only [Prefs.set]
    split at h
    · next hk => subst hk; cases h; rw [if_pos rfl]
    · next hk => rw [if_neg hk, ih h]

theorem canonFields_set (p : Prefs) (k : String) (v v' : Pref) (h : Pref.canon v = Pref.canon v') :
    Pref.canonFields (p.set k v) = Pref.canonFields (p.set k v') := by
  induction p with
  | nil => simp [Prefs.set, Pref.canonFields, h]
  | cons e rest ih =>
    obtain ⟨l, x⟩ := e
    simp only [Prefs.set]
    split
    · simp [Pref.canonFields, h]
    · simp [Pref.canonFields, ih]

theorem canon_set (p : Prefs) (k : String) (v v' : Pref) (h : Pref.canon v = Pref.canon v') :
    Pref.canon (.map (p.set k v)) = Pref.canon (.map (p.set k v')) := by
  simp only [Pref.canon, canonFields_set p k v v' h]

/-- **C18, partial.** The configuration saved for a file replays it: with the same compiler settings on
the command line, the run that reads the saved configuration does exactly what processing the file did
(apart from saving the configuration again).  Conditions: the file was mutated with its recorded seed
(`C18_recorded_seed_partial`), seed and count are below 2^63 (see C20), at least one algorithm was given
and the function list is not lost (an empty list is not recorded, so the replaying command line must not
give one), and the output directory is not called `stdout`. -/
theorem C18_replay_partial [Rand R] (w : World R) (hw : PrefsAsMaps w) (order : List MutationType)
    (fuel : Nat) (p : Params R) (lang : Language) (lp d : Prefs) (a : Args) (file : String)
    (log log0 : List Ev)
    (hrng : p.rng = w.seedRng p.rngSeed) (hseed : p.rngSeed < 2 ^ 63) (hcount : p.numberOfMutants < 2 ^ 63)
    (hmut : p.mutations ≠ []) (hfun : p.functions = [] → a.functions = [])
    (hdir : p.outputDirectory ≠ "stdout") (hstd : a.stdout = p.useStdout) (hsave : a.saveConfig = false)
    (hdet : p.preferences.getPrefs "compiler-details" = none)
    (hlp : p.preferences.getPrefs lang.toStr = some lp) (hd : lp.getPrefs "compiler" = some d)
    (hplain : Pref.Plain (.map d))
    (hpref : a.preferences = p.preferences) (hfiles : a.files = [file])
    (hext : Path.extension file = some "mgnx")
    (hrec : w.recognize log file a.preferences = .ok (lang, .config))
    (hload : w.loadJson log file = some (savedConfig w.defaultCompiler lang p).toJson) (h0 : log0 = log) :
    generateMutants w order fuel a log = generateMutations w fuel { p with saveConfig := false } log0 := by
  subst h0
  have hsd : (savedConfig w.defaultCompiler lang p).compilerDetails = some d := by
    simp only [savedConfig, hdet, hlp, hd]
  have hcnt : u64AsI64 p.numberOfMutants = (p.numberOfMutants : Int) := by
    unfold u64AsI64; simp only; omega
  have hwr : (savedConfig w.defaultCompiler lang p).Writable := by
    refine ⟨rfl, ?_, ?_⟩
    · simp only [savedConfig, hcnt]; omega
    · intro q hq; rw [hsd] at hq; cases hq; exact hplain
  obtain ⟨c, hc1, hc2⟩ := C20_round_trip_partial (savedConfig w.defaultCompiler lang p) hwr
    (by intro s hs; simp only [savedConfig, Option.some.injEq] at hs; omega) file hext
  have f2 := hc2.filenames
  have f3 := hc2.count
  have f4 := hc2.seed
  have f5 := hc2.mutations
  have f6 := hc2.allMutations
  have f7 := hc2.details
  have f8 := hc2.functions
  have f9 := hc2.verify
  have f10 := hc2.output
  have f11 := hc2.printOriginal
  rw [hsd] at f7
  simp only [savedConfig] at f2 f3 f4 f5 f6 f8 f9 f10 f11
  obtain ⟨d', hd', hcan⟩ : ∃ d', c.compilerDetails = some d' ∧ Pref.canon (.map d') = Pref.canon (.map d) := by
    cases hcd : c.compilerDetails with
    | none => rw [hcd] at f7; simp at f7
    | some d' => rw [hcd] at f7; exact ⟨d', rfl, by simpa using f7⟩
  have hpq : (configParams w.toStart order a lang c (argSeed w.toStart a)).1 =
      [{ p with saveConfig := false, preferences := overridePrefs lang (some d') p.preferences }] := by
    unfold configParams
    have hi : i64AsU64 (p.numberOfMutants : Int) = p.numberOfMutants := by unfold i64AsU64; omega
    have hfn : (if p.functions.isEmpty then a.functions else p.functions) = p.functions := by
      cases hf : p.functions with
      | nil => simp [hfun hf]
      | cons x xs => simp
    have hmn : p.mutations.isEmpty = false := by cases hm : p.mutations; exact absurd hm hmut; rfl
    simp only [f2, f3, f4, f5, f6, f8, f9, f10, f11, hd', hcnt, hi, hfn, hmn, hdir, hstd, hsave, hpref,
      List.map_cons, List.map_nil, if_false]
    simp [hrng]
  have hcanon : Pref.canon (.map (overridePrefs lang (some d') p.preferences)) =
      Pref.canon (.map p.preferences) := by
    have hg : ∀ (p : Prefs) k m, p.getPrefs k = some m → p.get? k = some (.map m) := by
      intro p k m h
      unfold Prefs.getPrefs at h
      split at h
      · next e => cases h; exact e
      · cases h
    simp only [overridePrefs, hlp, Prefs.setPrefs]
    rw [canon_set _ _ _ (.map (lp.set "compiler" (.map d))) (canon_set _ _ _ _ hcan),
      set_self lp _ _ (hg _ _ _ hd), set_self p.preferences _ _ (hg _ _ _ hlp)]
  unfold generateMutants
  rw [Run.bind_def]
  have hcoll : collectParams w order a a.files (argSeed w.toStart a) log0 = (.ok
      [{ p with saveConfig := false, preferences := overridePrefs lang (some d') p.preferences }], log0) := by
    rw [hfiles]
    unfold collectParams
    rw [Run.bind_def]
    simp only [Run.lift_def, hrec]
    rw [Run.bind_def]
    simp only [Run.lift_def, hload, hc1]
    rw [Run.bind_def]
    unfold collectParams
    simp only [Run.pure_def, hpq, List.append_nil]
  rw [hcoll]
  simp only
  unfold runAll
  rw [Run.bind_def, generate_congr w hw fuel p _ rfl hcanon]
  unfold runAll
  cases hg : generateMutations w fuel { p with saveConfig := false } log0 with
  | mk o l => cases o <;> rfl

end Mutagenyx
