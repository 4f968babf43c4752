import Verif.Spec.Command
import Verif.Props.Console
import Verif.Props.Results
import Verif.Props.Runs

/-!
# The command `mutate` (property C87, and C17, C19, C21 and C62 for the whole command)
-/

namespace Mutagenyx
open InputsKept ToolProps
variable {S R : Type}

/-! ### The parameters -/

namespace Command

theorem act_fail {α β : Type} {x : Act S α} {f : α → Act S β} {s s' : S} {b : β} (h : Act.bind x f s = (.ok b, s')) :
    ∃ a s1, x s = (.ok a, s1) ∧ f a s1 = (.ok b, s') := by
  unfold Act.bind at h
  rcases hx : x s with ⟨o, s1⟩
  rw [hx] at h
  cases o with
  | ok a => exact ⟨a, s1, rfl, h⟩
  | err e => cases h
  | panic => cases h
  | outOfFuel => cases h

end Command
open Command

/-- **C19 for the whole command, partial.** The parameters collected for the inputs are those of `C19_precedence_partial`, where
each input is looked at on the machine as the earlier ones left it.  Missing: that a missing seed is always taken from the command
line, which is false (`C19_seed_counterexample`). -/
theorem C19_command_partial (m : Machine S R) (st : Start R) (order : List MutationType) (a : Args) (s s0 : S)
    (ps : List (Params R)) (h : m.collect st order a a.files (argSeed st a) s = (.ok ps, s0)) :
    CollectedOn m st order a none a.files s ps s0 := by
  have key : ∀ (fs : List String) (seed : Option Nat) (s s0 : S) (ps : List (Params R)),
      m.collect st order a fs (seed.getD (argSeed st a)) s = (.ok ps, s0) → CollectedOn m st order a seed fs s ps s0 := by
    intro fs
    induction fs with
    | nil => intro seed s s0 ps h; cases h; exact .nil seed s
    | cons f fs ih =>
      intro seed s s0 ps h
      unfold Machine.collect at h
      obtain ⟨⟨lang, ft⟩, s1, hr, h⟩ := act_fail h
      have plain : ft ≠ .config → (do
          let rest ← m.collect st order a fs (seed.getD (argSeed st a))
          pure (plainParams st order a f (seed.getD (argSeed st a)) :: rest) : Act S _) s1 = (.ok ps, s0) →
          CollectedOn m st order a seed (f :: fs) s ps s0 := by
        intro hft h
        obtain ⟨rest, s2, h1, h2⟩ := act_fail h
        cases h2
        exact .plain hr hft ⟨rfl, rfl, rfl, rfl, rfl, rfl, rfl, rfl, rfl, rfl, rfl, rfl⟩ (ih seed s1 _ rest h1)
      cases ft with
      | source => exact plain (by simp) h
      | ast => exact plain (by simp) h
      | config =>
        obtain ⟨c, s2, hc, h⟩ := act_fail h
        have hc1 : Config.newFromFile f (m.readJson f s1) = .ok c := (Prod.ext_iff.1 hc).1
        have hc2 : s1 = s2 := (Prod.ext_iff.1 hc).2
        subst hc2
        obtain ⟨rest, s2, h1, h2⟩ := act_fail h
        cases h2
        obtain ⟨-, e2, e3⟩ := config_fields st order a lang c (seed.getD (argSeed st a))
        have hs : c.seed.getD (seed.getD (argSeed st a)) = (c.seed.or seed).getD (argSeed st a) := by
          cases c.seed <;> rfl
        rw [hs] at h1
        rw [hs] at e3
        exact .config hr hc1 e2 e3 (ih _ _ _ rest h1)
  exact key a.files none s s0 ps h

namespace Command
variable {content : String → S → Option String} {g : String}

theorem keeps_collect (m : Machine S R) (hc : Contents m.toSys content) (hg : ¬ InTemp m.toSys g) (st : Start R)
    (order : List MutationType) (a : Args) : ∀ (fs : List String) (seed : Nat), Keeps content g (m.collect st order a fs seed)
  | [], _ => Keeps.pure _
  | f :: fs, seed => by
    unfold Machine.collect
    refine (Keeps.recognizeFile hc hg).bind fun r => ?_
    obtain ⟨lang, ft⟩ := r
    cases ft with
    | config =>
      refine Keeps.bind (fun s => rfl) fun c => (keeps_collect m hc hg st order a fs _).bind fun _ => Keeps.pure _
    | source => exact (keeps_collect m hc hg st order a fs _).bind fun _ => Keeps.pure _
    | ast => exact (keeps_collect m hc hg st order a fs _).bind fun _ => Keeps.pure _

variable [Rand R]

theorem keeps_generate (m : Machine S R) (hc : Contents m.toSys content) (hg : ¬ InTemp m.toSys g)
    (hout : ∀ t s, content g (m.stdout t s) = content g s) (fuel : Nat) {p : Params R} (h : ¬ WrittenBy p g) :
    Keeps content g (m.generate fuel p) := by
  intro s
  refine C62_run_partial m hc g hg hout fuel p (fun hs lang => ?_) s
  have hext : suffixOf lang = lang.ext := by cases lang <;> rfl
  refine ⟨fun h1 h2 => h ⟨hs, lang, .inl ⟨h1, by rw [hext]; exact h2⟩⟩, fun h1 h2 => h ⟨hs, lang, .inr (.inl ⟨h1, h2⟩)⟩, fun n e => ?_⟩
  cases hb : Path.fileName p.fileName with
  | none => rw [mutantTarget, mutantName, hb] at e; cases e
  | some base =>
    rw [mutantTarget_eq (plainExt lang) hb] at e
    injection e with e
    exact h ⟨hs, lang, .inr (.inr ⟨n, base, hb, by rw [hext]; exact e.symm⟩)⟩

theorem keeps_all (m : Machine S R) (hc : Contents m.toSys content) (hg : ¬ InTemp m.toSys g)
    (hout : ∀ t s, content g (m.stdout t s) = content g s) (fuel : Nat) : ∀ ps : List (Params R), (∀ p ∈ ps, ¬ WrittenBy p g) →
    Keeps content g (m.generateAll fuel ps)
  | [], _ => Keeps.pure _
  | p :: ps, h => by
    unfold Machine.generateAll
    exact (keeps_generate m hc hg hout fuel (h p (by simp))).bind fun _ =>
      keeps_all m hc hg hout fuel ps fun q hq => h q (by simp [hq])

theorem all_done (m : Machine S R) (fuel : Nat) : ∀ (ps : List (Params R)) (s : S),
    (∃ s', Processed m fuel ps s s' ∧ m.generateAll fuel ps s = (.ok (), s')) ∨
    ∃ done p later s1, ps = done ++ p :: later ∧ Processed m fuel done s s1 ∧ (m.generate fuel p s1).1 ≠ .ok () ∧
      m.generateAll fuel ps s = m.generate fuel p s1
  | [], s => .inl ⟨s, .nil s, rfl⟩
  | p :: ps, s => by
    unfold Machine.generateAll
    rcases hg : m.generate fuel p s with ⟨o, s1⟩
    have fail : o ≠ .ok () → m.generateAll fuel (p :: ps) s = (o, s1) →
        ∃ done q later s1, p :: ps = done ++ q :: later ∧ Processed m fuel done s s1 ∧ (m.generate fuel q s1).1 ≠ .ok () ∧
          m.generateAll fuel (p :: ps) s = m.generate fuel q s1 := by
      intro ho he
      exact ⟨[], p, ps, s, rfl, .nil s, by rw [hg]; exact ho, by rw [he, hg]⟩
    cases o with
    | ok u =>
      cases u
      rw [show (do m.generate fuel p; m.generateAll fuel ps : Act S Unit) s = m.generateAll fuel ps s1 from Act.bind_of_ok hg]
      rcases all_done m fuel ps s1 with ⟨s', h1, h2⟩ | ⟨done, q, later, s2, h1, h2, h3, h4⟩
      · exact .inl ⟨s', .cons hg h1, h2⟩
      · exact .inr ⟨p :: done, q, later, s2, by rw [h1]; rfl, .cons hg h2, h3, h4⟩
    | err e => exact .inr (fail (by simp) (Act.bind_of_fail _ hg (by simp) (fun _ => .ok ())))
    | panic => exact .inr (fail (by simp) (Act.bind_of_fail _ hg (by simp) (fun _ => .ok ())))
    | outOfFuel => exact .inr (fail (by simp) (Act.bind_of_fail _ hg (by simp) (fun _ => .ok ())))

theorem processed_split {m : Machine S R} {fuel : Nat} {p : Params R} : ∀ {before after : List (Params R)} {s s' : S},
    Processed m fuel (before ++ p :: after) s s' →
    ∃ s1 s2, Processed m fuel before s s1 ∧ m.generate fuel p s1 = (.ok (), s2) ∧ Processed m fuel after s2 s'
  | [], after, s, s', h => by
    cases h with
    | cons h rest => exact ⟨s, _, .nil s, h, rest⟩
  | q :: before, after, s, s', h => by
    cases h with
    | cons h rest =>
      obtain ⟨s1, s2, h1, h2, h3⟩ := processed_split rest
      exact ⟨s1, s2, .cons h h1, h2, h3⟩

theorem keeps_processed {m : Machine S R} (hc : Contents m.toSys content) (hg : ¬ InTemp m.toSys g)
    (hout : ∀ t s, content g (m.stdout t s) = content g s) {fuel : Nat} {ps : List (Params R)} {s s' : S}
    (h : Processed m fuel ps s s') (hp : ∀ p ∈ ps, ¬ WrittenBy p g) : content g s' = content g s := by
  induction h with
  | nil => rfl
  | @cons p ps s s1 s2 h rest ih =>
    have h1 := keeps_generate m hc hg hout fuel (hp p (by simp)) s
    rw [h] at h1
    exact (ih fun q hq => hp q (by simp [hq])).trans h1

end Command

variable [Rand R]

/-! ### Failures -/

/-- **C21 for the whole command.** If the parameters cannot be collected, because an input is not recognised or a configuration file
is bad, the command fails, and no file outside the directory for temporary files was touched. -/
theorem C21_command_parameters (m : Machine S R) {content : String → S → Option String} (hc : Contents m.toSys content)
    (st : Start R) (order : List MutationType) (fuel : Nat) (a : Args) (s : S)
    (h : ∀ ps, (m.collect st order a a.files (argSeed st a) s).1 ≠ .ok ps) :
    (m.mutate st order fuel a s).1 ≠ .ok () ∧ ∀ g, ¬ InTemp m.toSys g → content g (m.mutate st order fuel a s).2 = content g s := by
  rcases hx : m.collect st order a a.files (argSeed st a) s with ⟨o, s0⟩
  have hk := fun g hg => keeps_collect m hc (g := g) hg st order a a.files (argSeed st a) s
  rw [hx] at hk h
  have : ∀ o' : Outcome Unit, o' ≠ .ok () → m.mutate st order fuel a s = (o', s0) →
      (m.mutate st order fuel a s).1 ≠ .ok () ∧ ∀ g, ¬ InTemp m.toSys g → content g (m.mutate st order fuel a s).2 = content g s := by
    intro o' ho e
    rw [e]
    exact ⟨ho, hk⟩
  cases o with
  | ok ps => exact absurd rfl (h ps)
  | err e => exact this _ (by simp) (Act.bind_of_fail _ hx (by simp) (fun _ => .ok ()))
  | panic => exact this _ (by simp) (Act.bind_of_fail _ hx (by simp) (fun _ => .ok ()))
  | outOfFuel => exact this _ (by simp) (Act.bind_of_fail _ hx (by simp) (fun _ => .ok ()))

/-- **C21 for the whole command.** Once the parameters are known, either every input is processed in order, or there is a first one
that fails: the ones before it were processed completely, the command ends like this one, and what is done to the machine is
what was done until then. -/
theorem C21_command (m : Machine S R) (st : Start R) (order : List MutationType) (fuel : Nat) (a : Args) (s s0 : S)
    (ps : List (Params R)) (h : m.collect st order a a.files (argSeed st a) s = (.ok ps, s0)) :
    (∃ s', Processed m fuel ps s0 s' ∧ m.mutate st order fuel a s = (.ok (), s')) ∨
    ∃ done p later s1, ps = done ++ p :: later ∧ Processed m fuel done s0 s1 ∧ (m.generate fuel p s1).1 ≠ .ok () ∧
      m.mutate st order fuel a s = m.generate fuel p s1 := by
  rw [show m.mutate st order fuel a s = m.generateAll fuel ps s0 from Act.bind_of_ok h]
  exact all_done m fuel ps s0

/-! ### Files -/

/-- **C62 for the whole command, partial.** However the command ends, it changes no file but files in the directory for temporary
files and the files that the inputs are to be written to.  Missing: inputs in that directory, and inputs with the name of such
a file. -/
theorem C62_command_partial (m : Machine S R) {content : String → S → Option String} (hc : Contents m.toSys content) (g : String)
    (hg : ¬ InTemp m.toSys g) (hout : ∀ t s, content g (m.stdout t s) = content g s) (st : Start R) (order : List MutationType)
    (fuel : Nat) (a : Args) (s : S)
    (h : ∀ ps s0, CollectedOn m st order a none a.files s ps s0 → ∀ p ∈ ps, ¬ WrittenBy p g) :
    content g (m.mutate st order fuel a s).2 = content g s := by
  rcases hx : m.collect st order a a.files (argSeed st a) s with ⟨o, s0⟩
  have hk := keeps_collect m hc hg st order a a.files (argSeed st a) s
  rw [hx] at hk
  have : ∀ o' : Outcome Unit, m.mutate st order fuel a s = (o', s0) → content g (m.mutate st order fuel a s).2 = content g s := by
    intro o' e
    rw [e]
    exact hk
  cases o with
  | ok ps =>
    rw [show m.mutate st order fuel a s = m.generateAll fuel ps s0 from Act.bind_of_ok hx]
    exact (keeps_all m hc hg hout fuel ps (h ps s0 (C19_command_partial m st order a s s0 ps hx)) s0).trans hk
  | err e => exact this _ (Act.bind_of_fail _ hx (by simp) (fun _ => .ok ()))
  | panic => exact this _ (Act.bind_of_fail _ hx (by simp) (fun _ => .ok ()))
  | outOfFuel => exact this _ (Act.bind_of_fail _ hx (by simp) (fun _ => .ok ()))

/-- **C87.** If the command ends well, every input was processed with its parameters: the run for it began with a machine whose files are
as they were at the start, except in the directory for temporary files and where an earlier input is written to; it ended well; and
the files that it left are still so at the end, with the same exceptions for later inputs. -/
theorem C87_command (m : Machine S R) {content : String → S → Option String} (hc : Contents m.toSys content) (st : Start R)
    (order : List MutationType) (fuel : Nat) (a : Args) (s s' : S) (hok : m.mutate st order fuel a s = (.ok (), s')) :
    ∃ ps s0, CollectedOn m st order a none a.files s ps s0 ∧ ∀ before p after, ps = before ++ p :: after →
      ∃ s1 s2, m.generate fuel p s1 = (.ok (), s2) ∧
        ∀ g, ¬ InTemp m.toSys g → (∀ t s, content g (m.stdout t s) = content g s) →
          ((∀ q ∈ before, ¬ WrittenBy q g) → content g s1 = content g s) ∧
          ((∀ q ∈ after, ¬ WrittenBy q g) → content g s' = content g s2) := by
  obtain ⟨ps, s0, hx, hall⟩ := act_fail hok
  refine ⟨ps, s0, C19_command_partial m st order a s s0 ps hx, fun before p after e => ?_⟩
  subst e
  rcases all_done m fuel (before ++ p :: after) s0 with ⟨s'', h1, h2⟩ | ⟨_, q, _, s1, -, -, h3, h4⟩
  · rw [hall] at h2
    cases h2
    obtain ⟨s1, s2, h3, h4, h5⟩ := processed_split h1
    refine ⟨s1, s2, h4, fun g hg hout => ⟨fun hb => ?_, fun ha => keeps_processed hc hg hout h5 ha⟩⟩
    have hk := keeps_collect m hc hg st order a a.files (argSeed st a) s
    rw [hx] at hk
    exact (keeps_processed hc hg hout h3 hb).trans hk
  · rw [hall] at h4
    exact absurd (by rw [← h4]) h3

/-- **C87, mutants.** If the command ends well, then for every input whose mutants go to files that no later input is written to,
these files hold mutants of the input: each is the syntax tree that was read for the input with one node mutated, printed; the
files with the numbers behind the last are as before.  What was read is what there was at the start, as far as no earlier input is written
there. -/
theorem C87_mutants (m : Machine S R) (hsh : ∀ l, (m.shuffle l).Perm l) {content : String → S → Option String}
    (hc : Contents m.toSys content) (hw : ∀ f t s, (m.write f t s).1 = true → content f (m.write f t s).2 = some t) (st : Start R)
    (order : List MutationType) (fuel : Nat) (a : Args) (s s' : S) (hok : m.mutate st order fuel a s = (.ok (), s')) :
    ∃ ps s0, CollectedOn m st order a none a.files s ps s0 ∧ ∀ before p after base, ps = before ++ p :: after →
      Path.fileName p.fileName = some base → p.useStdout = false → OutputApart m content p.outputDirectory →
      (∀ q ∈ after, ∀ lang n, ¬ WrittenBy q (mutantFileName lang p.outputDirectory base n)) →
      ∃ s1 lang ast, (m.reading p s1).1 = .ok (lang, ast) ∧
        (∀ g, ¬ InTemp m.toSys g → (∀ t s, content g (m.stdout t s) = content g s) → (∀ q ∈ before, ¬ WrittenBy q g) →
          content g s1 = content g s) ∧
        ∃ mutants : List (Json × MutatorResult), mutants.length ≤ p.numberOfMutants ∧ (mutants.map (·.2)).Nodup ∧
          (∀ (k : Nat) mutant report, mutants[k]? = some (mutant, report) →
            OneMutation (R := R) lang m.env p.mutations p.functions ast mutant report ∧
            ∃ text, m.print lang mutant = .ok text ∧ content (mutantFileName lang p.outputDirectory base k) s' = some text) ∧
          ∀ k : Nat, mutants.length ≤ k → (∀ q ∈ before, ¬ WrittenBy q (mutantFileName lang p.outputDirectory base k)) →
            content (mutantFileName lang p.outputDirectory base k) s' = content (mutantFileName lang p.outputDirectory base k) s := by
  obtain ⟨ps, s0, h1, h2⟩ := C87_command m hc st order fuel a s s' hok
  refine ⟨ps, s0, h1, fun before p after base e hb hs hdir hafter => ?_⟩
  obtain ⟨s1, s2, hgen, hfiles⟩ := h2 before p after e
  have hg := hgen
  rw [generate_eq] at hg
  obtain ⟨⟨lang, ast⟩, s3, hr, -⟩ := act_fail hg
  have hname : ∀ n : Nat, (base ++ "_" ++ toString n ++ "." ++ suffixOf lang).toList ≠ [] ∧
      '/' ∉ (base ++ "_" ++ toString n ++ "." ++ suffixOf lang).toList := fun n => by
    rw [show suffixOf lang = lang.ext by cases lang <;> rfl]
    obtain ⟨h1, h2⟩ := mutantFile_ok (plainExt lang) (Path.fileName_spec hb).2 n
    exact ⟨h1, fun h => h2 _ h rfl⟩
  have hfree := fun n => hdir _ (hname n).1 (hname n).2
  obtain ⟨mutants, h3, h4, h5, h6⟩ := C68_files_partial m hsh hc hw fuel p s1 s2 base hb hs lang ast (by rw [hr])
    (fun n => (hfree n).1) (fun n => (hfree n).2) hgen
  refine ⟨s1, lang, ast, by rw [hr], fun g hg hout => (hfiles g hg hout).1, mutants, h6, h5, fun k mutant report hk => ?_, fun k hk hbef => ?_⟩
  · obtain ⟨h7, text, h8, h9⟩ := h3 k mutant report hk
    exact ⟨h7, text, h8, ((hfiles _ (hfree k).1 (hfree k).2).2 fun q hq => hafter q hq lang k).trans h9⟩
  · exact ((hfiles _ (hfree k).1 (hfree k).2).2 fun q hq => hafter q hq lang k).trans
      ((h4 k hk).trans ((hfiles _ (hfree k).1 (hfree k).2).1 hbef))

omit [Rand R] in
/-- **C87, names.** An input with another file name, for which neither the original nor the configuration is written, is not written to
the files of the mutants, if the output directory is the same. -/
theorem C87_names {p q : Params R} {base base' : String} (hb : Path.fileName p.fileName = some base)
    (hb' : Path.fileName q.fileName = some base') (hne : base ≠ base') (hd : p.outputDirectory = q.outputDirectory)
    (ho : q.printOriginal = false) (hs : q.saveConfig = false) (lang : Language) (n : Nat) :
    ¬ WrittenBy q (mutantFileName lang p.outputDirectory base n) := by
  rintro ⟨-, lang', h | h | ⟨k, b, h1, h2⟩⟩
  · rw [ho] at h; cases h.1
  · rw [hs] at h; cases h.1
  · rw [hb'] at h1
    cases h1
    rw [hd] at h2
    have e : ∀ l : Language, suffixOf l = l.ext := fun l => by cases l <;> rfl
    have m1 := mutantFile_ok (plainExt lang) (Path.fileName_spec hb).2 n
    have m2 := mutantFile_ok (plainExt lang') (Path.fileName_spec hb').2 k
    unfold mutantFileName at h2
    rw [e, e] at h2
    have h3 := Path.join_inj m1.1 m1.2 m2.1 m2.2 h2
    have hl : lang = lang' := by
      have := congrArg (fun s : String => s.toList.getLast?) h3
      have hsol : Language.solidity.ext.toList.getLast? = some 'l' := by decide
      have hvy : Language.vyper.ext.toList.getLast? = some 'y' := by decide
      simp only [String.toList_append (s := _ ++ "."), List.getLast?_append] at this
      cases lang <;> cases lang' <;> first | rfl | (simp only [hsol, hvy, Option.some_or] at this; cases this)
    subst hl
    exact hne (mutantFile_inj h3).1

/-! ### The order of tables -/

namespace Command

theorem turns_perm (m : Machine S R) (sh : List (Mutator R) → List (Mutator R)) (j : Job R) (ms : List (Mutator R)) (table : CountTable)
    (hp : j.mutators.Perm ms) (hn : (j.mutators.map (·.implements)).Nodup) (ht : ∀ t, j.table.get? t = table.get? t) :
    ∀ (n : Nat) (g : Progress R), m.turns j n g =
      Machine.turns { m with shuffle := sh } { j with mutators := ms, table := table } n g
  | 0, _ => rfl
  | n + 1, g => by
    have hturn : m.turn j g = Machine.turn { m with shuffle := sh } { j with mutators := ms, table := table } g := by
      unfold Machine.turn
      simp only [ht, mutateAst_eq _ hp hn]
      rfl
    unfold Machine.turns
    rw [hturn]
    congr 1
    funext r
    cases r with
    | none => rfl
    | some g' => exact turns_perm m sh j ms table hp hn ht n g'

theorem generate_perm (m : Machine S R) (sh : List (Mutator R) → List (Mutator R)) (h1 : ∀ l, (m.shuffle l).Perm l)
    (h2 : ∀ l, (sh l).Perm l) (fuel : Nat) (p : Params R) :
    m.generate fuel p = Machine.generate { m with shuffle := sh } fuel p := by
  unfold Machine.generate
  congr 1
  funext x
  obtain ⟨language, ft⟩ := x
  simp only
  congr 1
  funext ast
  have hp : (m.shuffle (selectMutators (language.delegate m.env) p.mutations)).Perm
      (sh (selectMutators (language.delegate m.env) p.mutations)) := (h1 _).trans (h2 _).symm
  have hn : ((m.shuffle (selectMutators (language.delegate m.env) p.mutations)).map (·.implements)).Nodup :=
    ((h1 _).map _).nodup_iff.2 (selectMutators_nodup _ _)
  have hget := countTable_get?_perm (language.delegate (R := R) m.env).ctx (functionPermissions p.functions) hp hn ast
  have hk1 := countTable_keys_nodup (language.delegate (R := R) m.env).ctx (functionPermissions p.functions)
    (m.shuffle (selectMutators (language.delegate m.env) p.mutations)) ast
  have hk2 := countTable_keys_nodup (language.delegate (R := R) m.env).ctx (functionPermissions p.functions)
    (sh (selectMutators (language.delegate m.env) p.mutations)) ast
  simp only [isEmpty_eq hget, selectAlgorithms_eq hk1 hk2 hget]
  split
  · rfl
  · congr 1
    funext _
    congr 1
    funext _
    congr 1
    funext r
    exact turns_perm m sh ⟨language, p, _, _, _, ast⟩ _ _ hp hn hget _ _

omit [Rand R] in
theorem collect_perm (m : Machine S R) (sh : List (Mutator R) → List (Mutator R)) (st : Start R) {o1 o2 : List MutationType}
    (ho : o1.Perm o2) (hn : o1.Nodup) (a : Args) :
    ∀ (fs : List String) (seed : Nat), m.collect st o1 a fs seed = Machine.collect { m with shuffle := sh } st o2 a fs seed
  | [], _ => rfl
  | f :: fs, seed => by
    have hall : MutationType.getAll o1 = MutationType.getAll o2 := by
      unfold MutationType.getAll
      exact MutationType.sortStr_eq_of_perm hn ho
    have harg : argMutations o1 a = argMutations o2 a := by unfold argMutations; rw [hall]
    unfold Machine.collect
    congr 1
    funext x
    obtain ⟨lang, ft⟩ := x
    have hc : ∀ c, configParams st o1 a lang c seed = configParams st o2 a lang c seed := by
      intro c
      unfold configParams
      rw [hall, harg]
    have hp : plainParams st o1 a f seed = plainParams st o2 a f seed := by
      unfold plainParams
      rw [harg]
    cases ft <;> simp only [collect_perm m sh st ho hn a fs, hc, hp]

end Command

/-- **C17 for the whole command, partial.** What the command does to the machine, and how it ends, do not depend on the iteration order of
the mutator table or of the table of all algorithms.  Missing: the hash map inside the function-argument-swap mutator, where the
order does matter (see `C17_swap_arguments_counterexample`). -/
theorem C17_command_partial (m : Machine S R) (sh : List (Mutator R) → List (Mutator R)) (h1 : ∀ l, (m.shuffle l).Perm l)
    (h2 : ∀ l, (sh l).Perm l) (st : Start R) (o1 o2 : List MutationType) (ho : o1.Perm o2) (hn : o1.Nodup) (fuel : Nat) (a : Args) :
    m.mutate st o1 fuel a = Machine.mutate { m with shuffle := sh } st o2 fuel a := by
  have hall : ∀ ps : List (Params R), m.generateAll fuel ps = Machine.generateAll { m with shuffle := sh } fuel ps := by
    intro ps
    induction ps with
    | nil => rfl
    | cons p ps ih => unfold Machine.generateAll; rw [ih, generate_perm m sh h1 h2]
  unfold Machine.mutate
  rw [collect_perm m sh st ho hn]
  congr 1
  funext ps
  exact hall ps

namespace DemoMachine

/-- The machine with a second input, a syntax tree, which the compiler refuses. -/
def machine2 : Machine DemoSystem.Disk ListRand :=
  { machine with exec := fun program args d => if args.getLast? = some "/in/c.ast" then (some (false, ""), d) else exec program args d }

def disk2 : DemoSystem.Disk := disk ++ [("/in/c.ast", treeText)]

def args2 : Args where
  allMutations := false
  mutation := ["ArithmeticBinaryOp"]
  rngSeed := 5
  files := ["/in/b.sol", "/in/c.ast"]
  functions := []
  numMutants := 1
  validate := false
  outputDirectory := "out"
  stdout := false
  printOriginal := false
  saveConfig := false
  preferences := params.preferences

end DemoMachine

/-- Example: the hypotheses of C87 are met by a command with two inputs, each of which gets a mutant. -/
example : DemoMachine.machine2.mutate ⟨fun _ => ⟨[0, 0, 0, 0, 0, 0, 2]⟩, 0⟩ [] 100 DemoMachine.args2 DemoMachine.disk2 =
    (.ok (), [("out/c.ast_0.sol", DemoMachine.mutant "*"), ("out/b.sol_0.sol", DemoMachine.mutant "*"),
      ("/tmp/b.sol_json.ast", "tree"), ("/in/b.sol", "program"), ("/in/c.ast", "tree")]) := by decide +kernel

end Mutagenyx
