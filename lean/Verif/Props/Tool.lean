import Verif.Spec.DemoMachine
import Verif.Proofs.Trace
import Verif.Proofs.Traced

/-!
# Whole runs on a machine (properties C62, C65 and C66)
-/

namespace Mutagenyx

variable {S R : Type} [Rand R]

namespace ToolProps
open Emits

variable (m : Machine S R)

omit [Rand R] in
theorem emits_once (wanted : Bool) (place : Option String) (lang : Language) (item : Item) (x : Act (S × List Effect) Unit)
    (hx : x = if wanted then m.traced.putOut lang place item else pure ()) :
    Emits x fun _ new => Once wanted place (fun text => m.text lang item = .ok text) new := by
  subst hx
  split
  · rename_i hw
    refine (emits_putOut m lang place item).mono fun o new h => ?_
    rcases h with ⟨text, b, h1, h2, -⟩ | ⟨-, -, h⟩
    · exact .inr ⟨hw, text, b, h1, h2⟩
    · exact .inl h
  · exact (Emits.pure ()).mono fun o new h => .inl h.2

/-- What is done once the syntax tree is there. -/
theorem emits_from (fuel : Nat) (p : Params R) (base : String) (hb : Path.fileName p.fileName = some base) (lang : Language)
    (ast : Json) : Emits (m.traced.generateFrom fuel p lang ast) fun _ new => RunTrace m p base lang ast new := by
  have hpt : ∃ f, printTarget lang.ext p.fileName p.outputDirectory = some f := by unfold printTarget; rw [hb]; exact ⟨_, rfl⟩
  have hct : ∃ f, configTarget p.fileName p.outputDirectory = some f := by unfold configTarget; rw [hb]; exact ⟨_, rfl⟩
  obtain ⟨f, hf⟩ := hpt
  obtain ⟨c, hc⟩ := hct
  unfold Machine.generateFrom
  simp only
  split
  · refine (Emits.lift _).mono fun o new h => ?_
    rw [h.2]
    exact ⟨[], [], [], [], rfl, by simp, .inl rfl, .inl rfl, .none 0⟩
  · have h1 := emits_once m p.printOriginal (if p.useStdout then none else printTarget lang.ext p.fileName p.outputDirectory) lang
      (.original ast) (m.traced.originalAct lang p ast) (by
        unfold Machine.originalAct
        rw [hf]
        cases p.printOriginal <;> cases p.useStdout <;> rfl)
    have h2 := emits_once m p.saveConfig (if p.useStdout then none else configTarget p.fileName p.outputDirectory) lang
      (.config (savedConfig defaultCompiler lang p)) (m.traced.configAct lang p) (by
        unfold Machine.configAct
        rw [hc]
        cases p.saveConfig <;> cases p.useStdout <;> rfl)
    have hconf : ∀ text, m.text lang (.config (savedConfig defaultCompiler lang p)) = .ok text ↔
        text = m.configText (savedConfig defaultCompiler lang p) := by
      intro text
      simp only [Machine.text, Outcome.ok.injEq]
      exact eq_comm
    simp only [hconf] at h2
    refine Emits.bind h1 (Q := fun _ _ new => ∃ config rounds, new = config ++ rounds ∧
      Once p.saveConfig (if p.useStdout then none else configTarget p.fileName p.outputDirectory)
        (fun text => text = m.configText (savedConfig defaultCompiler lang p)) config ∧
      Rounds (MutantTried m p base lang) (placeOf p.useStdout p.outputDirectory base lang.ext) 0 rounds) (fun _ => ?_) ?_ ?_
    · refine Emits.bind h2 (Q := fun _ _ new =>
        Rounds (MutantTried m p base lang) (placeOf p.useStdout p.outputDirectory base lang.ext) 0 new) (fun _ => ?_) ?_ ?_
      · refine Emits.bind (Emits.lift _) (Q := fun _ _ new =>
          Rounds (MutantTried m p base lang) (placeOf p.useStdout p.outputDirectory base lang.ext) 0 new) (fun r => ?_) ?_ ?_
        · exact emits_turns m (j := ⟨lang, p, _, _, _, ast⟩) hb _ _
        · rintro a n1 o n2 ⟨-, rfl⟩ h; exact h
        · rintro o o' n1 ⟨-, rfl⟩ h; exact .none 0
      · intro a n1 o n2 h3 h4; exact ⟨n1, n2, rfl, h3, h4⟩
      · intro o o' n1 h3 h4; exact ⟨n1, [], (List.append_nil _).symm, h3, .none 0⟩
    · rintro a n1 o n2 h3 ⟨config, rounds, rfl, h4, h5⟩
      exact ⟨[], n1, config, rounds, by simp, by simp, h3, h4, h5⟩
    · intro o o' n1 h3 h4
      exact ⟨[], n1, [], [], by simp, by simp, h3, .inl rfl, .none 0⟩

/-- What is done in a run. -/
theorem run_trace (fuel : Nat) (p : Params R) (s : S) (base : String) (hb : Path.fileName p.fileName = some base) :
    (∀ lang ast, (m.reading p s).1 = .ok (lang, ast) → RunTrace m p base lang ast (m.traced.generate fuel p (s, [])).2.2) ∧
    ((∀ r, (m.reading p s).1 ≠ .ok r) → ∀ e ∈ (m.traced.generate fuel p (s, [])).2.2, ReadingEffect m.tmp base e) := by
  rw [generate_eq]
  have hsame := (Same.reading m p s []).1
  have hb' : ∀ b, Path.fileName p.fileName = some b → b = base := fun b h => by rw [hb] at h; exact (Option.some.inj h).symm
  have hreads : Reads m base (m.traced.reading p) :=
    All.bind (reads_recognizeFile m hb') fun r => All.bind (reads_loadAst m r.2 hb') fun _ => All.pure _
  obtain ⟨new, h1, h2⟩ := hreads s []
  rw [List.nil_append] at h1
  rcases hr : m.traced.reading p (s, []) with ⟨o, s1, t1⟩
  rw [hr] at hsame h1
  simp only at hsame h1
  subst h1
  constructor
  · intro lang ast h
    rw [h] at hsame
    subst hsame
    rw [Act.bind_of_ok hr]
    obtain ⟨new, h3, ⟨reading, original, config, rounds, h4, h5, h6⟩⟩ := emits_from m fuel p base hb lang ast s1 t1
    rw [h3, h4]
    refine ⟨t1 ++ reading, original, config, rounds, by simp, ?_, h6⟩
    intro e he
    rcases List.mem_append.1 he with he | he
    · exact h2 e he
    · exact h5 e he
  · intro h
    rw [Act.bind_of_fail _ hr (by rw [hsame]; exact h) (fun _ => .panic)]
    exact h2

/-- Where something stands in a concatenation. -/
theorem split_append {α : Type} {xs ys t1 t2 : List α} {e : α} (h : xs ++ ys = t1 ++ e :: t2) (he : e ∉ xs) :
    ∃ a, t1 = xs ++ a ∧ ys = a ++ e :: t2 := by
  rcases List.append_eq_append_iff.1 h with ⟨a, h1, h2⟩ | ⟨c, h1, h2⟩
  · exact ⟨a, h1, h2⟩
  · cases c with
    | nil => exact ⟨[], by simpa using h1.symm, h2.symm⟩
    | cons x c =>
      rw [List.cons_append, List.cons.injEq] at h2
      exact absurd (by rw [h1, ← h2.1]; simp) he

theorem delivery_one {place : Option String} {text : String} {b : Bool} {d : List Effect} (h : Delivery place text b d) :
    ∃ e, d = [e] := by cases h <;> exact ⟨_, rfl⟩

/-- Whatever is delivered has been accepted just before. -/
theorem rounds_tried {tried : String → Bool → List Effect → Prop} {target : Nat → Option String} {e : Effect}
    (he : ∀ text b t, tried text b t → e ∉ t) : ∀ {n : Nat} {t : List Effect}, Rounds tried target n t →
    ∀ t1 t2, t = t1 ++ e :: t2 →
      ∃ k text done t0 u, n ≤ k ∧ t1 = t0 ++ u ∧ tried text true u ∧ Delivery (target k) text done [e] := by
  intro n t h
  induction h with
  | none n => intro t1 t2 h; simp at h
  | refused n text t rest ht _ ih =>
    intro t1 t2 h
    obtain ⟨a, rfl, h2⟩ := split_append h (he _ _ _ ht)
    obtain ⟨k, text, done, t0, u, h3, h4, h5⟩ := ih a t2 h2
    exact ⟨k, text, done, t ++ t0, u, h3, by rw [h4, List.append_assoc], h5⟩
  | kept n text t d rest ht hd _ ih =>
    intro t1 t2 h
    rw [List.append_assoc] at h
    obtain ⟨a, rfl, h2⟩ := split_append h (he _ _ _ ht)
    obtain ⟨x, rfl⟩ := delivery_one hd
    cases a with
    | nil =>
      rw [List.nil_append, List.singleton_append, List.cons.injEq] at h2
      obtain ⟨rfl, -⟩ := h2
      exact ⟨n, text, true, [], t, Nat.le_refl _, by simp, ht, hd⟩
    | cons y a =>
      rw [List.singleton_append, List.cons_append, List.cons.injEq] at h2
      obtain ⟨rfl, h2⟩ := h2
      obtain ⟨k, text, done, t0, u, h3, h4, h5⟩ := ih a t2 h2
      exact ⟨k, text, done, t ++ x :: t0, u, by omega, by rw [h4]; simp, h5⟩
  | lost n text t d ht hd =>
    intro t1 t2 h
    obtain ⟨a, rfl, h2⟩ := split_append h (he _ _ _ ht)
    obtain ⟨x, rfl⟩ := delivery_one hd
    cases a with
    | nil =>
      rw [List.nil_append, List.cons.injEq] at h2
      obtain ⟨rfl, -⟩ := h2
      exact ⟨n, text, false, [], t, Nat.le_refl _, by simp, ht, hd⟩
    | cons y a => simp at h2

/-- Mutants do not go where the files are that are tried or made when reading. -/
theorem place_not_temp {base : String} (hb : ∃ f, Path.fileName f = some base) (lang : Language) (dir tmp : String) (n : Nat) :
    Path.join dir (base ++ "_" ++ toString n ++ "." ++ lang.ext) ≠ Path.join tmp base ∧
    Path.join dir (base ++ "_" ++ toString n ++ "." ++ lang.ext) ≠ Path.join tmp (base ++ ".json") := by
  obtain ⟨f, hb⟩ := hb
  obtain ⟨h1, h2⟩ := Path.fileName_spec hb
  have hext : PlainExt lang.ext := by
    cases lang
    · exact plainExt_sol
    · exact plainExt_vy
  obtain ⟨h3, h4⟩ := mutantFile_ok hext h2 n
  constructor
  · intro h
    have := congrArg (fun s : String => s.toList.length) (Path.join_name h3 h4 h1 h2 h)
    simp [String.toList_append] at this
  · intro h
    have h5 : (base ++ ".json").toList ≠ [] := by simp
    have h6 : ∀ c ∈ (base ++ ".json").toList, c ≠ '/' := by
      intro c hc
      rw [String.toList_append, List.mem_append] at hc
      rcases hc with hc | hc
      · exact h2 c hc
      · intro e; subst e; revert hc; decide
    have := congrArg (fun s : String => s.toList.getLast?) (Path.join_name h3 h4 h5 h6 h)
    simp only [String.toList_append] at this
    rw [getLast?_append_ne _ (by cases lang <;> decide), getLast?_append_ne _ (by simp)] at this
    cases lang <;> revert this <;> decide

theorem delivery_wrote {place : Option String} {text f text' : String} {b done : Bool} {d : List Effect}
    (h : Delivery place text b d) (hm : .wrote f text' done ∈ d) : place = some f ∧ text = text' := by
  cases h with
  | said => simp at hm
  | wrote file text b =>
    rw [List.mem_singleton, Effect.wrote.injEq] at hm
    exact ⟨by rw [hm.1], hm.2.1.symm⟩

theorem delivery_said {place : Option String} {text text' : String} {b : Bool} {d : List Effect}
    (h : Delivery place text b d) (hm : .said text' ∈ d) : place = none ∧ text = text' := by
  cases h with
  | said =>
    rw [List.mem_singleton, Effect.said.injEq] at hm
    exact ⟨rfl, hm.symm⟩
  | wrote file text b => simp at hm

theorem once_wrote {wanted : Bool} {place : Option String} {P : String → Prop} {t : List Effect} (h : Once wanted place P t)
    {f text : String} {done : Bool} (hm : .wrote f text done ∈ t) : wanted = true ∧ place = some f ∧ P text := by
  rcases h with rfl | ⟨hw, text', b, hp, hd⟩
  · cases hm
  · obtain ⟨h1, rfl⟩ := delivery_wrote hd hm
    exact ⟨hw, h1, hp⟩

theorem once_said {wanted : Bool} {place : Option String} {P : String → Prop} {t : List Effect} (h : Once wanted place P t)
    {text : String} (hm : .said text ∈ t) : wanted = true ∧ place = none ∧ P text := by
  rcases h with rfl | ⟨hw, text', b, hp, hd⟩
  · cases hm
  · obtain ⟨h1, rfl⟩ := delivery_said hd hm
    exact ⟨hw, h1, hp⟩

theorem trial_files {file text : String} {j : Judges} {b : Bool} {t : List Effect} (h : Trial file j text b t) :
    ∀ e ∈ t, match e with
      | .ran .. => True
      | .wrote f _ _ => f = file
      | .removed f => f = file
      | .said _ => False := by
  cases h <;> simp

end ToolProps

open ToolProps

/-- **C65.** In a run that validates mutants, whenever a mutant is written to its file, just before that the same text was
put to a file in the directory for temporary files and the compiler accepted that file. -/
theorem C65_file (m : Machine S R) (fuel : Nat) (p : Params R) (s : S) (base : String) (hb : Path.fileName p.fileName = some base)
    (lang : Language) (ast : Json) (hr : (m.reading p s).1 = .ok (lang, ast)) (hv : p.verify = true) (hs : p.useStdout = false)
    (t1 t2 : List Effect) (n : Nat) (text : String) (done : Bool)
    (ht : (m.traced.generate fuel p (s, [])).2.2 =
      t1 ++ .wrote (Path.join p.outputDirectory (base ++ "_" ++ toString n ++ "." ++ suffixOf lang)) text done :: t2) :
    ∃ t0 u, t1 = t0 ++ u ∧
      Trial (Path.join m.tmp base) (judges m.tmp p.preferences (Path.join m.tmp base) lang) text true u := by
  rw [show suffixOf lang = lang.ext by cases lang <;> rfl] at ht
  obtain ⟨reading, original, config, rounds, h1, h2, h3, h4, h5⟩ := ((run_trace m fuel p s base hb).1 lang ast hr).parts
  obtain ⟨hn1, hn2⟩ := place_not_temp ⟨_, hb⟩ lang p.outputDirectory m.tmp n
  have hext : PlainExt lang.ext := by
    cases lang
    · exact plainExt_sol
    · exact plainExt_vy
  have hd := C07_distinct lang.ext p.fileName p.outputDirectory base hext hb n n
  rw [mutantTarget_eq hext hb] at hd
  rw [ht, List.append_assoc, List.append_assoc] at h1
  simp only [hs, Bool.false_eq_true, if_false] at h3 h4
  obtain ⟨a, rfl, g1⟩ := split_append h1.symm (fun he => hn2 (h2 _ he))
  obtain ⟨a, rfl, g2⟩ := split_append g1 (fun he => hd.2.1 (once_wrote h3 he).2.1.symm)
  obtain ⟨a, rfl, g3⟩ := split_append g2 (fun he => hd.2.2 (by cases lang <;> decide) (once_wrote h4 he).2.1.symm)
  obtain ⟨k, text', done', t0, u, -, h7, ⟨-, h8⟩, h9⟩ := rounds_tried (by
    rintro text' b t ⟨-, ht⟩ he
    unfold TriedIf at ht
    rw [if_pos hv] at ht
    exact hn1 (trial_files ht _ he)) h5 a t2 g3
  unfold TriedIf at h8
  rw [if_pos hv] at h8
  have := (delivery_wrote h9 (List.mem_singleton_self _)).2
  subst this
  exact ⟨reading ++ (original ++ (config ++ t0)), u, by rw [h7]; simp, h8⟩

/-- **C65, standard output.** In a run that validates mutants, every text that goes to standard output, other than that of
the original and that of the configuration, was accepted by the compiler just before. -/
theorem C65_stdout (m : Machine S R) (fuel : Nat) (p : Params R) (s : S) (base : String) (hb : Path.fileName p.fileName = some base)
    (lang : Language) (ast : Json) (hr : (m.reading p s).1 = .ok (lang, ast)) (hv : p.verify = true)
    (t1 t2 : List Effect) (text : String) (ht : (m.traced.generate fuel p (s, [])).2.2 = t1 ++ .said text :: t2)
    (ho : p.printOriginal = true → m.print lang ast ≠ .ok text)
    (hc : p.saveConfig = true → m.configText (savedConfig defaultCompiler lang p) ≠ text) :
    ∃ t0 u, t1 = t0 ++ u ∧
      Trial (Path.join m.tmp base) (judges m.tmp p.preferences (Path.join m.tmp base) lang) text true u := by
  obtain ⟨reading, original, config, rounds, h1, h2, h3, h4, h5⟩ := ((run_trace m fuel p s base hb).1 lang ast hr).parts
  rw [ht, List.append_assoc, List.append_assoc] at h1
  obtain ⟨a, rfl, g1⟩ := split_append h1.symm (fun he => h2 _ he)
  obtain ⟨a, rfl, g2⟩ := split_append g1 (fun he => ho (once_said h3 he).1 (once_said h3 he).2.2)
  obtain ⟨a, rfl, g3⟩ := split_append g2 (fun he => hc (once_said h4 he).1 (once_said h4 he).2.2.symm)
  obtain ⟨k, text', done', t0, u, -, h7, ⟨-, h8⟩, h9⟩ := rounds_tried (by
    rintro text' b t ⟨-, ht⟩ he
    unfold TriedIf at ht
    rw [if_pos hv] at ht
    exact trial_files ht _ he) h5 a t2 g3
  unfold TriedIf at h8
  rw [if_pos hv] at h8
  have := (delivery_said h9 (List.mem_singleton_self _)).2
  subst this
  exact ⟨reading ++ (original ++ (config ++ t0)), u, by rw [h7]; simp, h8⟩

namespace ToolProps

/-- What touches files only touches these. -/
def Touches (P : String → Prop) : Effect → Prop
  | .ran .. => True
  | .wrote f _ _ => P f
  | .removed f => P f
  | .said _ => True

theorem rounds_touch {tried : String → Bool → List Effect → Prop} {target : Nat → Option String} {P : String → Prop}
    (ht : ∀ text b t, tried text b t → ∀ e ∈ t, Touches P e) (hd : ∀ n f, target n = some f → P f) :
    ∀ {n : Nat} {t : List Effect}, Rounds tried target n t → ∀ e ∈ t, Touches P e := by
  have hdel : ∀ n text b d, Delivery (target n) text b d → ∀ e ∈ d, Touches P e := by
    intro n text b d h e he
    generalize hp : target n = place at h
    cases h with
    | said => rw [List.mem_singleton.1 he]; trivial
    | wrote f => rw [List.mem_singleton.1 he]; exact hd n f hp
  intro n t h
  induction h with
  | none => simp
  | refused n text t rest h1 _ ih =>
    intro e he
    rcases List.mem_append.1 he with he | he
    · exact ht _ _ _ h1 e he
    · exact ih e he
  | kept n text t d rest h1 h2 _ ih =>
    intro e he
    rcases List.mem_append.1 he with he | he
    · rcases List.mem_append.1 he with he | he
      · exact ht _ _ _ h1 e he
      · exact hdel _ _ _ _ h2 e he
    · exact ih e he
  | lost n text t d h1 h2 =>
    intro e he
    rcases List.mem_append.1 he with he | he
    · exact ht _ _ _ h1 e he
    · exact hdel _ _ _ _ h2 e he

theorem once_touch {wanted : Bool} {place : Option String} {Q : String → Prop} {P : String → Prop} {t : List Effect}
    (h : Once wanted place Q t) (hp : wanted = true → ∀ f, place = some f → P f) : ∀ e ∈ t, Touches P e := by
  intro e he
  cases e with
  | ran => trivial
  | said => trivial
  | wrote f text done => exact hp (once_wrote h he).1 f (once_wrote h he).2.1
  | removed f =>
    rcases h with rfl | ⟨-, text, b, -, h⟩
    · cases he
    · cases h <;> simp at he

end ToolProps

/-- **C66, files.** The files that a run writes or removes are: two files in the directory for temporary files, and, unless the
output goes to standard output, the file for the original and the file for the configuration, if they are asked for, and
the files of the mutants. -/
theorem C66_files (m : Machine S R) (fuel : Nat) (p : Params R) (s : S) (base : String) (hb : Path.fileName p.fileName = some base)
    (lang : Language) (ast : Json) (hr : (m.reading p s).1 = .ok (lang, ast)) :
    ∀ e ∈ (m.traced.generate fuel p (s, [])).2.2, Touches (fun f =>
      f = Path.join m.tmp base ∨ f = Path.join m.tmp (base ++ ".json") ∨
      (p.useStdout = false ∧ ((p.printOriginal = true ∧ printTarget (suffixOf lang) p.fileName p.outputDirectory = some f) ∨
        (p.saveConfig = true ∧ configTarget p.fileName p.outputDirectory = some f) ∨
        ∃ n : Nat, f = Path.join p.outputDirectory (base ++ "_" ++ toString n ++ "." ++ suffixOf lang)))) e := by
  rw [show suffixOf lang = lang.ext by cases lang <;> rfl]
  obtain ⟨reading, original, config, rounds, h1, h2, h3, h4, h5⟩ := ((run_trace m fuel p s base hb).1 lang ast hr).parts
  have hout : ∀ (q : Option String) f, (if p.useStdout then none else q) = some f → p.useStdout = false ∧ q = some f := by
    intro q f h
    cases hs : p.useStdout with
    | true => rw [hs] at h; cases h
    | false => rw [hs] at h; exact ⟨rfl, h⟩
  intro e he
  rw [h1] at he
  rcases List.mem_append.1 he with he | he
  · rcases List.mem_append.1 he with he | he
    · rcases List.mem_append.1 he with he | he
      · have := h2 e he
        cases e with
        | ran => trivial
        | wrote f text done => exact .inr (.inl this)
        | removed f => exact this.elim
        | said => trivial
      · exact once_touch h3 (fun hw f hf => .inr (.inr ⟨(hout _ _ hf).1, .inl ⟨hw, (hout _ _ hf).2⟩⟩)) e he
    · exact once_touch h4 (fun hw f hf => .inr (.inr ⟨(hout _ _ hf).1, .inr (.inl ⟨hw, (hout _ _ hf).2⟩)⟩)) e he
  · refine rounds_touch ?_ ?_ h5 e he
    · rintro text b t ⟨-, ht⟩ e he
      unfold TriedIf at ht
      split at ht
      · have := trial_files ht e he
        cases e with
        | ran => trivial
        | wrote f text done => exact .inl this
        | removed f => exact .inl this
        | said => trivial
      · rw [ht.2] at he; cases he
    · intro n f hf
      obtain ⟨h6, h7⟩ := hout _ _ hf
      exact .inr (.inr ⟨h6, .inr (.inr ⟨n, (Option.some.inj h7).symm⟩)⟩)

namespace ToolProps
open Emits InputsKept

variable (m : Machine S R)

/-- The action only touches files in the directory for temporary files. -/
abbrev TouchesTemp {α : Type} (x : Act (S × List Effect) α) : Prop := All (Touches (InTemp m.toSys)) x

omit [Rand R] in
theorem temp_of_reads {α : Type} {file : String} {x : Act (S × List Effect) α}
    (h : ∀ base, (∀ b, Path.fileName file = some b → b = base) → Reads m base x) : TouchesTemp m x := by
  have key : ∀ base : String, (∀ c ∈ base.toList, c ≠ '/') → Reads m base x → TouchesTemp m x := by
    intro base hb h
    refine Emits.mono h fun o new hn e he => ?_
    have := hn e he
    cases e with
    | ran => trivial
    | said => trivial
    | removed => exact this.elim
    | wrote f text done =>
      have this : f = Path.join m.tmp (base ++ ".json") := this
      show InTemp m.toSys f
      rw [this]
      refine inTemp_join m.toSys (by simp) fun c hc => ?_
      rw [String.toList_append, List.mem_append] at hc
      rcases hc with hc | hc
      · exact hb c hc
      · intro e; subst e; revert hc; decide
  cases hf : Path.fileName file with
  | none => exact key "" (by simp) (h "" (by simp [hf]))
  | some b => exact key b (Path.fileName_spec hf).2 (h b (by simp [hf]))

omit [Rand R] in
theorem temp_recognizeFile (file : String) (p : Prefs) : TouchesTemp m (recognizeFile m.traced.toSys file p) :=
  temp_of_reads m (file := file) fun _ hb => reads_recognizeFile m hb

omit [Rand R] in
theorem temp_reading (p : Params R) : TouchesTemp m (m.traced.reading p) :=
  temp_of_reads m (file := p.fileName) fun _ hb => All.bind (reads_recognizeFile m hb) fun r =>
    All.bind (reads_loadAst m r.2 hb) fun _ => All.pure _

omit [Rand R] in
theorem temp_tryMutant (lang : Language) (file : String) (p : Prefs) (ast : Json) :
    TouchesTemp m (m.traced.tryMutant lang file p ast) := by
  cases hf : Path.fileName file with
  | none =>
    refine All.bind (All.lift _) fun text => ?_
    show TouchesTemp m (Act.bind (Act.unwrap (Path.fileName file)) _)
    rw [hf]
    exact fun s t => ⟨[], (List.append_nil _).symm, by simp⟩
  | some base =>
    refine (emits_tryMutant m lang file base p ast hf).mono fun o new h e he => ?_
    rcases h with ⟨text, -, b, -, h⟩ | ⟨-, -, rfl⟩
    · have := trial_files h e he
      have ht : InTemp m.toSys (Path.join m.tmp base) :=
        inTemp_join m.toSys (by simpa using (Path.fileName_spec hf).1) (Path.fileName_spec hf).2
      cases e with
      | ran => trivial
      | said => trivial
      | wrote f => have this : f = _ := this; subst this; exact ht
      | removed f => have this : f = _ := this; subst this; exact ht
    · cases he

omit [Rand R] in
theorem temp_putOut (lang : Language) (item : Item) : TouchesTemp m (m.traced.putOut lang none item) := by
  refine (emits_putOut m lang none item).mono fun o new h e he => ?_
  rcases h with ⟨text, b, -, h, -⟩ | ⟨-, -, rfl⟩
  · cases h
    rw [List.mem_singleton.1 he]; trivial
  · cases he

omit [Rand R] in
theorem temp_judge (j : Job R) (hs : j.params.useStdout = true) (g : Progress R) (rest : List MutationType) (ast : Json)
    (res : MutatorResult) (r : R) : TouchesTemp m (m.traced.judge j g rest ast res r) := by
  have hk : TouchesTemp m (m.traced.keep j g rest ast res r) := by
    refine All.bind ?_ fun _ => All.pure _
    unfold Machine.writeMutant
    rw [if_pos hs]
    exact temp_putOut m _ _
  unfold Machine.judge
  split
  · exact All.bind (temp_tryMutant m _ _ _ ast) fun _ => All.ite hk (All.pure _)
  · exact hk

theorem temp_turn (j : Job R) (hs : j.params.useStdout = true) (g : Progress R) : TouchesTemp m (m.traced.turn j g) := by
  unfold Machine.turn
  split
  · exact All.pure _
  · split
    · exact All.bind (All.unwrap _) fun n => All.bind (All.lift _) fun r => All.ite (All.pure _) (temp_judge m j hs g _ _ _ _)
    · exact All.pure _

theorem temp_turns (j : Job R) (hs : j.params.useStdout = true) : ∀ (n : Nat) (g : Progress R), TouchesTemp m (m.traced.turns j n g)
  | 0, _ => All.lift _
  | n + 1, g => by
    unfold Machine.turns
    refine All.bind (temp_turn m j hs g) fun o => ?_
    cases o with
    | none => exact All.pure _
    | some g' => exact temp_turns j hs n g'

theorem temp_generate (fuel : Nat) (p : Params R) (hs : p.useStdout = true) : TouchesTemp m (m.traced.generate fuel p) := by
  intro s t
  rw [generate_eq]
  refine All.bind (temp_reading m p) (fun r => ?_) s t
  unfold Machine.generateFrom
  refine All.ite (All.lift _) (All.bind ?_ fun _ => All.bind ?_ fun _ => All.bind (All.lift _) fun r => temp_turns m _ hs _ _)
  · unfold Machine.originalAct
    split
    · exact temp_putOut m _ _
    · exact All.pure _
  · unfold Machine.configAct
    split
    · refine All.bind (All.unwrap _) fun _ => ?_
      exact temp_putOut m _ _
    · exact All.pure _

omit [Rand R] in
theorem temp_collect (st : Start R) (order : List MutationType) (a : Args) (hs : a.stdout = true) :
    ∀ (fs : List String) (seed : Nat), Emits (m.traced.collect st order a fs seed) fun o new =>
      (∀ e ∈ new, Touches (InTemp m.toSys) e) ∧ ∀ ps, o = .ok ps → ∀ p ∈ ps, p.useStdout = true
  | [], _ => (Emits.pure _).mono fun o new h => by
    obtain ⟨rfl, rfl⟩ := h
    exact ⟨by simp, fun ps hp => by cases hp; simp⟩
  | f :: fs, seed => by
    have happ : ∀ {n1 n2 : List Effect}, (∀ e ∈ n1, Touches (InTemp m.toSys) e) → (∀ e ∈ n2, Touches (InTemp m.toSys) e) →
        ∀ e ∈ n1 ++ n2, Touches (InTemp m.toSys) e := fun h1 h2 e he => (List.mem_append.1 he).elim (h1 e) (h2 e)
    unfold Machine.collect
    refine Emits.bind (temp_recognizeFile m f a.preferences) (Q := fun _ o new =>
      (∀ e ∈ new, Touches (InTemp m.toSys) e) ∧ ∀ ps, o = .ok ps → ∀ p ∈ ps, p.useStdout = true) (fun r => ?_) ?_ ?_
    · obtain ⟨lang, ft⟩ := r
      have hplain : Emits (do
          let rest ← m.traced.collect st order a fs seed
          pure (plainParams st order a f seed :: rest) : Act (S × List Effect) (List (Params R))) fun o new =>
            (∀ e ∈ new, Touches (InTemp m.toSys) e) ∧ ∀ ps, o = .ok ps → ∀ p ∈ ps, p.useStdout = true := by
        refine Emits.bind (temp_collect st order a hs fs seed) (fun _ => Emits.pure _) ?_ ?_
        · rintro rest n1 o n2 ⟨h1, h2⟩ ⟨rfl, rfl⟩
          refine ⟨by simpa using h1, fun ps hp => ?_⟩
          cases hp
          intro p hp
          rcases List.mem_cons.1 hp with rfl | hp
          · exact hs
          · exact h2 rest rfl p hp
        · rintro o o' n1 ⟨h1, -⟩ hf
          exact ⟨h1, fun ps hp => absurd hp ((failsAs_ne hf).2 ps)⟩
      cases ft with
      | source => exact hplain
      | ast => exact hplain
      | config =>
        refine Emits.bind (P := fun _ new => new = []) (Q := fun _ o new =>
          (∀ e ∈ new, Touches (InTemp m.toSys) e) ∧ ∀ ps, o = .ok ps → ∀ p ∈ ps, p.useStdout = true)
          (fun s t => ⟨[], (List.append_nil _).symm, rfl⟩) (fun c => ?_) ?_ ?_
        · refine Emits.bind (temp_collect st order a hs fs _) (fun _ => Emits.pure _) ?_ ?_
          · rintro rest n1 o n2 ⟨h1, h2⟩ ⟨rfl, rfl⟩
            refine ⟨by simpa using h1, fun ps hp => ?_⟩
            cases hp
            intro p hp
            rcases List.mem_append.1 hp with hp | hp
            · simp only [configParams, List.mem_map] at hp
              obtain ⟨f', -, rfl⟩ := hp
              simp only
              split
              · split
                · rfl
                · exact hs
              · exact hs
            · exact h2 rest rfl p hp
          · rintro o o' n1 ⟨h1, -⟩ hf
            exact ⟨h1, fun ps hp => absurd hp ((failsAs_ne hf).2 ps)⟩
        · rintro c n1 o n2 rfl h; exact h
        · rintro o o' n1 rfl hf
          exact ⟨by simp, fun ps hp => absurd hp ((failsAs_ne hf).2 ps)⟩
    · rintro r n1 o n2 h1 ⟨h2, h3⟩
      exact ⟨happ h1 h2, h3⟩
    · intro o o' n1 h1 hf
      exact ⟨h1, fun ps hp => absurd hp ((failsAs_ne hf).2 ps)⟩

theorem temp_generateAll (fuel : Nat) : ∀ ps : List (Params R), (∀ p ∈ ps, p.useStdout = true) →
    TouchesTemp m (m.traced.generateAll fuel ps)
  | [], _ => All.pure _
  | p :: ps, h => All.bind (temp_generate m fuel p (h p (by simp))) fun _ =>
    temp_generateAll fuel ps fun q hq => h q (by simp [hq])

end ToolProps

/-- **C66.** With the option for standard output the command writes and removes no files but files in the directory for
temporary files, whatever the inputs and configuration files are. -/
theorem C66_stdout (m : Machine S R) (st : Start R) (order : List MutationType) (fuel : Nat) (a : Args) (hs : a.stdout = true)
    (s : S) : ∀ e ∈ (m.traced.mutate st order fuel a (s, [])).2.2, Touches (InTemp m.toSys) e := by
  have h : Emits (m.traced.mutate st order fuel a) fun _ new => ∀ e ∈ new, Touches (InTemp m.toSys) e := by
    refine Emits.bindOk (temp_collect m st order a hs a.files (argSeed st a))
      (fun ps n1 h => temp_generateAll m fuel ps (h.2 ps rfl)) ?_ ?_
    · rintro ps n1 o n2 ⟨h1, -⟩ h3 e he
      exact (List.mem_append.1 he).elim (h1 e) (h3 e)
    · rintro o o' n1 ⟨h1, -⟩ -
      exact h1
  obtain ⟨new, h1, h2⟩ := h s []
  rw [h1]
  exact h2

namespace ToolProps
open InputsKept

variable (m : Machine S R) {content : String → S → Option String} {g : String}

omit [Rand R] in
theorem keeps_putOut (hc : Contents m.toSys content) (hout : ∀ t s, content g (m.stdout t s) = content g s) (lang : Language)
    (dest : Option String) (hd : dest ≠ some g) (item : Item) : Keeps content g (m.putOut lang dest item) := by
  refine (Keeps.lift _).bind fun text => ?_
  cases dest with
  | none => exact fun s => hout text s
  | some f =>
    exact (Keeps.create hc (fun e => hd (by rw [e])) text).bind fun _ => Keeps.ite (Keeps.pure _) (Keeps.lift _)

omit [Rand R] in
theorem keeps_putTo (hc : Contents m.toSys content) (hout : ∀ t s, content g (m.stdout t s) = content g s) (lang : Language)
    (dest : Option String) (hd : dest ≠ some g) (item : Item) :
    Keeps content g (Act.bind (Act.unwrap dest) fun f => m.putOut lang (some f) item) := by
  cases dest with
  | none => exact fun s => rfl
  | some f => exact fun s => keeps_putOut m hc hout lang (some f) hd item s

omit [Rand R] in
theorem keeps_judge (hc : Contents m.toSys content) (hg : ¬ InTemp m.toSys g) (hout : ∀ t s, content g (m.stdout t s) = content g s)
    (j : Job R) (pr : Progress R) (hm : j.params.useStdout = false →
      mutantTarget j.language.ext j.params.fileName j.params.outputDirectory pr.written ≠ some g) (rest : List MutationType) (ast : Json) (res : MutatorResult) (r : R) :
    Keeps content g (m.judge j pr rest ast res r) := by
  have hk : Keeps content g (m.keep j pr rest ast res r) := by
    refine Keeps.bind ?_ fun _ => Keeps.pure _
    unfold Machine.writeMutant
    cases hs : j.params.useStdout with
    | true => exact keeps_putOut m hc hout _ none (by simp) _
    | false => exact keeps_putTo m hc hout _ _ (hm hs) _
  unfold Machine.judge
  split
  · refine Keeps.bind ((Keeps.lift _).bind fun text s => ?_) fun _ => Keeps.ite hk (Keeps.pure _)
    exact C62_validation_partial m.toSys hc g hg _ _ text _ s
  · exact hk

theorem keeps_turn (hc : Contents m.toSys content) (hg : ¬ InTemp m.toSys g) (hout : ∀ t s, content g (m.stdout t s) = content g s)
    (j : Job R) (pr : Progress R) (hm : j.params.useStdout = false →
      mutantTarget j.language.ext j.params.fileName j.params.outputDirectory pr.written ≠ some g) : Keeps content g (m.turn j pr) := by
  unfold Machine.turn
  split
  · exact Keeps.pure _
  · split
    · exact (Keeps.unwrap _).bind fun n => (Keeps.lift _).bind fun r =>
        Keeps.ite (Keeps.pure _) (keeps_judge m hc hg hout j pr hm _ _ _ _)
    · exact Keeps.pure _

theorem keeps_turns (hc : Contents m.toSys content) (hg : ¬ InTemp m.toSys g) (hout : ∀ t s, content g (m.stdout t s) = content g s)
    (j : Job R) (hm : j.params.useStdout = false →
      ∀ n, mutantTarget j.language.ext j.params.fileName j.params.outputDirectory n ≠ some g) :
    ∀ (n : Nat) (pr : Progress R), Keeps content g (m.turns j n pr)
  | 0, _ => Keeps.lift _
  | n + 1, pr => by
    unfold Machine.turns
    refine (keeps_turn m hc hg hout j pr fun h => hm h _).bind fun o => ?_
    cases o with
    | none => exact Keeps.pure _
    | some g' => exact keeps_turns hc hg hout j hm n g'

end ToolProps

theorem ToolProps.plainExt (lang : Language) : PlainExt lang.ext := by
  cases lang
  · exact plainExt_sol
  · exact plainExt_vy

open InputsKept in
/-- **C62, a whole run.** A run on an input changes no file but files in the directory for temporary files and the files
that it has to write: the original, the configuration, and the mutants, each only if asked.  Missing: inputs in that
directory, and inputs with the name of such a file. -/
theorem C62_run_partial (m : Machine S R) {content : String → S → Option String} (hc : Contents m.toSys content) (g : String)
    (hg : ¬ InTemp m.toSys g) (hout : ∀ t s, content g (m.stdout t s) = content g s) (fuel : Nat) (p : Params R)
    (h : p.useStdout = false → ∀ lang : Language,
      (p.printOriginal = true → printTarget lang.ext p.fileName p.outputDirectory ≠ some g) ∧
      (p.saveConfig = true → configTarget p.fileName p.outputDirectory ≠ some g) ∧
      ∀ n, mutantTarget lang.ext p.fileName p.outputDirectory n ≠ some g) (s : S) :
    content g (m.generate fuel p s).2 = content g s := by
  rw [generate_eq]
  refine Keeps.bind ((Keeps.recognizeFile hc hg).bind fun r => (Keeps.loadAst hc hg r.2).bind fun _ => Keeps.pure _)
    (fun r => ?_) s
  unfold Machine.generateFrom
  refine Keeps.ite (Keeps.lift _) (Keeps.bind ?_ fun _ => Keeps.bind ?_ fun _ => (Keeps.lift _).bind fun r' => ?_)
  · unfold Machine.originalAct
    cases ho : p.printOriginal with
    | false => exact Keeps.pure _
    | true =>
      cases hs : p.useStdout with
      | true => exact keeps_putOut m hc hout _ none (by simp) _
      | false => exact keeps_putTo m hc hout _ _ ((h hs r.1).1 ho) _
  · unfold Machine.configAct
    cases ho : p.saveConfig with
    | false => exact Keeps.pure _
    | true =>
      cases hs : p.useStdout with
      | true => exact (Keeps.unwrap _).bind fun _ => keeps_putOut m hc hout _ none (by simp) _
      | false => exact keeps_putTo m hc hout _ _ ((h hs r.1).2.1 ho) _
  · have hj := fun hs => (h hs r.1).2.2
    exact keeps_turns m hc hg hout ⟨r.1, p, _, _, _, r.2⟩ hj _ _

/-- **C62, the input of a run.** A run leaves its input as it is, if the input is not in the directory for temporary
files and, unless everything goes to standard output, neither the printed original nor the configuration is to be
written under its name.  The mutants are no danger, whatever the output directory is.  Missing: inputs in the directory for
temporary files or with the name of the original or of the configuration. -/
theorem C62_input_partial (m : Machine S R) {content : String → S → Option String} (hc : Contents m.toSys content) (p : Params R)
    (hg : ¬ InTemp m.toSys p.fileName) (hout : ∀ t s, content p.fileName (m.stdout t s) = content p.fileName s) (fuel : Nat)
    (ho : p.useStdout = false → p.printOriginal = true →
      ∀ base, Path.fileName p.fileName = some base → Path.join p.outputDirectory base ≠ p.fileName)
    (hsave : p.useStdout = false → p.saveConfig = true → configTarget p.fileName p.outputDirectory ≠ some p.fileName) (s : S) :
    content p.fileName (m.generate fuel p s).2 = content p.fileName s := by
  refine C62_run_partial m hc _ hg hout fuel p (fun hs lang => ⟨fun hp => ?_, hsave hs, fun n => ?_⟩) s
  all_goals have hext := ToolProps.plainExt lang
  · intro e
    cases hb : Path.fileName p.fileName with
    | none => rw [printTarget, hb] at e; cases e
    | some base => exact ho hs hp base hb ((C62_original_partial _ _ _ _ hext hb).1 e).2
  · intro e
    cases hb : Path.fileName p.fileName with
    | none => rw [mutantTarget, mutantName, hb] at e; cases e
    | some base =>
      rw [mutantTarget_eq hext hb] at e
      injection e with e
      obtain ⟨m1, m2⟩ := mutantFile_ok hext (Path.fileName_spec hb).2 n
      have hus : '_' ∈ (base ++ "_" ++ toString n ++ "." ++ lang.ext).toList := by simp
      have := Path.fileName_join p.outputDirectory (base ++ "_" ++ toString n ++ "." ++ lang.ext) m1 m2
        (fun e => by rw [e] at hus; simp at hus) (fun e => by rw [e] at hus; simp at hus)
      rw [e, hb] at this
      have := congrArg (fun o => (o.getD "").toList.length) this
      simp at this

/-! ### A run -/

namespace DemoMachine

/-- The record of a run. -/
def trace (p : Params ListRand) : List Effect := (machine.traced.generate 100 p (disk, [])).2.2

/-- The text that is printed for the original. -/
def original : String := "contract C {\n    function f() public {\n        a + b;\n    }\n}\n\n"

theorem contents : Contents machine.toSys (fun f d => d.lookup f) where
  write f t s g h := DemoSystem.lookup_put f t g h s
  remove f s g h := DemoSystem.lookup_drop f g h s
  exec program args s g h := by
    show List.lookup g (DemoMachine.exec program args s).2 = _
    have hne : g ≠ "/tmp/b.sol_json.ast" := by
      rintro rfl
      exact h (by unfold InTemp; decide)
    unfold DemoMachine.exec
    split
    · split
      · exact DemoSystem.lookup_put _ _ _ hne _
      · rfl
    · rfl

end DemoMachine

/-- Example: a run that writes the original and the configuration; the first mutant is refused by the compiler, the second
is accepted and written.  So the hypotheses of C65 and C66 are met by a run in which there is something to say. -/
example : DemoMachine.trace DemoMachine.params =
    [.ran "solc" ["--ast-compact-json", "--overwrite", "-o", "/tmp", "/in/b.sol"] (some (true, "")),
     .ran "solc" ["--ast-compact-json", "--overwrite", "-o", "/tmp", "/in/b.sol"] (some (true, "")),
     .wrote "out/b.sol" DemoMachine.original true,
     .wrote "out/b.mgnx" "config" true,
     .wrote "/tmp/b.sol" (DemoMachine.mutant "-") true,
     .ran "solc" ["--overwrite", "-o", "/tmp", "/tmp/b.sol"] (some (false, "")),
     .ran "solc" ["--overwrite", "-o", "/tmp", "/tmp/b.sol", "--stop-after", "parsing"] (some (false, "")),
     .removed "/tmp/b.sol",
     .wrote "/tmp/b.sol" (DemoMachine.mutant "*") true,
     .ran "solc" ["--overwrite", "-o", "/tmp", "/tmp/b.sol"] (some (true, "")),
     .removed "/tmp/b.sol",
     .wrote "out/b.sol_0.sol" (DemoMachine.mutant "*") true] := by
  decide +kernel

example : Path.fileName DemoMachine.params.fileName = some "b.sol" ∧
    (DemoMachine.machine.reading DemoMachine.params DemoMachine.disk).1.toOption.map (·.1) = some .solidity := by
  decide +kernel

/-- Example: with standard output only files in the directory for temporary files are touched, and the input stays. -/
example : DemoMachine.trace { DemoMachine.params with useStdout := true, printOriginal := false, saveConfig := false } =
    [.ran "solc" ["--ast-compact-json", "--overwrite", "-o", "/tmp", "/in/b.sol"] (some (true, "")),
     .ran "solc" ["--ast-compact-json", "--overwrite", "-o", "/tmp", "/in/b.sol"] (some (true, "")),
     .wrote "/tmp/b.sol" (DemoMachine.mutant "-") true,
     .ran "solc" ["--overwrite", "-o", "/tmp", "/tmp/b.sol"] (some (false, "")),
     .ran "solc" ["--overwrite", "-o", "/tmp", "/tmp/b.sol", "--stop-after", "parsing"] (some (false, "")),
     .removed "/tmp/b.sol",
     .wrote "/tmp/b.sol" (DemoMachine.mutant "*") true,
     .ran "solc" ["--overwrite", "-o", "/tmp", "/tmp/b.sol"] (some (true, "")),
     .removed "/tmp/b.sol",
     .said (DemoMachine.mutant "*")] := by
  decide +kernel

/-- Example: the hypotheses of `C62_input_partial`. -/
example : (DemoMachine.machine.generate 100 DemoMachine.params DemoMachine.disk).2.lookup "/in/b.sol" = some DemoMachine.program :=
  C62_input_partial DemoMachine.machine DemoMachine.contents DemoMachine.params (by unfold InTemp; decide)
    (fun t s => DemoSystem.lookup_put _ _ _ (by decide) s) 100
    (fun _ _ base hb => by
      have : base = "b.sol" := Option.some.inj (hb.symm.trans (by decide))
      subst this; decide)
    (fun _ _ => by decide) DemoMachine.disk

end Mutagenyx
