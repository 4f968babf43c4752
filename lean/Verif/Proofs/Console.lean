import Verif.Proofs.Traced
import Verif.Props.Results
import Verif.Model.Console

/-! What the tool says has no influence on what it does. -/

namespace Mutagenyx

variable {S R : Type}

/-- The action on the machine with its output written down is the action on the machine, and says nothing. -/
def Mute {α : Type} (x : Act (S × List Line) α) (y : Act S α) : Prop :=
  ∀ s t, x (s, t) = ((y s).1, ((y s).2, t))

namespace Mute
variable {α β : Type}

theorem bind {x : Act (S × List Line) α} {y : Act S α} {f : α → Act (S × List Line) β} {g : α → Act S β} (h1 : Mute x y)
    (h2 : ∀ a, Mute (f a) (g a)) : Mute (Act.bind x f) (Act.bind y g) := by
  intro s t
  simp only [Act.bind, h1 s t]
  rcases hy : y s with ⟨o, s1⟩
  cases o with
  | ok a => exact h2 a s1 t
  | err e => rfl
  | panic => rfl
  | outOfFuel => rfl

theorem lift (o : Outcome α) : Mute (Act.lift o : Act (S × List Line) α) (Act.lift o : Act S α) := fun _ _ => rfl

theorem pure (a : α) : Mute (Pure.pure a : Act (S × List Line) α) (Pure.pure a : Act S α) := fun _ _ => rfl

theorem unwrap (o : Option α) : Mute (Act.unwrap o : Act (S × List Line) α) (Act.unwrap o : Act S α) := fun _ _ => rfl

theorem attempt {x : Act (S × List Line) α} {y : Act S α} (h : Mute x y) : Mute (Act.attempt x) (Act.attempt y) := by
  intro s t
  simp only [Act.attempt, h s t]
  rcases hy : y s with ⟨o, s1⟩
  cases o <;> rfl

theorem ite {c : Prop} [Decidable c] {x x' : Act (S × List Line) α} {y y' : Act S α} (h1 : Mute x y) (h2 : Mute x' y') :
    Mute (if c then x else x') (if c then y else y') := by
  split <;> assumption

variable (m : Machine S R) {file : String} {p : Prefs} {lang : Language}

theorem load (f : String) : Mute (m.told.toSys.load f) (m.toSys.load f) := by
  intro s t
  unfold Sys.load
  have : m.told.readJson f (s, t) = m.readJson f s := rfl
  rw [this]
  cases m.readJson f s <;> rfl

theorem run (program : String) (args : List String) : Mute (m.told.toSys.run program args) (m.toSys.run program args) :=
  fun _ _ => rfl

theorem create (f text : String) : Mute (m.told.toSys.create f text) (m.toSys.create f text) := fun _ _ => rfl

theorem solidityAst : Mute (solidityAst m.told.toSys file p) (solidityAst m.toSys file p) :=
  (Mute.unwrap _).bind fun _ => (Mute.run m _ _).bind fun _ => Mute.ite (Mute.pure _) (Mute.lift _)

theorem vyperDashO (c : String) : Mute (vyperDashO m.told.toSys c) (vyperDashO m.toSys c) := by
  unfold Mutagenyx.vyperDashO
  refine Mute.bind (Mute.run m _ _) fun r => ?_
  split
  · exact Mute.lift _
  · exact Mute.lift _
  · split
    · exact Mute.lift _
    · exact Mute.ite (Mute.lift _) (Mute.lift _)

theorem vyperAst : Mute (vyperAst m.told.toSys file p) (vyperAst m.toSys file p) := by
  refine Mute.bind (Mute.unwrap _) fun base => Mute.bind (Mute.vyperDashO m _) fun d => Mute.bind (Mute.run m _ _) fun r => ?_
  split
  · exact Mute.ite (Mute.pure _) (Mute.bind (Mute.create m _ _) fun _ => Mute.ite (Mute.pure _) (Mute.lift _))
  · exact Mute.lift _

theorem dockerAst : Mute (dockerAst m.told.toSys file p) (dockerAst m.toSys file p) :=
  (Mute.unwrap _).bind fun _ => (Mute.run m _ _).bind fun _ => Mute.ite (Mute.pure _) (Mute.lift _)

theorem loadAst (ft : FileType) : Mute (loadAst m.told.toSys lang ft file p) (loadAst m.toSys lang ft file p) := by
  cases ft with
  | source =>
    show Mute (convertSource m.told.toSys lang file p) (convertSource m.toSys lang file p)
    cases lang with
    | solidity =>
      refine Mute.bind (Mute.solidityAst m).attempt fun a => ?_
      cases a with
      | none => exact Mute.lift _
      | some out => exact Mute.bind (Mute.load m out) fun j => Mute.lift _
    | vyper =>
      refine Mute.bind (Mute.vyperAst m).attempt fun a => ?_
      cases a with
      | none =>
        refine Mute.bind (Mute.dockerAst m).attempt fun a => ?_
        cases a with
        | none => exact Mute.lift _
        | some out => exact Mute.bind (Mute.load m out) fun j => Mute.lift _
      | some out => exact Mute.bind (Mute.load m out) fun j => Mute.lift _
  | ast => exact Mute.bind (Mute.load m file) fun j => Mute.lift _
  | config => exact Mute.lift _

theorem isSource : Mute (isSource m.told.toSys lang file p) (isSource m.toSys lang file p) := by
  cases lang with
  | solidity => exact Mute.bind (Mute.solidityAst m).attempt fun _ => Mute.pure _
  | vyper =>
    exact Mute.bind (Mute.vyperAst m).attempt fun a => Mute.ite (Mute.pure _) (Mute.bind (Mute.dockerAst m).attempt fun _ => Mute.pure _)

theorem isAst : Mute (isAst m.told.toSys lang file) (isAst m.toSys lang file) := by
  refine Mute.bind (Mute.load m file).attempt fun a => ?_
  cases a <;> exact Mute.pure _

theorem firstLanguage {check : Language → Act (S × List Line) Bool} {check' : Language → Act S Bool}
    (h : ∀ l, Mute (check l) (check' l)) : ∀ ls, Mute (firstLanguage check ls) (firstLanguage check' ls)
  | [] => Mute.pure _
  | l :: ls => Mute.bind (h l) fun _ => Mute.ite (Mute.pure _) (Mute.firstLanguage h ls)

theorem recognizeConfig : Mute (recognizeConfig m.told.toSys file) (recognizeConfig m.toSys file) := by
  unfold Mutagenyx.recognizeConfig
  split
  · refine Mute.bind (Mute.load m file).attempt fun a => ?_
    cases a with
    | none => exact Mute.pure _
    | some j =>
      simp only
      split <;> exact Mute.pure _
  · exact Mute.pure _

theorem recognizeFile : Mute (recognizeFile m.told.toSys file p) (recognizeFile m.toSys file p) := by
  refine Mute.bind (Mute.recognizeConfig m) fun o => ?_
  cases o with
  | some l => exact Mute.pure _
  | none =>
    refine Mute.bind (Mute.firstLanguage (fun l => Mute.isSource m) _) fun o => ?_
    cases o with
    | some l => exact Mute.pure _
    | none =>
      refine Mute.bind (Mute.firstLanguage (fun l => Mute.isAst m) _) fun o => ?_
      cases o with
      | some l => exact Mute.pure _
      | none => exact Mute.lift _

theorem reading (p : Params R) : Mute (m.told.reading p) (m.reading p) :=
  Mute.bind (Mute.recognizeFile m) fun r => Mute.bind (Mute.loadAst m r.2) fun _ => Mute.pure _

theorem fileCompiles (file : String) : Mute (fileCompiles m.told.toSys lang file p) (fileCompiles m.toSys lang file p) := by
  unfold Mutagenyx.fileCompiles
  cases lang <;>
    exact Mute.bind (Mute.run m _ _) fun _ => Mute.ite (Mute.pure _) (Mute.bind (Mute.run m _ _) fun _ => Mute.pure _)

theorem mutantCompiles (input text : String) :
    Mute (mutantCompiles m.told.toSys lang input text p) (mutantCompiles m.toSys lang input text p) :=
  Mute.bind (Mute.unwrap _) fun base => Mute.bind (Mute.create m _ _) fun _ =>
    Mute.ite (Mute.bind (Mute.fileCompiles m _) fun _ _ _ => rfl) (Mute.pure _)

theorem tryMutant (ast : Json) : Mute (m.told.tryMutant lang file p ast) (m.tryMutant lang file p ast) :=
  Mute.bind (Mute.lift _) fun _ => Mute.mutantCompiles m _ _


theorem putFile (f : String) (item : Item) : Mute (m.told.putOut lang (some f) item) (m.putOut lang (some f) item) := by
  have ht : m.told.text lang item = m.text lang item := by cases item <;> rfl
  unfold Machine.putOut Machine.deliver
  rw [ht]
  exact Mute.bind (Mute.lift _) fun _ => Mute.bind (Mute.create m _ _) fun _ => Mute.ite (Mute.pure _) (Mute.lift _)

theorem collect (st : Start R) (order : List MutationType) (a : Args) : ∀ (fs : List String) (seed : Nat),
    Mute (m.told.collect st order a fs seed) (m.collect st order a fs seed)
  | [], _ => Mute.pure _
  | f :: fs, seed => by
    unfold Machine.collect
    refine Mute.bind (Mute.recognizeFile m) fun r => ?_
    rcases r with ⟨lang, ft⟩
    cases ft with
    | config =>
      refine Mute.bind (fun _ _ => rfl) fun c => ?_
      exact Mute.bind (collect st order a fs _) fun _ => Mute.pure _
    | source => exact Mute.bind (collect st order a fs _) fun _ => Mute.pure _
    | ast => exact Mute.bind (collect st order a fs _) fun _ => Mute.pure _

end Mute

/-! ### What is said -/

/-- The action does the same as the plain one, and adds to the messages; after success these are as described. -/
def Tells {α : Type} (x : Act (S × List Line) α) (y : Act S α) (Q : S → α → S → List Line → Prop) : Prop :=
  ∀ s t, ∃ ls, x (s, t) = ((y s).1, ((y s).2, t ++ ls)) ∧ ∀ a s', y s = (.ok a, s') → Q s a s' ls

namespace Tells
variable {α β : Type}

theorem bind {x : Act (S × List Line) α} {y : Act S α} {f : α → Act (S × List Line) β} {g : α → Act S β}
    {Q1 : S → α → S → List Line → Prop} {Q2 : α → S → β → S → List Line → Prop} {Q : S → β → S → List Line → Prop}
    (h1 : Tells x y Q1) (h2 : ∀ a, Tells (f a) (g a) (Q2 a))
    (h : ∀ s a s1 l1 b s2 l2, Q1 s a s1 l1 → Q2 a s1 b s2 l2 → Q s b s2 (l1 ++ l2)) :
    Tells (Act.bind x f) (Act.bind y g) Q := by
  intro s t
  obtain ⟨l1, e1, q1⟩ := h1 s t
  simp only [Act.bind, e1]
  rcases hy : y s with ⟨o, s1⟩
  cases o with
  | ok a =>
    obtain ⟨l2, e2, q2⟩ := h2 a s1 (t ++ l1)
    refine ⟨l1 ++ l2, ?_, fun b s2 hb => h s a s1 l1 b s2 l2 (q1 a s1 hy) (q2 b s2 hb)⟩
    simp only [e2, List.append_assoc]
  | err e => exact ⟨l1, rfl, fun b s2 hb => by cases hb⟩
  | panic => exact ⟨l1, rfl, fun b s2 hb => by cases hb⟩
  | outOfFuel => exact ⟨l1, rfl, fun b s2 hb => by cases hb⟩

theorem mono {x : Act (S × List Line) α} {y : Act S α} {Q Q' : S → α → S → List Line → Prop} (h1 : Tells x y Q)
    (h : ∀ s a s' ls, y s = (.ok a, s') → Q s a s' ls → Q' s a s' ls) : Tells x y Q' := by
  intro s t
  obtain ⟨ls, e, q⟩ := h1 s t
  exact ⟨ls, e, fun a s' hy => h s a s' ls hy (q a s' hy)⟩

theorem of_mute {x : Act (S × List Line) α} {y : Act S α} (h : Mute x y) : Tells x y fun s a s' ls => ls = [] ∧ y s = (.ok a, s') :=
  fun s t => ⟨[], by rw [h s t, List.append_nil], fun _ _ hy => ⟨rfl, hy⟩⟩

theorem say (l : Line) : Tells (say l) (Pure.pure () : Act S Unit) fun s _ s' ls => s' = s ∧ ls = [l] :=
  fun s t => ⟨[l], rfl, fun a s' h => by cases h; exact ⟨rfl, rfl⟩⟩

theorem silent (a : α) : Tells (Pure.pure a : Act (S × List Line) α) (Pure.pure a : Act S α) fun s b s' ls => b = a ∧ s' = s ∧ ls = [] :=
  fun s t => ⟨[], by simp [Pure.pure], fun b s' h => by cases h; exact ⟨rfl, rfl, rfl⟩⟩

/-- Add something to the plain action that does nothing. -/
theorem pad {x : Act (S × List Line) α} {y : Act S α} {Q : S → α → S → List Line → Prop}
    (h : Tells x (Act.bind y fun a => Pure.pure a) Q) : Tells x y Q := by
  have : (Act.bind y fun a => Pure.pure a) = y := by
    funext s
    simp only [Act.bind]
    rcases y s with ⟨o, s1⟩
    cases o <;> rfl
  rwa [this] at h

theorem padLeft {x : Act (S × List Line) α} {y : Act S α} {Q : S → α → S → List Line → Prop}
    (h : Tells x (Act.bind (Pure.pure ()) fun _ => y) Q) : Tells x y Q := h

variable (m : Machine S R)

theorem putOut (lang : Language) (item : Item) : Tells (m.told.putOut lang none item) (m.putOut lang none item)
    fun _ _ _ ls => ∃ text, m.text lang item = .ok text ∧ ls = [.text text] := by
  intro s t
  have ht : m.told.text lang item = m.text lang item := by cases item <;> rfl
  unfold Machine.putOut
  rw [ht]
  cases m.text lang item with
  | ok text => exact ⟨[.text text], rfl, fun a s' h => ⟨text, rfl, rfl⟩⟩
  | err e => exact ⟨[], by simp [Act.lift, Bind.bind, Act.bind], fun a s' h => by cases h⟩
  | panic => exact ⟨[], by simp [Act.lift, Bind.bind, Act.bind], fun a s' h => by cases h⟩
  | outOfFuel => exact ⟨[], by simp [Act.lift, Bind.bind, Act.bind], fun a s' h => by cases h⟩

/-- What is said about the original. -/
def SaidOriginal (m : Machine S R) (lang : Language) (p : Params R) (ast : Json) (s : S) (s' : S) (ls : List Line) : Prop :=
  (p.printOriginal = false → ls = [] ∧ s' = s) ∧
  (p.printOriginal = true → p.useStdout = true → ∃ text, m.print lang ast = .ok text ∧ ls = [.text text]) ∧
  (p.printOriginal = true → p.useStdout = false → ∃ name f, Path.fileName p.fileName = some name ∧
    ls = [.original name p.outputDirectory] ∧ printTarget lang.ext p.fileName p.outputDirectory = some f ∧
    m.putOut lang (some f) (.original ast) s = (.ok (), s'))

theorem original (lang : Language) (p : Params R) (ast : Json) : Tells (m.originalSaid lang p ast) (m.originalAct lang p ast)
    fun s _ s' ls => SaidOriginal m lang p ast s s' ls := by
  unfold Machine.originalSaid Machine.originalAct SaidOriginal
  cases hp : p.printOriginal with
  | false => exact (silent ()).mono fun s a s' ls _ h => ⟨fun _ => ⟨h.2.2, h.2.1⟩, by simp, by simp⟩
  | true =>
    cases hs : p.useStdout with
    | true =>
      refine pad (Tells.bind (putOut m lang _) (fun _ => silent ()) ?_)
      rintro s a s1 l1 b s2 l2 ⟨text, h1, rfl⟩ ⟨-, -, rfl⟩
      exact ⟨by simp, fun _ _ => ⟨text, h1, rfl⟩, by simp⟩
    | false =>
      cases hf : Path.fileName p.fileName with
      | none =>
        have hn : printTarget lang.ext p.fileName p.outputDirectory = none := by unfold printTarget; rw [hf]
        rw [hn]
        exact fun s t => ⟨[], by rw [List.append_nil]; rfl, fun a s' h => by cases h⟩
      | some name =>
        have hn : printTarget lang.ext p.fileName p.outputDirectory =
          some (Path.join p.outputDirectory (name ++ if Path.endsWith p.fileName ("." ++ lang.ext) then "" else "." ++ lang.ext)) := by
          unfold printTarget; rw [hf]
        rw [hn]
        refine pad (Tells.bind (of_mute (Mute.putFile m _ _)) (fun _ => say _) ?_)
        rintro s a s1 l1 b s2 l2 ⟨rfl, h1⟩ ⟨rfl, rfl⟩
        exact ⟨by simp, by simp, fun _ _ => ⟨name, _, rfl, rfl, rfl, h1⟩⟩

/-- What is said about the configuration. -/
def SaidConfig (m : Machine S R) (lang : Language) (p : Params R) (s : S) (s' : S) (ls : List Line) : Prop :=
  (p.saveConfig = false → ls = [] ∧ s' = s) ∧
  (p.saveConfig = true → p.useStdout = true → ls = [.text (m.configText (savedConfig defaultCompiler lang p))]) ∧
  (p.saveConfig = true → p.useStdout = false → ∃ f, configTarget p.fileName p.outputDirectory = some f ∧
    ls = [.config f] ∧ m.putOut lang (some f) (.config (savedConfig defaultCompiler lang p)) s = (.ok (), s'))

theorem config (lang : Language) (p : Params R) : Tells (m.configSaid lang p) (m.configAct lang p)
    fun s _ s' ls => SaidConfig m lang p s s' ls := by
  unfold Machine.configSaid Machine.configAct SaidConfig
  cases hp : p.saveConfig with
  | false => exact (silent ()).mono fun s a s' ls _ h => ⟨fun _ => ⟨h.2.2, h.2.1⟩, by simp, by simp⟩
  | true =>
    cases hf : configTarget p.fileName p.outputDirectory with
    | none => exact fun s t => ⟨[], by rw [List.append_nil]; rfl, fun a s' h => by cases h⟩
    | some f =>
      cases hs : p.useStdout with
      | true =>
        refine Tells.mono (putOut m lang (.config (savedConfig defaultCompiler lang p))) ?_
        rintro s a s1 l1 - ⟨text, h1, rfl⟩
        cases h1
        exact ⟨by simp, fun _ _ => rfl, by simp⟩
      | false =>
        show Tells (Act.bind (Mutagenyx.say (.config f)) fun _ => m.told.putOut lang (some f) (.config (savedConfig defaultCompiler lang p)))
          (Act.bind (Pure.pure ()) fun _ => m.putOut lang (some f) (.config (savedConfig defaultCompiler lang p))) _
        refine Tells.bind (say (.config f)) (fun _ => of_mute (Mute.putFile m f _)) ?_
        rintro s a s1 l1 b s2 l2 ⟨rfl, rfl⟩ ⟨rfl, h1⟩
        exact ⟨by simp, by simp, fun _ _ => ⟨f, rfl, rfl, h1⟩⟩

variable [Rand R]

omit [Rand R] in
theorem lifted {β : Type} (o : Outcome β) : Tells (Act.lift o : Act (S × List Line) β) (Act.lift o : Act S β)
    fun s b s' ls => o = .ok b ∧ s' = s ∧ ls = [] :=
  fun s t => ⟨[], by rw [List.append_nil]; rfl, fun b s' h => by cases h; exact ⟨rfl, rfl, rfl⟩⟩

theorem select (fuel : Nat) (table : CountTable) (hn : (table.map Prod.fst).Nodup) (requested : Nat) (rng : R) :
    Tells (selectSaid fuel table requested rng) (Act.lift (selectAlgorithms fuel table requested rng) : Act S _)
    fun s r s' ls => s' = s ∧ selectAlgorithms fuel table requested rng = .ok r ∧
      ls = [.nodesFor (usableTypes table), .atMost (table.map Prod.snd).sum] ++
        if (table.map Prod.snd).sum < requested then [.lowering (requested - (table.map Prod.snd).sum) (table.map Prod.snd).sum] else [] := by
  have hsel := select_spec hn fuel requested rng
  have hinv := selLoop_inv (R := R) (available := ((usableTypes table).map (tableCount table)).sum)
    (usableTypes_nodup hn) fuel _ (selInv_init table requested rng)
  intro s t
  unfold selectSaid selectAlgorithms at *
  simp only [sum_avail] at *
  rw [available_eq hn] at *
  rcases hinv with ⟨s', h1, h2, h3⟩ | h
  · rw [h1] at hsel ⊢
    refine ⟨[.nodesFor (usableTypes table), .atMost (table.map Prod.snd).sum] ++
      if (table.map Prod.snd).sum < requested then [.lowering (requested - (table.map Prod.snd).sum) (table.map Prod.snd).sum] else [],
      ?_, fun a s1 h => ?_⟩
    · rcases hsel with ⟨todo, r, e, -, -, hl⟩ | e
      · cases e
        have hr := h2.rem
        by_cases hlt : (table.map Prod.snd).sum < requested
        · have h4 : s'.remaining > 0 := by omega
          have h5 : requested - (table.map Prod.snd).sum = s'.remaining := by omega
          have h6 : (table.map Prod.snd).sum = s'.todo.length := by omega
          rw [if_pos hlt, h5, h6]
          simp [Bind.bind, Act.bind, Act.lift, Mutagenyx.say, h4, Pure.pure]
        · have h4 : s'.remaining = 0 := by omega
          rw [if_neg hlt]
          simp [Bind.bind, Act.bind, Act.lift, Mutagenyx.say, h4, Pure.pure]
      · cases e
    · cases h
      exact ⟨rfl, rfl, rfl⟩
  · rw [h]
    exact ⟨[.nodesFor (usableTypes table), .atMost (table.map Prod.snd).sum], by simp [Bind.bind, Act.bind, Act.lift, Mutagenyx.say], fun a s' h => by cases h⟩

/-- The mutant with this text comes from the request for a candidate of the algorithm. -/
def MadeBy (m : Machine S R) (j : Job R) (t : MutationType) (mutant : Json) (text : String) : Prop :=
  ∃ (n index : Nat) (rng rng' : R) (res : MutatorResult), j.table.get? t = some n ∧ (0 < n → index < n) ∧
    mutateAst (j.language.delegate m.env) j.mutators (functionPermissions j.params.functions) j.paths j.ast t index rng =
      .ok (mutant, res, rng') ∧ m.print j.language mutant = .ok text

/-- The line about a mutant with this text. -/
def SaidMutant (W : String → String → S → Prop) (j : Job R) (t : MutationType) (n : Nat) (text : String)
    (s' : S) (ls : List Line) : Prop :=
  (j.params.useStdout = true → ls = [.text text]) ∧
  (j.params.useStdout = false → ∃ f, mutantTarget j.language.ext j.params.fileName j.params.outputDirectory n = some f ∧
    ls = [.mutant t f] ∧ W f text s')

variable {W : String → String → S → Prop} {content : String → S → Option String}

omit [Rand R] in
theorem putOut_writes (hw : ∀ f t s, (m.write f t s).1 = true → W f t (m.write f t s).2) (lang : Language) (f : String) (item : Item)
    (s s' : S) (h : m.putOut lang (some f) item s = (.ok (), s')) : ∃ text, m.text lang item = .ok text ∧ W f text s' := by
  unfold Machine.putOut at h
  cases ht : m.text lang item with
  | ok text =>
    rw [ht] at h
    refine ⟨text, rfl, ?_⟩
    have he : (Act.lift (.ok text) >>= fun text => m.deliver (some f) text) s = m.deliver (some f) text s := rfl
    rw [he] at h
    unfold Machine.deliver at h
    simp only at h
    rcases hwr : m.write f text s with ⟨b, s1⟩
    have hcr : m.toSys.create f text s = (.ok b, s1) := by unfold Sys.create; rw [hwr]
    rw [Act.bind_of_ok hcr] at h
    have := hw f text s
    rw [hwr] at this
    cases b with
    | true => cases h; exact this rfl
    | false => cases h
  | err e => rw [ht] at h; cases h
  | panic => rw [ht] at h; cases h
  | outOfFuel => rw [ht] at h; cases h

omit [Rand R] in
theorem keep (hw : ∀ f t s, (m.write f t s).1 = true → W f t (m.write f t s).2) (j : Job R) (g : Progress R)
    (t : MutationType) (rest : List MutationType) (ast : Json) (res : MutatorResult) (r : R) :
    Tells (m.keepSaid j g t rest ast res r) (m.keep j g rest ast res r) fun _ o s' ls =>
      o = some { todo := rest, written := g.written + 1, attempts := 0, observed := g.observed ++ [res], rng := r } ∧
      ∃ text, m.print j.language ast = .ok text ∧ SaidMutant W j t g.written text s' ls := by
  unfold Machine.keepSaid Machine.keep Machine.writeMutant SaidMutant
  cases hs : j.params.useStdout with
  | true =>
    refine Tells.bind (putOut m j.language _) (fun _ => silent _) ?_
    rintro s a s1 l1 b s2 l2 ⟨text, h1, rfl⟩ ⟨rfl, rfl, rfl⟩
    exact ⟨rfl, text, h1, fun _ => rfl, by simp⟩
  | false =>
    cases hf : mutantTarget j.language.ext j.params.fileName j.params.outputDirectory g.written with
    | none => exact fun s t => ⟨[], by rw [List.append_nil]; rfl, fun a s' h => by cases h⟩
    | some f =>
      show Tells (Act.bind (m.told.putOut j.language (some f) (.mutant ast res)) fun _ =>
          Act.bind (Mutagenyx.say (.mutant t f)) fun _ => Pure.pure (some _))
        (Act.bind (m.putOut j.language (some f) (.mutant ast res)) fun _ => Act.bind (Pure.pure ()) fun _ => Pure.pure (some _)) _
      refine Tells.bind (of_mute (Mute.putFile m _ _)) (fun _ => Tells.bind (Q := fun s o s' ls =>
        s' = s ∧ ls = [.mutant t f] ∧
        o = some { todo := rest, written := g.written + 1, attempts := 0, observed := g.observed ++ [res], rng := r })
        (say (.mutant t f)) (fun _ => silent _) ?_) ?_
      · rintro s a s1 l1 b s2 l2 ⟨rfl, rfl⟩ ⟨rfl, rfl, rfl⟩
        exact ⟨rfl, rfl, rfl⟩
      · rintro s a s1 l1 b s2 l2 ⟨rfl, h1⟩ ⟨rfl, rfl, rfl⟩
        obtain ⟨text, h2, h3⟩ := putOut_writes m hw j.language f (.mutant ast res) s s2 h1
        exact ⟨rfl, text, h2, by simp, fun _ => ⟨f, rfl, rfl, h3⟩⟩

/-- What one iteration does and says. -/
def TurnSaid (m : Machine S R) (W : String → String → S → Prop) (j : Job R) (g : Progress R) (o : Option (Progress R))
    (s' : S) (ls : List Line) : Prop :=
  (o = none ∧ ls = []) ∨
  (∃ g', o = some g' ∧ ls = [] ∧ g'.written = g.written ∧ g'.todo.Sublist g.todo) ∨
  (∃ g' t mutant text, o = some g' ∧ g.todo = t :: g'.todo ∧ g'.written = g.written + 1 ∧ MadeBy m j t mutant text ∧
    SaidMutant W j t g.written text s' ls)

omit [Rand R] in
theorem judge [Rand R] (hw : ∀ f t s, (m.write f t s).1 = true → W f t (m.write f t s).2) (j : Job R) (g : Progress R)
    (t : MutationType) (rest : List MutationType) (ht : g.todo = t :: rest) (ast : Json) (res : MutatorResult) (r : R)
    (hmade : ∀ text, m.print j.language ast = .ok text → MadeBy m j t ast text) :
    Tells (m.judgeSaid j g t rest ast res r) (m.judge j g rest ast res r) fun _ o s' ls => TurnSaid m W j g o s' ls := by
  have hk : Tells (m.keepSaid j g t rest ast res r) (m.keep j g rest ast res r) fun _ o s' ls => TurnSaid m W j g o s' ls := by
    refine (keep m hw j g t rest ast res r).mono ?_
    rintro s o s' ls - ⟨rfl, text, h1, h2⟩
    exact .inr (.inr ⟨_, t, ast, text, rfl, ht, rfl, hmade text h1, h2⟩)
  unfold Machine.judgeSaid Machine.judge
  split
  · refine Tells.bind (Q2 := fun _ _ o s' ls => TurnSaid m W j g o s' ls) (of_mute (Mute.tryMutant m ast)) (fun good => ?_) ?_
    · cases good with
      | true => exact hk
      | false =>
        refine (silent _).mono ?_
        rintro s o s' ls - ⟨rfl, -, rfl⟩
        exact .inr (.inl ⟨_, rfl, rfl, rfl, List.Sublist.refl _⟩)
    · rintro s a s1 l1 b s2 l2 ⟨rfl, -⟩ h
      exact h
  · exact hk

theorem turn (hw : ∀ f t s, (m.write f t s).1 = true → W f t (m.write f t s).2) (j : Job R) (g : Progress R) :
    Tells (m.turnSaid j g) (m.turn j g) fun _ o s' ls => TurnSaid m W j g o s' ls := by
  unfold Machine.turnSaid Machine.turn
  rcases ht : g.todo with _ | ⟨t, rest⟩
  · refine (silent _).mono ?_
    rintro s o s' ls - ⟨rfl, -, rfl⟩
    exact .inl ⟨rfl, rfl⟩
  · simp only
    split
    · cases hn : j.table.get? t with
      | none => exact fun s t => ⟨[], by rw [List.append_nil]; rfl, fun a s' h => by cases h⟩
      | some n =>
        cases hm : mutateAst (j.language.delegate m.env) j.mutators (functionPermissions j.params.functions) j.paths j.ast t
            (pickIndex n g.rng).1 (pickIndex n g.rng).2 with
        | err e =>
          intro s t'
          refine ⟨[], ?_, fun a s' h => ?_⟩
          · simp [Act.unwrap, Bind.bind, Act.bind, hm, Act.lift]
          · simp [Act.unwrap, Bind.bind, Act.bind, hm, Act.lift] at h
        | panic =>
          intro s t'
          refine ⟨[], ?_, fun a s' h => ?_⟩
          · simp [Act.unwrap, Bind.bind, Act.bind, hm, Act.lift]
          · simp [Act.unwrap, Bind.bind, Act.bind, hm, Act.lift] at h
        | outOfFuel =>
          intro s t'
          refine ⟨[], ?_, fun a s' h => ?_⟩
          · simp [Act.unwrap, Bind.bind, Act.bind, hm, Act.lift]
          · simp [Act.unwrap, Bind.bind, Act.bind, hm, Act.lift] at h
        | ok r =>
          obtain ⟨ast, res, rng'⟩ := r
          have hboth : Tells (if g.observed.contains res = true then Pure.pure (some { g with rng := rng', attempts := g.attempts + 1 })
                else m.judgeSaid j g t rest ast res rng' : Act (S × List Line) (Option (Progress R)))
              (if g.observed.contains res = true then Pure.pure (some { g with rng := rng', attempts := g.attempts + 1 })
                else m.judge j g rest ast res rng') fun _ o s' ls => TurnSaid m W j g o s' ls := by
            split
            · refine (silent _).mono ?_
              rintro s o s' ls - ⟨rfl, -, rfl⟩
              exact .inr (.inl ⟨_, rfl, rfl, rfl, List.Sublist.refl _⟩)
            · exact judge m hw j g t rest ht ast res rng' fun text h =>
                ⟨n, _, _, _, res, hn, fun h0 => pickIndex_lt h0 _, hm, h⟩
          intro s t'
          have := hboth s t'
          simpa [Act.unwrap, Bind.bind, Act.bind, hm, Act.lift, ht] using this
    · refine (silent _).mono ?_
      rintro s o s' ls - ⟨rfl, -, rfl⟩
      exact .inr (.inl ⟨_, rfl, rfl, rfl, by rw [ht]; exact List.sublist_cons_self _ _⟩)

/-- The lines about mutants, to standard output or to files. -/
def SaidMutants (content : String → S → Option String) (j : Job R) (file : Nat → String) (start : Nat)
    (made : List (MutationType × Json × String)) (s' : S) (ls : List Line) : Prop :=
  (j.params.useStdout = true → ls = made.map fun e => .text e.2.2) ∧
  (j.params.useStdout = false → ls = (made.zipIdx start).map (fun e => .mutant e.1.1 (file e.2)) ∧
    ∀ (k : Nat) e, made[k]? = some e → content (file (start + k)) s' = some e.2.2)

theorem turns (hc : Contents m.toSys content) (hw : ∀ f t s, (m.write f t s).1 = true → content f (m.write f t s).2 = some t)
    (j : Job R) (file : Nat → String)
    (hfile : j.params.useStdout = false → ∀ n, mutantTarget j.language.ext j.params.fileName j.params.outputDirectory n = some (file n))
    (hinj : j.params.useStdout = false → ∀ a b, file a = file b → a = b)
    (htmp : j.params.useStdout = false → ∀ n, ¬ InTemp m.toSys (file n))
    (hout : j.params.useStdout = false → ∀ n t s, content (file n) (m.stdout t s) = content (file n) s) :
    ∀ (n : Nat) (g : Progress R), Tells (m.turnsSaid j n g) (m.turns j n g) fun s _ s' ls =>
      (j.params.useStdout = false → ∀ k < g.written, content (file k) s' = content (file k) s) ∧
      ∃ made : List (MutationType × Json × String), (made.map (·.1)).Sublist g.todo ∧
        (∀ e ∈ made, MadeBy m j e.1 e.2.1 e.2.2) ∧ SaidMutants content j file g.written made s' ls
  | 0, g => (lifted _).mono fun s a s' ls hy _ => by cases hy
  | n + 1, g => by
    refine Tells.bind (Q1 := fun s o s1 l1 => TurnSaid m (fun f t s => content f s = some t) j g o s1 l1 ∧
        (j.params.useStdout = false → ∀ k < g.written, content (file k) s1 = content (file k) s))
      (Q2 := fun o s _ s' ls => (∀ g', o = some g' →
        (j.params.useStdout = false → ∀ k < g'.written, content (file k) s' = content (file k) s) ∧
        ∃ made : List (MutationType × Json × String), (made.map (·.1)).Sublist g'.todo ∧
        (∀ e ∈ made, MadeBy m j e.1 e.2.1 e.2.2) ∧ SaidMutants content j file g'.written made s' ls) ∧ (o = none → ls = [] ∧ s' = s))
      ((turn m (W := fun f t s => content f s = some t) hw j g).mono fun s o s' ls hy h => ⟨h, fun hs k hk => ?_⟩) (fun o => ?_) ?_
    · have := ToolProps.keeps_turn m hc (htmp hs k) (hout hs k) j g (fun _ e => by
        rw [hfile hs] at e
        exact absurd (hinj hs _ _ (Option.some.inj e)) (by omega)) s
      rw [hy] at this
      exact this
    · cases o with
      | none =>
        refine (silent ()).mono ?_
        rintro s a s' ls - ⟨-, rfl, rfl⟩
        exact ⟨by simp, fun _ => ⟨rfl, rfl⟩⟩
      | some g' =>
        refine (turns hc hw j file hfile hinj htmp hout n g').mono fun s a s' ls _ h => ⟨?_, by simp⟩
        rintro _ ⟨⟩
        exact h
    · rintro s o s1 l1 b s2 l2 ⟨h1, hk1⟩ ⟨h2, h3⟩
      rcases h1 with ⟨rfl, rfl⟩ | ⟨g', rfl, rfl, hwr, hsub⟩ | ⟨g', t, mutant, text, rfl, htodo, hwr, hmade, hsaid⟩
      · obtain ⟨rfl, rfl⟩ := h3 rfl
        exact ⟨hk1, [], by simp, by simp, fun _ => rfl, fun _ => ⟨rfl, by simp⟩⟩
      · obtain ⟨hk2, made, a1, a2, a3⟩ := h2 g' rfl
        rw [hwr] at hk2 a3
        exact ⟨fun hs k hk => (hk2 hs k hk).trans (hk1 hs k hk), made, a1.trans hsub, a2, a3⟩
      · obtain ⟨hk2, made, a1, a2, a3⟩ := h2 g' rfl
        rw [hwr] at hk2 a3
        refine ⟨fun hs k hk => (hk2 hs k (by omega)).trans (hk1 hs k hk), (t, mutant, text) :: made, ?_, ?_, ?_, ?_⟩
        · rw [htodo]; exact a1.cons_cons t
        · intro e he
          rcases List.mem_cons.1 he with rfl | he
          · exact hmade
          · exact a2 e he
        · intro hs
          rw [hsaid.1 hs, a3.1 hs]; rfl
        · intro hs
          obtain ⟨f, hf, hl, hcont⟩ := hsaid.2 hs
          rw [hfile hs] at hf
          cases hf
          obtain ⟨b1, b2⟩ := a3.2 hs
          refine ⟨by rw [hl, b1]; rfl, fun k e he => ?_⟩
          cases k with
          | zero =>
            cases he
            rw [Nat.add_zero, hk2 hs _ (by omega)]
            exact hcont
          | succ k =>
            have := b2 k e he
            rwa [show g.written + (k + 1) = g.written + 1 + k by omega]

end Tells

variable [Rand R]

/-- `Machine.generateSaid` after the input is read. -/
def Machine.generateFromSaid (m : Machine S R) (fuel : Nat) (p : Params R) (language : Language) (ast : Json) : Act (S × List Line) Unit :=
  let lang : Lang R := language.delegate m.env
  let ps := functionPermissions p.functions
  let ms := m.shuffle (selectMutators lang p.mutations)
  let table := countMutableNodes lang.ctx ps ms ast
  let paths := calculateNodePaths lang.ctx ps ast
  if table.isEmpty then Act.lift (.err .noMutableNode)
  else do
    m.originalSaid language p ast
    m.configSaid language p
    let (todo, rng) ← selectSaid fuel table p.numberOfMutants p.rng
    m.turnsSaid ⟨language, p, ms, table, paths, ast⟩ (51 * todo.length + 1) { todo := todo, rng := rng }

theorem generateSaid_eq (m : Machine S R) (fuel : Nat) (p : Params R) (s : S × List Line) :
    m.generateSaid fuel p s = (m.told.reading p >>= fun r => m.generateFromSaid fuel p r.1 r.2) s := by
  show Act.bind _ _ s = Act.bind (Act.bind _ _) _ s
  simp only [Act.bind]
  rcases recognizeFile m.told.toSys p.fileName p.preferences s with ⟨o, s1⟩
  cases o with
  | ok r =>
    simp only [bind, Act.bind]
    rcases loadAst m.told.toSys r.1 r.2 p.fileName p.preferences s1 with ⟨o2, s2⟩
    cases o2 <;> rfl
  | err e => rfl
  | panic => rfl
  | outOfFuel => rfl

namespace Tells

/-- The mutators of a run. -/
def mutatorsOf (m : Machine S R) (p : Params R) (lang : Language) : List (Mutator R) :=
  m.shuffle (selectMutators (lang.delegate m.env) p.mutations)

/-- Their numbers of candidates. -/
def tableOf (m : Machine S R) (p : Params R) (lang : Language) (ast : Json) : CountTable :=
  countMutableNodes lang.ctx (functionPermissions p.functions) (mutatorsOf m p lang) ast

/-- The lines about the selection. -/
def selectionLines (table : CountTable) (requested : Nat) : List Line :=
  [.nodesFor (usableTypes table), .atMost (table.map Prod.snd).sum] ++
    if (table.map Prod.snd).sum < requested then [.lowering (requested - (table.map Prod.snd).sum) (table.map Prod.snd).sum] else []

variable (m : Machine S R)

/-- What the mutation loops use. -/
def jobOf (m : Machine S R) (p : Params R) (lang : Language) (ast : Json) : Job R :=
  ⟨lang, p, mutatorsOf m p lang, tableOf m p lang ast, calculateNodePaths lang.ctx (functionPermissions p.functions) ast, ast⟩

theorem generateFrom (fuel : Nat) (p : Params R) (lang : Language) (ast : Json) {QT : List MutationType → S → S → List Line → Prop}
    (hturns : ∀ (todo : List MutationType) (rng : R) (n : Nat), Tells (m.turnsSaid (jobOf m p lang ast) n { todo := todo, rng := rng })
      (m.turns (jobOf m p lang ast) n { todo := todo, rng := rng }) fun s _ s' ls => QT todo s s' ls) :
    Tells (m.generateFromSaid fuel p lang ast) (m.generateFrom fuel p lang ast) fun s _ s' ls =>
      ∃ (s1 s2 : S) (l1 l2 l4 : List Line) (todo : List MutationType) (rng : R),
        SaidOriginal m lang p ast s s1 l1 ∧ SaidConfig m lang p s1 s2 l2 ∧
        selectAlgorithms fuel (tableOf m p lang ast) p.numberOfMutants p.rng = .ok (todo, rng) ∧
        m.turns (jobOf m p lang ast) (51 * todo.length + 1) { todo := todo, rng := rng } s2 = (.ok (), s') ∧
        QT todo s2 s' l4 ∧
        ls = l1 ++ (l2 ++ (selectionLines (tableOf m p lang ast) p.numberOfMutants ++ l4)) := by
  unfold Machine.generateFromSaid Machine.generateFrom
  simp only
  split
  · exact (lifted _).mono fun s a s' ls hy _ => by cases hy
  · refine Tells.bind (original m lang p ast) (fun _ => Tells.bind (config m lang p) (fun _ =>
      Tells.bind (select fuel (tableOf m p lang ast) (countTable_keys_nodup _ _ _ _) p.numberOfMutants p.rng)
        (fun r => (hturns r.1 r.2 (51 * r.1.length + 1)).mono fun s a s' ls hy h => (⟨hy, h⟩ :
          m.turns (jobOf m p lang ast) (51 * r.1.length + 1) { todo := r.1, rng := r.2 } s = (.ok a, s') ∧ _))
        (Q := fun s _ s' ls => ∃ (l4 : List Line) (todo : List MutationType) (rng : R),
          selectAlgorithms fuel (tableOf m p lang ast) p.numberOfMutants p.rng = .ok (todo, rng) ∧
          m.turns (jobOf m p lang ast) (51 * todo.length + 1) { todo := todo, rng := rng } s = (.ok (), s') ∧
          QT todo s s' l4 ∧ ls = selectionLines (tableOf m p lang ast) p.numberOfMutants ++ l4) ?_)
      (Q := fun s _ s' ls => ∃ (s2 : S) (l2 l4 : List Line) (todo : List MutationType) (rng : R), SaidConfig m lang p s s2 l2 ∧
          selectAlgorithms fuel (tableOf m p lang ast) p.numberOfMutants p.rng = .ok (todo, rng) ∧
          m.turns (jobOf m p lang ast) (51 * todo.length + 1) { todo := todo, rng := rng } s2 = (.ok (), s') ∧
          QT todo s2 s' l4 ∧ ls = l2 ++ (selectionLines (tableOf m p lang ast) p.numberOfMutants ++ l4)) ?_) ?_
    · rintro s ⟨todo, rng⟩ s1 l1 b s2 l2 ⟨rfl, h1, rfl⟩ ⟨hy, h2⟩
      exact ⟨l2, todo, rng, h1, hy, h2, rfl⟩
    · rintro s a s1 l1 b s2 l2 h1 ⟨l4, todo, rng, h2, h3, h4, rfl⟩
      exact ⟨s1, l1, l4, todo, rng, h1, h2, h3, h4, rfl⟩
    · rintro s a s1 l1 b s2 l2 h1 ⟨s2', l2', l4, todo, rng, h2, h3, h4, h5, rfl⟩
      exact ⟨s1, s2', l1, l2', l4, todo, rng, h1, h2, h3, h4, h5, rfl⟩

/-- With standard output the mutation loops put out the texts of mutants. -/
theorem turns_out (j : Job R) (hs : j.params.useStdout = true) : ∀ (n : Nat) (g : Progress R),
    Tells (m.turnsSaid j n g) (m.turns j n g) fun _ _ _ ls =>
      ∃ made : List (MutationType × Json × String), (made.map (·.1)).Sublist g.todo ∧
        (∀ e ∈ made, MadeBy m j e.1 e.2.1 e.2.2) ∧ ls = made.map fun e => .text e.2.2
  | 0, g => (lifted _).mono fun s a s' ls hy _ => by cases hy
  | n + 1, g => by
    refine Tells.bind (Q1 := fun s o s1 l1 => TurnSaid m (fun _ _ _ => True) j g o s1 l1)
      (Q2 := fun o s _ s' ls => (∀ g', o = some g' →
        ∃ made : List (MutationType × Json × String), (made.map (·.1)).Sublist g'.todo ∧
        (∀ e ∈ made, MadeBy m j e.1 e.2.1 e.2.2) ∧ ls = made.map fun e => .text e.2.2) ∧ (o = none → ls = []))
      (turn m (fun _ _ _ _ => trivial) j g) (fun o => ?_) ?_
    · cases o with
      | none =>
        refine (silent ()).mono ?_
        rintro s a s' ls - ⟨-, rfl, rfl⟩
        exact ⟨by simp, fun _ => rfl⟩
      | some g' =>
        refine (turns_out j hs n g').mono fun s a s' ls _ h => ⟨?_, by simp⟩
        rintro _ ⟨⟩
        exact h
    · rintro s o s1 l1 b s2 l2 h1 ⟨h2, h3⟩
      rcases h1 with ⟨rfl, rfl⟩ | ⟨g', rfl, rfl, -, hsub⟩ | ⟨g', t, mutant, text, rfl, htodo, -, hmade, hsaid⟩
      · rw [h3 rfl]
        exact ⟨[], by simp, by simp, rfl⟩
      · obtain ⟨made, a1, a2, a3⟩ := h2 g' rfl
        exact ⟨made, a1.trans hsub, a2, a3⟩
      · obtain ⟨made, a1, a2, a3⟩ := h2 g' rfl
        refine ⟨(t, mutant, text) :: made, ?_, ?_, ?_⟩
        · rw [htodo]; exact a1.cons_cons t
        · intro e he
          rcases List.mem_cons.1 he with rfl | he
          · exact hmade
          · exact a2 e he
        · rw [hsaid.1 hs, a3]; rfl

/-! What is said changes nothing. -/

theorem turns_same (j : Job R) : ∀ (n : Nat) (g : Progress R),
    Tells (m.turnsSaid j n g) (m.turns j n g) fun _ _ _ ls => (∀ l ∈ ls, (∃ t, l = .text t) ∨ ∃ t f, l = .mutant t f)
  | 0, g => (lifted _).mono fun s a s' ls hy _ => by cases hy
  | n + 1, g => by
    refine Tells.bind (Q2 := fun _ _ _ _ ls => ∀ l ∈ ls, (∃ t, l = .text t) ∨ ∃ t f, l = .mutant t f)
      (turn m (W := fun _ _ _ => True) (fun _ _ _ _ => trivial) j g) (fun o => ?_) ?_
    · cases o with
      | none => exact (silent ()).mono fun s a s' ls _ h l hl => by rw [h.2.2] at hl; cases hl
      | some g' => exact turns_same j n g'
    · rintro s o s1 l1 b s2 l2 h1 h2 l hl
      rcases List.mem_append.1 hl with hl | hl
      · rcases h1 with ⟨-, rfl⟩ | ⟨-, -, rfl, -⟩ | ⟨-, t, -, text, -, -, -, -, h4, h5⟩
        · cases hl
        · cases hl
        · cases hs : j.params.useStdout with
          | true => rw [h4 hs, List.mem_singleton] at hl; exact .inl ⟨_, hl⟩
          | false => obtain ⟨f, -, h6, -⟩ := h5 hs; rw [h6, List.mem_singleton] at hl; exact .inr ⟨_, _, hl⟩
      · exact h2 l hl

/-- Not a report of failure nor of the time. -/
def Plain (ls : List Line) : Prop := ∀ l ∈ ls, l ≠ .elapsed ∧ ∀ e, l ≠ .failed e

omit [Rand R] in
theorem Plain.append {a b : List Line} (h1 : Plain a) (h2 : Plain b) : Plain (a ++ b) := fun l hl =>
  (List.mem_append.1 hl).elim (h1 l) (h2 l)

theorem generate_same (fuel : Nat) (p : Params R) : Tells (m.generateSaid fuel p) (m.generate fuel p) fun _ _ _ ls => Plain ls := by
  have h : Tells (m.told.reading p >>= fun r => m.generateFromSaid fuel p r.1 r.2)
      (m.reading p >>= fun r => m.generateFrom fuel p r.1 r.2) fun _ _ _ ls => Plain ls := by
    refine Tells.bind (Q2 := fun _ _ _ _ ls => Plain ls) (of_mute (Mute.reading m p)) (fun r => ?_) ?_
    · unfold Machine.generateFromSaid Machine.generateFrom
      simp only
      split
      · exact (lifted _).mono fun s a s' ls hy _ => by cases hy
      · refine Tells.bind (original m r.1 p r.2) (fun _ => Tells.bind (config m r.1 p) (fun _ =>
          Tells.bind (select fuel (tableOf m p r.1 r.2) (countTable_keys_nodup _ _ _ _) p.numberOfMutants p.rng)
            (fun r' => (turns_same m _ _ _).mono (Q' := fun _ _ _ ls => Plain ls) ?_) (Q := fun _ _ _ ls => Plain ls) ?_)
            (Q := fun _ _ _ ls => Plain ls) ?_) ?_
        · intro s a s' ls _ h l hl
          rcases h l hl with ⟨t, rfl⟩ | ⟨t, f, rfl⟩ <;> simp
        · rintro s a s1 l1 b s2 l2 ⟨-, -, rfl⟩ h2
          refine Plain.append (fun l hl => ?_) h2
          rcases List.mem_append.1 hl with hl | hl
          · simp only [List.mem_cons, List.not_mem_nil, or_false] at hl
            rcases hl with rfl | rfl <;> simp
          · split at hl
            · rw [List.mem_singleton] at hl; subst hl; simp
            · cases hl
        · rintro s a s1 l1 b s2 l2 ⟨h1, h2, h3⟩ h4
          refine Plain.append (fun l hl => ?_) h4
          cases hp : p.saveConfig with
          | false => rw [(h1 hp).1] at hl; cases hl
          | true =>
            cases hs : p.useStdout with
            | true => rw [h2 hp hs, List.mem_singleton] at hl; subst hl; simp
            | false => obtain ⟨f, -, h5, -⟩ := h3 hp hs; rw [h5, List.mem_singleton] at hl; subst hl; simp
        · rintro s a s1 l1 b s2 l2 ⟨h1, h2, h3⟩ h4
          refine Plain.append (fun l hl => ?_) h4
          cases hp : p.printOriginal with
          | false => rw [(h1 hp).1] at hl; cases hl
          | true =>
            cases hs : p.useStdout with
            | true => obtain ⟨t, -, h5⟩ := h2 hp hs; rw [h5, List.mem_singleton] at hl; subst hl; simp
            | false => obtain ⟨name, f, -, h5, -⟩ := h3 hp hs; rw [h5, List.mem_singleton] at hl; subst hl; simp
    · rintro s a s1 l1 b s2 l2 ⟨rfl, -⟩ h2
      exact h2
  intro s t
  have := h s t
  rw [← generate_eq, ← generateSaid_eq] at this
  exact this

theorem generateAll_same (fuel : Nat) : ∀ ps : List (Params R),
    Tells (m.generateAllSaid fuel ps) (m.generateAll fuel ps) fun _ _ _ ls => Plain ls
  | [] => (silent ()).mono fun s a s' ls _ h l hl => by rw [h.2.2] at hl; cases hl
  | p :: ps => Tells.bind (generate_same m fuel p) (fun _ => generateAll_same fuel ps) fun _ _ _ _ _ _ _ h1 h2 => h1.append h2

theorem mutate_same (st : Start R) (order : List MutationType) (fuel : Nat) (a : Args) :
    Tells (m.mutateSaid st order fuel a) (m.mutate st order fuel a) fun _ _ _ ls => Plain ls :=
  Tells.bind (of_mute (Mute.collect m st order a a.files _)) (fun ps => generateAll_same m fuel ps) fun _ _ _ _ _ _ _ h1 h2 => by
    rw [h1.1]; exact h2

end Tells

/-! ### `pretty-print` -/

namespace Mute
omit [Rand R]
variable (m : Machine S R)

theorem readInput (p : Prefs) (file : String) : Mute (readInput m.told.toSys p file) (readInput m.toSys p file) :=
  Mute.bind (Mute.recognizeFile m) fun r => Mute.bind (Mute.loadAst m r.2) fun _ => Mute.pure _

theorem prettyPrintFile (p : Prefs) (dir file : String) :
    Mute (prettyPrintFile m.told.toSys m.print p dir file) (prettyPrintFile m.toSys m.print p dir file) :=
  Mute.bind (Mute.readInput m p file) fun _ => Mute.bind (Mute.unwrap _) fun _ => Mute.bind (Mute.lift _) fun _ =>
    Mute.bind (Mute.create m _ _) fun _ => Mute.ite (Mute.pure _) (Mute.lift _)

theorem prettyPrintToStream (p : Prefs) (file : String) :
    Mute (prettyPrintToStream m.told.toSys m.print p file) (prettyPrintToStream m.toSys m.print p file) :=
  Mute.bind (Mute.readInput m p file) fun _ => Mute.bind (Mute.lift _) fun _ => Mute.pure _

end Mute

namespace ConsolePrint
omit [Rand R]
variable (m : Machine S R)

theorem stream_shows (p : Prefs) (file : String) (s s' : S) (sh : Shown)
    (h : prettyPrintToStream m.toSys m.print p file s = (.ok sh, s')) : ∃ text, sh = .text file text := by
  unfold prettyPrintToStream at h
  rcases hr : readInput m.toSys p file s with ⟨o, s1⟩
  cases o with
  | ok r =>
    rw [Act.bind_of_ok hr] at h
    simp only at h
    cases ht : m.print r.1 r.2 with
    | ok text => rw [ht] at h; cases h; exact ⟨text, rfl⟩
    | err e => rw [ht] at h; cases h
    | panic => rw [ht] at h; cases h
    | outOfFuel => rw [ht] at h; cases h
  | err e => simp [Bind.bind, Act.bind, hr] at h
  | panic => simp [Bind.bind, Act.bind, hr] at h
  | outOfFuel => simp [Bind.bind, Act.bind, hr] at h

theorem file_shows (p : Prefs) (dir file : String) (s s' : S) (sh : Shown)
    (h : prettyPrintFile m.toSys m.print p dir file s = (.ok sh, s')) : ∃ target text, sh = .written file target text := by
  unfold prettyPrintFile at h
  rcases hr : readInput m.toSys p file s with ⟨o, s1⟩
  cases o with
  | ok r =>
    rw [Act.bind_of_ok hr] at h
    simp only at h
    cases ht : printTarget r.1.ext file dir with
    | none => rw [ht] at h; cases h
    | some target =>
      rw [ht] at h
      cases hp : m.print r.1 r.2 with
      | ok text =>
        rw [hp] at h
        simp only [Act.unwrap, Act.lift, Bind.bind, Act.bind, Sys.create] at h
        split at h
        · cases h; exact ⟨target, text, rfl⟩
        · cases h
      | err e => rw [hp] at h; cases h
      | panic => rw [hp] at h; cases h
      | outOfFuel => rw [hp] at h; cases h
  | err e => simp [Bind.bind, Act.bind, hr] at h
  | panic => simp [Bind.bind, Act.bind, hr] at h
  | outOfFuel => simp [Bind.bind, Act.bind, hr] at h

end ConsolePrint

end Mutagenyx
