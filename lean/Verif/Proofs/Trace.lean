import Verif.Proofs.Tool
import Verif.Spec.Trace
import Verif.Props.InputsKept
import Verif.Props.Validation

/-! What the parts of a run do to the machine. -/

namespace Mutagenyx

variable {S R : Type}

/-- The action adds to the record something that fits its outcome. -/
def Emits {α : Type} (x : Act (S × List Effect) α) (P : Outcome α → List Effect → Prop) : Prop :=
  ∀ s t, ∃ new, (x (s, t)).2.2 = t ++ new ∧ P (x (s, t)).1 new

/-- The outcome of the whole if the first part fails. -/
def Outcome.failsAs {α β : Type} : Outcome α → Outcome β → Prop
  | .err e, o => o = .err e
  | .panic, o => o = .panic
  | .outOfFuel, o => o = .outOfFuel
  | .ok _, _ => False

namespace Emits
variable {α β : Type}

theorem mono {x : Act (S × List Effect) α} {P Q : Outcome α → List Effect → Prop} (h : Emits x P)
    (hpq : ∀ o new, P o new → Q o new) : Emits x Q := by
  intro s t
  obtain ⟨new, h1, h2⟩ := h s t
  exact ⟨new, h1, hpq _ _ h2⟩

theorem bindOk {x : Act (S × List Effect) α} {f : α → Act (S × List Effect) β} {P : Outcome α → List Effect → Prop}
    {Q : α → Outcome β → List Effect → Prop} {T : Outcome β → List Effect → Prop} (h1 : Emits x P)
    (h2 : ∀ a n1, P (.ok a) n1 → Emits (f a) (Q a))
    (hok : ∀ a n1 o n2, P (.ok a) n1 → Q a o n2 → T o (n1 ++ n2))
    (hfail : ∀ o o' n1, P o n1 → Outcome.failsAs o o' → T o' n1) : Emits (Act.bind x f) T := by
  intro s t
  obtain ⟨n1, h3, h4⟩ := h1 s t
  rcases hx : x (s, t) with ⟨o, s1, t1⟩
  rw [hx] at h3 h4
  simp only at h3 h4
  simp only [Act.bind, hx]
  cases o with
  | ok a =>
    obtain ⟨n2, h5, h6⟩ := h2 a n1 h4 s1 t1
    refine ⟨n1 ++ n2, ?_, hok _ _ _ _ h4 h6⟩
    simp only
    rw [h5, h3, List.append_assoc]
  | err e => exact ⟨n1, h3, hfail _ _ _ h4 rfl⟩
  | panic => exact ⟨n1, h3, hfail _ _ _ h4 rfl⟩
  | outOfFuel => exact ⟨n1, h3, hfail _ _ _ h4 rfl⟩

theorem bind {x : Act (S × List Effect) α} {f : α → Act (S × List Effect) β} {P : Outcome α → List Effect → Prop}
    {Q : α → Outcome β → List Effect → Prop} {T : Outcome β → List Effect → Prop} (h1 : Emits x P) (h2 : ∀ a, Emits (f a) (Q a))
    (hok : ∀ a n1 o n2, P (.ok a) n1 → Q a o n2 → T o (n1 ++ n2))
    (hfail : ∀ o o' n1, P o n1 → Outcome.failsAs o o' → T o' n1) : Emits (Act.bind x f) T :=
  bindOk h1 (fun a _ _ => h2 a) hok hfail

theorem lift (o : Outcome α) : Emits (Act.lift o : Act (S × List Effect) α) (fun o' new => o' = o ∧ new = []) :=
  fun _ _ => ⟨[], (List.append_nil _).symm, rfl, rfl⟩

theorem pure (a : α) : Emits (pure a : Act (S × List Effect) α) (fun o' new => o' = .ok a ∧ new = []) := lift (.ok a)

theorem unwrap (o : Option α) : Emits (Act.unwrap o : Act (S × List Effect) α)
    (fun o' new => (o' = match o with | some a => .ok a | none => .panic) ∧ new = []) := by
  cases o <;> exact lift _

theorem attempt {x : Act (S × List Effect) α} {P : List Effect → Prop} (h : Emits x fun _ new => P new) :
    Emits (Act.attempt x) fun _ new => P new := by
  intro s t
  obtain ⟨new, h1, h2⟩ := h s t
  refine ⟨new, ?_, h2⟩
  unfold Act.attempt
  rcases hx : x (s, t) with ⟨o, s1, t1⟩
  rw [hx] at h1
  cases o <;> exact h1

/-- An action whose effects are all of one kind. -/
def All (P : Effect → Prop) (x : Act (S × List Effect) α) : Prop := Emits x fun _ new => ∀ e ∈ new, P e

namespace All
variable {P : Effect → Prop}

theorem bind {x : Act (S × List Effect) α} {f : α → Act (S × List Effect) β} (h1 : All P x) (h2 : ∀ a, All P (f a)) :
    All P (Act.bind x f) :=
  Emits.bind h1 h2 (fun _ n1 _ n2 ha hb e he => (List.mem_append.1 he).elim (ha e) (hb e)) (fun _ _ _ h _ => h)

theorem lift (o : Outcome α) : All P (Act.lift o : Act (S × List Effect) α) :=
  (Emits.lift o).mono fun _ _ h => by simp [h.2]

theorem pure (a : α) : All P (Pure.pure a : Act (S × List Effect) α) := lift (.ok a)

theorem unwrap (o : Option α) : All P (Act.unwrap o : Act (S × List Effect) α) := by
  cases o <;> exact lift _

theorem attempt {x : Act (S × List Effect) α} (h : All P x) : All P (Act.attempt x) := Emits.attempt h

theorem ite {c : Prop} [Decidable c] {x y : Act (S × List Effect) α} (h1 : All P x) (h2 : All P y) : All P (if c then x else y) := by
  split <;> assumption

variable (m : Machine S R)

theorem load (f : String) : All P (m.traced.toSys.load f) := by
  intro s t
  refine ⟨[], ?_, by simp⟩
  unfold Sys.load
  split <;> simp

end All

theorem run (m : Machine S R) (program : String) (args : List String) :
    Emits (m.traced.toSys.run program args) fun o new => ∃ r, o = .ok r ∧ new = [.ran program args r] :=
  fun s _ => ⟨[.ran program args (m.exec program args s).1], rfl, _, rfl, rfl⟩

theorem create (m : Machine S R) (file text : String) :
    Emits (m.traced.toSys.create file text) fun o new => ∃ b, o = .ok b ∧ new = [.wrote file text b] :=
  fun s _ => ⟨[.wrote file text (m.write file text s).1], rfl, _, rfl, rfl⟩

end Emits

/-! ### Reading -/

section Reading
open Emits InputsKept

variable {α : Type} (m : Machine S R) {file : String} {p : Prefs} {lang : Language} {base : String}

/-- The action only does what is done when inputs are read. -/
abbrev Reads (base : String) (x : Act (S × List Effect) α) : Prop := All (ReadingEffect m.tmp base) x

theorem reads_run (program : String) (args : List String) : Reads m base (m.traced.toSys.run program args) :=
  (Emits.run m program args).mono fun _ _ ⟨_, _, h⟩ => by rw [h]; simp [ReadingEffect]

theorem reads_create (text : String) : Reads m base (m.traced.toSys.create (Path.join m.tmp (base ++ ".json")) text) :=
  (Emits.create m _ text).mono fun _ _ ⟨_, _, h⟩ => by rw [h]; simp [ReadingEffect]

theorem reads_solidityAst : Reads m base (solidityAst m.traced.toSys file p) :=
  (All.unwrap _).bind fun _ => (reads_run m _ _).bind fun _ => All.ite (All.pure _) (All.lift _)

theorem reads_vyperDashO (c : String) : Reads m base (vyperDashO m.traced.toSys c) := by
  refine All.bind (reads_run m _ _) fun r => ?_
  split
  · exact All.lift _
  · exact All.lift _
  · split
    · exact All.lift _
    · exact All.ite (All.lift _) (All.lift _)

theorem reads_vyperAst (hb : ∀ b, Path.fileName file = some b → b = base) : Reads m base (vyperAst m.traced.toSys file p) := by
  unfold vyperAst
  cases hf : Path.fileName file with
  | none => exact fun s t => ⟨[], (List.append_nil _).symm, by simp⟩
  | some b =>
  obtain rfl := hb b hf
  refine fun s t => All.bind (reads_vyperDashO m (base := b) (vyperCompiler p)) (fun d => All.bind (reads_run m _ _) fun r => ?_) s t
  split
  · exact All.ite (All.pure _) (All.bind (reads_create m _) fun _ => All.ite (All.pure _) (All.lift _))
  · exact All.lift _

theorem reads_dockerAst : Reads m base (dockerAst m.traced.toSys file p) :=
  (All.unwrap _).bind fun _ => (reads_run m _ _).bind fun _ => All.ite (All.pure _) (All.lift _)

theorem reads_asAst (j : Json) : Reads m base (asAst lang j : Act (S × List Effect) Json) := All.lift _

theorem reads_loadAst (ft : FileType) (hb : ∀ b, Path.fileName file = some b → b = base) : Reads m base (loadAst m.traced.toSys lang ft file p) := by
  cases ft with
  | source =>
    show Reads m base (convertSource m.traced.toSys lang file p)
    cases lang with
    | solidity =>
      refine All.bind (reads_solidityAst m).attempt fun a => ?_
      cases a with
      | none => exact All.lift _
      | some out => exact All.bind (All.load m out) fun j => reads_asAst m j
    | vyper =>
      refine All.bind (reads_vyperAst m hb).attempt fun a => ?_
      cases a with
      | none =>
        refine All.bind (reads_dockerAst m).attempt fun a => ?_
        cases a with
        | none => exact All.lift _
        | some out => exact All.bind (All.load m out) fun j => reads_asAst m j
      | some out => exact All.bind (All.load m out) fun j => reads_asAst m j
  | ast => exact All.bind (All.load m file) fun j => reads_asAst m j
  | config => exact All.lift _

theorem reads_isSource (hb : ∀ b, Path.fileName file = some b → b = base) : Reads m base (isSource m.traced.toSys lang file p) := by
  cases lang with
  | solidity => exact All.bind (reads_solidityAst m).attempt fun _ => All.pure _
  | vyper =>
    exact All.bind (reads_vyperAst m hb).attempt fun a => All.ite (All.pure _) (All.bind (reads_dockerAst m).attempt fun _ => All.pure _)

theorem reads_isAst : Reads m base (isAst m.traced.toSys lang file) := by
  refine All.bind (All.load m file).attempt fun a => ?_
  cases a <;> exact All.pure _

theorem reads_firstLanguage {check : Language → Act (S × List Effect) Bool} (h : ∀ l, Reads m base (check l)) :
    ∀ ls, Reads m base (firstLanguage check ls)
  | [] => All.pure _
  | l :: ls => All.bind (h l) fun _ => All.ite (All.pure _) (reads_firstLanguage h ls)

theorem reads_recognizeConfig : Reads m base (recognizeConfig m.traced.toSys file) := by
  unfold Mutagenyx.recognizeConfig
  split
  · refine All.bind (All.load m file).attempt fun a => ?_
    cases a with
    | none => exact All.pure _
    | some j =>
      simp only
      split <;> exact All.pure _
  · exact All.pure _

theorem reads_recognizeFile (hb : ∀ b, Path.fileName file = some b → b = base) : Reads m base (recognizeFile m.traced.toSys file p) := by
  refine All.bind (reads_recognizeConfig m) fun o => ?_
  cases o with
  | some l => exact All.pure _
  | none =>
    refine All.bind (reads_firstLanguage m (fun l => reads_isSource m hb) _) fun o => ?_
    cases o with
    | some l => exact All.pure _
    | none =>
      refine All.bind (reads_firstLanguage m (fun l => reads_isAst m) _) fun o => ?_
      cases o with
      | some l => exact All.pure _
      | none => exact All.lift _

end Reading

/-! ### Mutants -/

section Mutants
open Emits Validation

variable (m : Machine S R)

theorem wentWell_iff (r : Option (Bool × String)) : succeeded r = true ↔ WentWell r := by
  rcases r with _ | ⟨_ | _, out⟩ <;> simp [succeeded, WentWell]

/-- Two attempts to have a file accepted. -/
theorem emits_twice (j : Judges) : Emits (fun s => twice (m.traced.exec j.program1 j.args1) (m.traced.exec j.program2 j.args2) s)
    fun o new => (∃ r, o = .ok true ∧ WentWell r ∧ new = [.ran j.program1 j.args1 r]) ∨
      ∃ r r', o = .ok (succeeded r') ∧ ¬ WentWell r ∧ new = [.ran j.program1 j.args1 r, .ran j.program2 j.args2 r'] := by
  intro s t
  unfold twice
  by_cases h : succeeded (m.exec j.program1 j.args1 s).1 = true
  · have h' : succeeded (m.traced.exec j.program1 j.args1 (s, t)).1 = true := h
    simp only [if_pos h']
    exact ⟨_, rfl, .inl ⟨_, trivial, (wentWell_iff _).1 h, rfl⟩⟩
  · have h' : ¬ succeeded (m.traced.exec j.program1 j.args1 (s, t)).1 = true := h
    simp only [if_neg h']
    refine ⟨[.ran j.program1 j.args1 (m.exec j.program1 j.args1 s).1,
      .ran j.program2 j.args2 (m.exec j.program2 j.args2 (m.exec j.program1 j.args1 s).2).1], ?_, .inr ⟨_, _, rfl, ?_, rfl⟩⟩
    · simp [Machine.traced]
    · rw [← wentWell_iff]; exact h

theorem emits_fileCompiles (lang : Language) (file : String) (p : Prefs) :
    Emits (fileCompiles m.traced.toSys lang file p) fun o new =>
      (∃ r, o = .ok true ∧ WentWell r ∧
        new = [.ran (judges m.tmp p file lang).program1 (judges m.tmp p file lang).args1 r]) ∨
      ∃ r r', o = .ok (succeeded r') ∧ ¬ WentWell r ∧
        new = [.ran (judges m.tmp p file lang).program1 (judges m.tmp p file lang).args1 r,
          .ran (judges m.tmp p file lang).program2 (judges m.tmp p file lang).args2 r'] := by
  cases lang with
  | solidity =>
    intro s t
    rw [compiles_solidity]
    exact emits_twice m (judges m.tmp p file .solidity) s t
  | vyper =>
    intro s t
    rw [compiles_vyper]
    exact emits_twice m (judges m.tmp p file .vyper) s t

/-- What trying a mutant does. -/
def TryEffects (lang : Language) (base : String) (p : Prefs) (text : String) (o : Outcome Bool) (new : List Effect) : Prop :=
  ∃ b, o = .ok b ∧ Trial (Path.join m.tmp base) (judges m.tmp p (Path.join m.tmp base) lang) text b new

theorem emits_mutantCompiles (lang : Language) (input base text : String) (p : Prefs) (hb : Path.fileName input = some base) :
    Emits (mutantCompiles m.traced.toSys lang input text p) (TryEffects m lang base p text) := by
  unfold mutantCompiles
  rw [hb]
  have hjoin : m.traced.toSys.tmp = m.tmp := rfl
  rw [hjoin]
  show Emits (Act.bind (Act.unwrap (some base)) _) _
  refine Emits.bind (Emits.unwrap (some base)) (Q := fun b o new => b = base → TryEffects m lang base p text o new) (fun b => ?_)
    (fun a n1 o n2 h1 h2 => ?_) (fun o o' n1 h1 h2 => ?_)
  · refine Emits.bind (Emits.create m _ text) (Q := fun done o new => b = base →
      TryEffects m lang base p text o ([.wrote (Path.join m.tmp base) text done] ++ new)) (fun done => ?_) ?_ ?_
    · cases done with
      | false =>
        refine (Emits.pure false).mono fun o new h _ => ?_
        obtain ⟨rfl, rfl⟩ := h
        exact ⟨false, rfl, .unwritable⟩
      | true =>
        refine Emits.bind (emits_fileCompiles m lang _ p) (Q := fun ok o new => o = .ok ok ∧ new = [.removed (Path.join m.tmp b)])
          (fun ok s t => ⟨_, rfl, rfl, rfl⟩) ?_ ?_
        · rintro a n1 o n2 h1 ⟨rfl, rfl⟩ rfl
          refine ⟨a, rfl, ?_⟩
          rcases h1 with ⟨r, h1, h2, rfl⟩ | ⟨r, r', h1, h2, rfl⟩
          · cases h1
            exact .first r h2
          · cases h1
            cases hr : succeeded r' with
            | true => exact .second r r' h2 ((wentWell_iff _).1 hr)
            | false => exact .refused r r' h2 (by rw [← wentWell_iff, hr]; simp)
        · rintro o o' n1 (⟨r, rfl, -⟩ | ⟨r, r', rfl, -⟩) h2 <;> cases h2
    · rintro a n1 o n2 ⟨b', h1, rfl⟩ h2 rfl
      cases h1
      exact h2 rfl
    · rintro o o' n1 ⟨b', rfl, -⟩ h2; cases h2
  · obtain ⟨h1, rfl⟩ := h1
    simp only [Outcome.ok.injEq] at h1
    exact h2 h1
  · obtain ⟨rfl, rfl⟩ := h1
    cases h2

theorem emits_tryMutant (lang : Language) (input base : String) (p : Prefs) (ast : Json) (hb : Path.fileName input = some base) :
    Emits (m.traced.tryMutant lang input p ast) fun o new =>
      (∃ text, m.print lang ast = .ok text ∧ TryEffects m lang base p text o new) ∨
      ((∀ text, m.print lang ast ≠ .ok text) ∧ (∀ b, o ≠ .ok b) ∧ new = []) := by
  unfold Machine.tryMutant
  refine Emits.bind (Emits.lift _) (Q := fun text => TryEffects m lang base p text)
    (fun text => emits_mutantCompiles m lang input base text p hb) ?_ ?_
  · rintro text n1 o n2 ⟨h1, rfl⟩ h2
    exact .inl ⟨text, h1.symm, h2⟩
  · rintro o o' n1 ⟨h1, rfl⟩ h2
    have h1' : m.print lang ast = o := h1.symm
    refine .inr ⟨fun text ht => ?_, fun b hb => ?_, rfl⟩
    · rw [h1'] at ht; subst ht; exact h2
    · subst hb; cases o <;> first | cases h2 | exact h2

theorem emits_deliver (dest : Option String) (text : String) :
    Emits (m.traced.deliver dest text) fun o new => ∃ b, Delivery dest text b new ∧ (o = .ok () ↔ b = true) := by
  cases dest with
  | none => exact fun s t => ⟨[.said text], rfl, true, .said text, by simp [Machine.deliver]⟩
  | some f =>
    unfold Machine.deliver
    simp only
    show Emits (Act.bind (m.traced.toSys.create f text) _) _
    refine Emits.bind (Emits.create m f text) (Q := fun done o new => new = [] ∧ (o = .ok () ↔ done = true)) (fun done => ?_) ?_ ?_
    · cases done with
      | true => exact (Emits.pure ()).mono fun o new h => ⟨h.2, by simp [h.1]⟩
      | false => exact (Emits.lift _).mono fun o new h => ⟨h.2, by simp [h.1]⟩
    · rintro a n1 o n2 ⟨b, h1, rfl⟩ ⟨rfl, h2⟩
      cases h1
      exact ⟨a, .wrote f text a, h2⟩
    · rintro o o' n1 ⟨b, rfl, -⟩ h2; cases h2

theorem emits_putOut (lang : Language) (dest : Option String) (item : Item) :
    Emits (m.traced.putOut lang dest item) fun o new =>
      (∃ text b, m.text lang item = .ok text ∧ Delivery dest text b new ∧ (o = .ok () ↔ b = true)) ∨
      ((∀ text, m.text lang item ≠ .ok text) ∧ o ≠ .ok () ∧ new = []) := by
  have ht : m.traced.text lang item = m.text lang item := by cases item <;> rfl
  unfold Machine.putOut
  rw [ht]
  refine Emits.bind (Emits.lift _) (fun text => emits_deliver m dest text) ?_ ?_
  · rintro text n1 o n2 ⟨h1, rfl⟩ ⟨b, h2, h3⟩
    exact .inl ⟨text, b, h1.symm, h2, h3⟩
  · rintro o o' n1 ⟨h1, rfl⟩ h2
    refine .inr ⟨fun text ht => ?_, fun b => ?_, rfl⟩
    · rw [← h1] at ht; subst ht; exact h2
    · subst b; cases o <;> first | cases h2 | exact h2

variable (j : Job R) (base : String)

/-- What is done to try a text in a job. -/
def TriedText (text : String) (b : Bool) (t : List Effect) : Prop :=
  (∃ ast, m.print j.language ast = .ok text) ∧
  TriedIf j.params.verify (Path.join m.tmp base) (judges m.tmp j.params.preferences (Path.join m.tmp base) j.language) text b t

/-- Where the mutants of a job go. -/
def placeIn (n : Nat) : Option String := placeOf j.params.useStdout j.params.outputDirectory base j.language.ext n

/-- What an iteration does. -/
inductive TurnEffects (n : Nat) : Outcome (Option (Progress R)) → List Effect → Prop
  | over : TurnEffects n (.ok none) []
  | idle (g : Progress R) : g.written = n → TurnEffects n (.ok (some g)) []
  | refused (g : Progress R) (text : String) (t : List Effect) : g.written = n → TriedText m j base text false t →
      TurnEffects n (.ok (some g)) t
  | kept (g : Progress R) (text : String) (t d : List Effect) : g.written = n + 1 → TriedText m j base text true t →
      Delivery (placeIn j base n) text true d → TurnEffects n (.ok (some g)) (t ++ d)
  | failed (o : Outcome (Option (Progress R))) : (∀ a, o ≠ .ok a) → TurnEffects n o []
  | lost (o : Outcome (Option (Progress R))) (text : String) (t d : List Effect) : (∀ a, o ≠ .ok a) →
      TriedText m j base text true t → Delivery (placeIn j base n) text false d → TurnEffects n o (t ++ d)

variable {j base}

theorem mutantPlace (hb : Path.fileName j.params.fileName = some base) (n : Nat) :
    mutantTarget j.language.ext j.params.fileName j.params.outputDirectory n =
      some (Path.join j.params.outputDirectory (base ++ "_" ++ toString n ++ "." ++ j.language.ext)) := by
  refine mutantTarget_eq ?_ hb n
  cases j.language
  · exact plainExt_sol
  · exact plainExt_vy

theorem emits_writeMutant (hb : Path.fileName j.params.fileName = some base) (n : Nat) (ast : Json) (res : MutatorResult) :
    Emits (m.traced.writeMutant j n ast res) fun o new =>
      (∃ text b, m.print j.language ast = .ok text ∧ Delivery (placeIn j base n) text b new ∧ (o = .ok () ↔ b = true)) ∨
      ((∀ text, m.print j.language ast ≠ .ok text) ∧ o ≠ .ok () ∧ new = []) := by
  unfold Machine.writeMutant placeIn placeOf
  split
  · exact emits_putOut m j.language none (.mutant ast res)
  · rw [mutantPlace hb]
    exact fun s t => emits_putOut m j.language (some _) (.mutant ast res) s t

theorem failsAs_ne {α β : Type} {o : Outcome α} {o' : Outcome β} (h : Outcome.failsAs o o') :
    (∀ a, o ≠ .ok a) ∧ ∀ b, o' ≠ .ok b := by
  cases o with
  | ok a => exact h.elim
  | err e => cases h; simp
  | panic => cases h; simp
  | outOfFuel => cases h; simp

theorem emits_keep (hb : Path.fileName j.params.fileName = some base) (g : Progress R) (rest : List MutationType) (ast : Json)
    (res : MutatorResult) (r : R) :
    Emits (m.traced.keep j g rest ast res r) fun o new =>
      (∀ text t, TriedText m j base text true t → m.print j.language ast = .ok text → TurnEffects m j base g.written o (t ++ new)) ∧
      ((∀ text, m.print j.language ast ≠ .ok text) → TurnEffects m j base g.written o new) := by
  unfold Machine.keep
  refine Emits.bind (emits_writeMutant m hb g.written ast res) (fun _ => Emits.pure _) ?_ ?_
  · rintro ⟨⟩ n1 o n2 h1 ⟨rfl, rfl⟩
    rw [List.append_nil]
    rcases h1 with ⟨text', b, h2, h3, h4⟩ | ⟨-, h2, -⟩
    · refine ⟨fun text t ht hp => ?_, fun h => absurd h2 (h text')⟩
      rw [hp] at h2
      cases h2
      rw [h4.1 rfl] at h3
      exact .kept _ _ t n1 rfl ht h3
    · exact absurd rfl h2
  · intro o o' n1 h1 h2
    obtain ⟨hno, hne⟩ := failsAs_ne h2
    rcases h1 with ⟨text', b, h3, h4, h5⟩ | ⟨h3, -, rfl⟩
    · refine ⟨fun text t ht hp => ?_, fun h => absurd h3 (h text')⟩
      rw [hp] at h3
      cases h3
      have : b = false := by cases b with
        | false => rfl
        | true => exact absurd (h5.2 rfl) (hno ())
      subst this
      exact .lost _ _ t n1 hne ht h4
    · exact ⟨fun text t ht hp => absurd hp (h3 text), fun _ => .failed _ hne⟩

theorem emits_judge (hb : Path.fileName j.params.fileName = some base) (g : Progress R) (rest : List MutationType) (ast : Json)
    (res : MutatorResult) (r : R) :
    Emits (m.traced.judge j g rest ast res r) fun o new => TurnEffects m j base g.written o new := by
  unfold Machine.judge
  have hk := emits_keep m hb g rest ast res r
  by_cases hv : j.params.verify = true
  · simp only [if_pos hv]
    show Emits (Act.bind (m.traced.tryMutant j.language j.params.fileName j.params.preferences ast) _) _
    refine Emits.bind (emits_tryMutant m j.language _ base j.params.preferences ast hb)
      (Q := fun good o new => ∀ text t, TriedText m j base text good t → m.print j.language ast = .ok text →
        TurnEffects m j base g.written o (t ++ new)) (fun good => ?_) ?_ ?_
    · cases good with
      | false =>
        refine (Emits.pure _).mono fun o new h text t ht _ => ?_
        obtain ⟨rfl, rfl⟩ := h
        rw [List.append_nil]
        exact .refused _ text t rfl ht
      | true => exact hk.mono fun o new h => h.1
    · intro good n1 o n2 h1 h2
      rcases h1 with ⟨text, h3, b, h4, h5⟩ | ⟨-, h3, -⟩
      · cases h4
        refine h2 text n1 ⟨⟨ast, h3⟩, ?_⟩ h3
        unfold TriedIf
        rw [if_pos hv]
        exact h5
      · exact absurd rfl (h3 good)
    · intro o o' n1 h1 h2
      rcases h1 with ⟨text', h3, b, rfl, h5⟩ | ⟨h3, -, rfl⟩
      · cases h2
      · exact .failed _ (failsAs_ne h2).2
  · simp only [if_neg hv]
    refine hk.mono fun o new h => ?_
    by_cases hp : ∃ text, m.print j.language ast = .ok text
    · obtain ⟨text, hp⟩ := hp
      refine h.1 text [] ⟨⟨ast, hp⟩, ?_⟩ hp
      unfold TriedIf
      rw [if_neg hv]
      exact ⟨rfl, rfl⟩
    · exact h.2 fun text ht => hp ⟨text, ht⟩

variable [Rand R]

theorem emits_turn (hb : Path.fileName j.params.fileName = some base) (g : Progress R) :
    Emits (m.traced.turn j g) fun o new => TurnEffects m j base g.written o new := by
  unfold Machine.turn
  split
  · refine (Emits.pure _).mono fun o new h => ?_
    obtain ⟨rfl, rfl⟩ := h
    exact .over
  · split
    · refine Emits.bind (Emits.unwrap _) (Q := fun _ o new => TurnEffects m j base g.written o new) (fun n => ?_) ?_ ?_
      · refine Emits.bind (Emits.lift _) (Q := fun _ o new => TurnEffects m j base g.written o new) (fun r => ?_) ?_ ?_
        · obtain ⟨ast, res, r⟩ := r
          simp only
          split
          · refine (Emits.pure _).mono fun o new h => ?_
            obtain ⟨rfl, rfl⟩ := h
            exact .idle _ rfl
          · exact emits_judge m hb g _ ast res r
        · rintro a n1 o n2 ⟨-, rfl⟩ h; exact h
        · rintro o o' n1 ⟨-, rfl⟩ h; exact .failed _ (failsAs_ne h).2
      · rintro a n1 o n2 ⟨-, rfl⟩ h; exact h
      · rintro o o' n1 ⟨-, rfl⟩ h; exact .failed _ (failsAs_ne h).2
    · refine (Emits.pure _).mono fun o new h => ?_
      obtain ⟨rfl, rfl⟩ := h
      exact .idle _ rfl

theorem emits_turns (hb : Path.fileName j.params.fileName = some base) :
    ∀ (n : Nat) (g : Progress R), Emits (m.traced.turns j n g) fun _ new => Rounds (TriedText m j base) (placeIn j base) g.written new
  | 0, g => (Emits.lift _).mono fun o new h => by rw [h.2]; exact .none _
  | n + 1, g => by
    unfold Machine.turns
    refine Emits.bind (emits_turn m hb g)
      (Q := fun g' o new => match g' with
        | none => new = []
        | some g' => Rounds (TriedText m j base) (placeIn j base) g'.written new) (fun g' => ?_) ?_ ?_
    · cases g' with
      | none => exact (Emits.pure _).mono fun o new h => h.2
      | some g' => exact emits_turns hb n g'
    · intro g' n1 o n2 h1 h2
      cases h1 with
      | over => cases h2; exact .none _
      | idle g' hg => simp only [hg] at h2; exact h2
      | refused g' text t hg ht => simp only [hg] at h2; exact .refused _ text n1 n2 ht h2
      | kept g' text t d hg ht hd => simp only [hg] at h2; exact .kept _ text t d n2 ht hd h2
      | failed o hne => exact absurd rfl (hne _)
      | lost o text t d hne ht hd => exact absurd rfl (hne _)
    · intro o o' n1 h1 h2
      have := (failsAs_ne h2).1
      cases h1 with
      | over => exact absurd rfl (this _)
      | idle g' hg => exact absurd rfl (this _)
      | refused g' text t hg ht => exact absurd rfl (this _)
      | kept g' text t d hg ht hd => exact absurd rfl (this _)
      | failed o hne => exact .none _
      | lost o text t d hne ht hd => exact .lost _ text t d ht hd

end Mutants

end Mutagenyx
