import Verif.Proofs.Tool
import Verif.Spec.Trace

/-! The record of a traced machine has no influence. -/

namespace Mutagenyx

variable {S R : Type}

/-- The action on the traced machine is the action on the machine. -/
def Same {α : Type} (x : Act (S × List Effect) α) (y : Act S α) : Prop :=
  ∀ s t, (x (s, t)).1 = (y s).1 ∧ (x (s, t)).2.1 = (y s).2

namespace Same
variable {α β : Type}

theorem bind {x : Act (S × List Effect) α} {y : Act S α} {f : α → Act (S × List Effect) β} {g : α → Act S β} (h1 : Same x y)
    (h2 : ∀ a, Same (f a) (g a)) : Same (Act.bind x f) (Act.bind y g) := by
  intro s t
  obtain ⟨h3, h4⟩ := h1 s t
  rcases hx : x (s, t) with ⟨o, s1, t1⟩
  rcases hy : y s with ⟨o', s1'⟩
  rw [hx, hy] at h3 h4
  simp only at h3 h4
  subst h3 h4
  simp only [Act.bind, hx, hy]
  cases o with
  | ok a => exact h2 a s1 t1
  | err e => exact ⟨rfl, rfl⟩
  | panic => exact ⟨rfl, rfl⟩
  | outOfFuel => exact ⟨rfl, rfl⟩

theorem lift (o : Outcome α) : Same (Act.lift o : Act (S × List Effect) α) (Act.lift o : Act S α) := fun _ _ => ⟨rfl, rfl⟩

theorem pure (a : α) : Same (Pure.pure a : Act (S × List Effect) α) (Pure.pure a : Act S α) := fun _ _ => ⟨rfl, rfl⟩

theorem unwrap (o : Option α) : Same (Act.unwrap o : Act (S × List Effect) α) (Act.unwrap o : Act S α) := fun _ _ => ⟨rfl, rfl⟩

theorem attempt {x : Act (S × List Effect) α} {y : Act S α} (h : Same x y) : Same (Act.attempt x) (Act.attempt y) := by
  intro s t
  obtain ⟨h3, h4⟩ := h s t
  rcases hx : x (s, t) with ⟨o, s1, t1⟩
  rcases hy : y s with ⟨o', s1'⟩
  rw [hx, hy] at h3 h4
  simp only at h3 h4
  subst h3 h4
  simp only [Act.attempt, hx, hy]
  cases o <;> exact ⟨rfl, rfl⟩

theorem ite {c : Prop} [Decidable c] {x x' : Act (S × List Effect) α} {y y' : Act S α} (h1 : Same x y) (h2 : Same x' y') :
    Same (if c then x else x') (if c then y else y') := by
  split <;> assumption

variable (m : Machine S R) {file : String} {p : Prefs} {lang : Language}

theorem load (f : String) : Same (m.traced.toSys.load f) (m.toSys.load f) := by
  intro s t
  show (Sys.load m.traced.toSys f (s, t)).1 = _ ∧ _
  unfold Sys.load
  have : m.traced.readJson f (s, t) = m.readJson f s := rfl
  rw [this]
  cases m.readJson f s <;> exact ⟨rfl, rfl⟩

theorem run (program : String) (args : List String) : Same (m.traced.toSys.run program args) (m.toSys.run program args) :=
  fun _ _ => ⟨rfl, rfl⟩

theorem create (f text : String) : Same (m.traced.toSys.create f text) (m.toSys.create f text) := fun _ _ => ⟨rfl, rfl⟩

theorem solidityAst : Same (solidityAst m.traced.toSys file p) (solidityAst m.toSys file p) :=
  (Same.unwrap _).bind fun _ => (Same.run m _ _).bind fun _ => Same.ite (Same.pure _) (Same.lift _)

theorem vyperDashO (c : String) : Same (vyperDashO m.traced.toSys c) (vyperDashO m.toSys c) := by
  refine Same.bind (Same.run m _ _) fun r => ?_
  split
  · exact Same.lift _
  · exact Same.lift _
  · split
    · exact Same.lift _
    · exact Same.ite (Same.lift _) (Same.lift _)

theorem vyperAst : Same (vyperAst m.traced.toSys file p) (vyperAst m.toSys file p) := by
  refine Same.bind (Same.unwrap _) fun base => Same.bind (Same.vyperDashO m _) fun d => Same.bind (Same.run m _ _) fun r => ?_
  split
  · exact Same.ite (Same.pure _) (Same.bind (Same.create m _ _) fun _ => Same.ite (Same.pure _) (Same.lift _))
  · exact Same.lift _

theorem dockerAst : Same (dockerAst m.traced.toSys file p) (dockerAst m.toSys file p) :=
  (Same.unwrap _).bind fun _ => (Same.run m _ _).bind fun _ => Same.ite (Same.pure _) (Same.lift _)

theorem loadAst (ft : FileType) : Same (loadAst m.traced.toSys lang ft file p) (loadAst m.toSys lang ft file p) := by
  cases ft with
  | source =>
    show Same (convertSource m.traced.toSys lang file p) (convertSource m.toSys lang file p)
    cases lang with
    | solidity =>
      refine Same.bind (Same.solidityAst m).attempt fun a => ?_
      cases a with
      | none => exact Same.lift _
      | some out => exact Same.bind (Same.load m out) fun j => Same.lift _
    | vyper =>
      refine Same.bind (Same.vyperAst m).attempt fun a => ?_
      cases a with
      | none =>
        refine Same.bind (Same.dockerAst m).attempt fun a => ?_
        cases a with
        | none => exact Same.lift _
        | some out => exact Same.bind (Same.load m out) fun j => Same.lift _
      | some out => exact Same.bind (Same.load m out) fun j => Same.lift _
  | ast => exact Same.bind (Same.load m file) fun j => Same.lift _
  | config => exact Same.lift _

theorem isSource : Same (isSource m.traced.toSys lang file p) (isSource m.toSys lang file p) := by
  cases lang with
  | solidity => exact Same.bind (Same.solidityAst m).attempt fun _ => Same.pure _
  | vyper =>
    exact Same.bind (Same.vyperAst m).attempt fun a => Same.ite (Same.pure _) (Same.bind (Same.dockerAst m).attempt fun _ => Same.pure _)

theorem isAst : Same (isAst m.traced.toSys lang file) (isAst m.toSys lang file) := by
  refine Same.bind (Same.load m file).attempt fun a => ?_
  cases a <;> exact Same.pure _

theorem firstLanguage {check : Language → Act (S × List Effect) Bool} {check' : Language → Act S Bool}
    (h : ∀ l, Same (check l) (check' l)) : ∀ ls, Same (firstLanguage check ls) (firstLanguage check' ls)
  | [] => Same.pure _
  | l :: ls => Same.bind (h l) fun _ => Same.ite (Same.pure _) (Same.firstLanguage h ls)

theorem recognizeConfig : Same (recognizeConfig m.traced.toSys file) (recognizeConfig m.toSys file) := by
  unfold Mutagenyx.recognizeConfig
  split
  · refine Same.bind (Same.load m file).attempt fun a => ?_
    cases a with
    | none => exact Same.pure _
    | some j =>
      simp only
      split <;> exact Same.pure _
  · exact Same.pure _

theorem recognizeFile : Same (recognizeFile m.traced.toSys file p) (recognizeFile m.toSys file p) := by
  refine Same.bind (Same.recognizeConfig m) fun o => ?_
  cases o with
  | some l => exact Same.pure _
  | none =>
    refine Same.bind (Same.firstLanguage (fun l => Same.isSource m) _) fun o => ?_
    cases o with
    | some l => exact Same.pure _
    | none =>
      refine Same.bind (Same.firstLanguage (fun l => Same.isAst m) _) fun o => ?_
      cases o with
      | some l => exact Same.pure _
      | none => exact Same.lift _

theorem reading (p : Params R) : Same (m.traced.reading p) (m.reading p) :=
  Same.bind (Same.recognizeFile m) fun r => Same.bind (Same.loadAst m r.2) fun _ => Same.pure _

theorem fileCompiles (file : String) : Same (fileCompiles m.traced.toSys lang file p) (fileCompiles m.toSys lang file p) := by
  cases lang <;>
    exact Same.bind (Same.run m _ _) fun _ => Same.ite (Same.pure _) (Same.bind (Same.run m _ _) fun _ => Same.pure _)

theorem mutantCompiles (input text : String) :
    Same (mutantCompiles m.traced.toSys lang input text p) (mutantCompiles m.toSys lang input text p) :=
  Same.bind (Same.unwrap _) fun base => Same.bind (Same.create m _ _) fun _ =>
    Same.ite (Same.bind (Same.fileCompiles m _) fun _ _ _ => ⟨rfl, rfl⟩) (Same.pure _)

theorem tryMutant (ast : Json) : Same (m.traced.tryMutant lang file p ast) (m.tryMutant lang file p ast) :=
  Same.bind (Same.lift _) fun _ => Same.mutantCompiles m _ _

theorem deliver (dest : Option String) (text : String) : Same (m.traced.deliver dest text) (m.deliver dest text) := by
  unfold Machine.deliver
  cases dest with
  | none => exact fun _ _ => ⟨rfl, rfl⟩
  | some f => exact Same.bind (Same.create m _ _) fun _ => Same.ite (Same.pure _) (Same.lift _)

theorem putOut (dest : Option String) (item : Item) : Same (m.traced.putOut lang dest item) (m.putOut lang dest item) := by
  have ht : m.traced.text lang item = m.text lang item := by cases item <;> rfl
  unfold Machine.putOut
  rw [ht]
  exact Same.bind (Same.lift _) fun _ => Same.deliver m _ _

theorem originalAct (p : Params R) (ast : Json) : Same (m.traced.originalAct lang p ast) (m.originalAct lang p ast) := by
  unfold Machine.originalAct
  split
  · split
    · exact Same.putOut m _ _
    · exact Same.bind (Same.unwrap _) fun _ => Same.putOut m _ _
  · exact Same.pure _

theorem configAct (p : Params R) : Same (m.traced.configAct lang p) (m.configAct lang p) := by
  unfold Machine.configAct
  split
  · exact Same.bind (Same.unwrap _) fun _ => Same.ite (Same.putOut m _ _) (Same.putOut m _ _)
  · exact Same.pure _

theorem writeMutant (j : Job R) (n : Nat) (ast : Json) (res : MutatorResult) :
    Same (m.traced.writeMutant j n ast res) (m.writeMutant j n ast res) := by
  unfold Machine.writeMutant
  split
  · exact Same.putOut m _ _
  · exact Same.bind (Same.unwrap _) fun _ => Same.putOut m _ _

theorem keep (j : Job R) (g : Progress R) (rest : List MutationType) (ast : Json) (res : MutatorResult) (r : R) :
    Same (m.traced.keep j g rest ast res r) (m.keep j g rest ast res r) :=
  Same.bind (Same.writeMutant m j _ ast res) fun _ => Same.pure _

theorem judge (j : Job R) (g : Progress R) (rest : List MutationType) (ast : Json) (res : MutatorResult) (r : R) :
    Same (m.traced.judge j g rest ast res r) (m.judge j g rest ast res r) := by
  unfold Machine.judge
  split
  · exact Same.bind (Same.tryMutant m ast) fun _ => Same.ite (Same.keep m j g rest ast res r) (Same.pure _)
  · exact Same.keep m j g rest ast res r

variable [Rand R]

theorem turn (j : Job R) (g : Progress R) : Same (m.traced.turn j g) (m.turn j g) := by
  unfold Machine.turn
  split
  · exact Same.pure _
  · split
    · exact Same.bind (Same.unwrap _) fun n => Same.bind (Same.lift _) fun r => Same.ite (Same.pure _) (Same.judge m j g _ _ _ _)
    · exact Same.pure _

theorem turns (j : Job R) : ∀ (n : Nat) (g : Progress R), Same (m.traced.turns j n g) (m.turns j n g)
  | 0, _ => Same.lift _
  | n + 1, g => by
    unfold Machine.turns
    refine Same.bind (Same.turn m j g) fun o => ?_
    cases o with
    | none => exact Same.pure _
    | some g' => exact Same.turns j n g'

theorem generateFrom (fuel : Nat) (p : Params R) (ast : Json) :
    Same (m.traced.generateFrom fuel p lang ast) (m.generateFrom fuel p lang ast) := by
  unfold Machine.generateFrom
  exact Same.ite (Same.lift _) (Same.bind (Same.originalAct m p ast) fun _ => Same.bind (Same.configAct m p) fun _ =>
    Same.bind (Same.lift _) fun r => Same.turns m _ _ _)

theorem generate (fuel : Nat) (p : Params R) : Same (m.traced.generate fuel p) (m.generate fuel p) := by
  intro s t
  rw [generate_eq, generate_eq]
  exact Same.bind (Same.reading m p) (fun r => Same.generateFrom m fuel p r.2) s t

end Same

end Mutagenyx
