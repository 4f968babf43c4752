import Verif.Props.Selection
import Verif.Props.Tool

/-!
# How often the compiler is run (property C04 on machines)
-/

namespace Mutagenyx
open Emits
variable {S R : Type}

/-- How many programs were run. -/
def programsRun (t : List Effect) : Nat := (t.filter fun e => match e with | .ran .. => true | _ => false).length

namespace Effort

theorem run_append (a b : List Effect) : programsRun (a ++ b) = programsRun a + programsRun b := by
  unfold programsRun; rw [List.filter_append, List.length_append]

theorem run_trial {file : String} {j : Judges} {text : String} {b : Bool} {t : List Effect} (h : Trial file j text b t) :
    programsRun t ≤ 2 := by
  cases h <;> simp [programsRun]

theorem run_delivery {dest : Option String} {text : String} {b : Bool} {t : List Effect} (h : Delivery dest text b t) :
    programsRun t = 0 := by
  cases h <;> simp [programsRun]

/-- The attempts that are left. -/
def left (g : Progress R) : Nat := 50 * g.todo.length - g.attempts

/-- At most `k` programs are run, `2` for each attempt that is used up, and none if nothing is tried. -/
def Costs (verify : Bool) (k : Nat) (o : Outcome (Option (Progress R))) (new : List Effect) : Prop :=
  (verify = false → programsRun new = 0) ∧ programsRun new ≤ 2 * k ∧
    ∀ g', o = .ok (some g') → g'.attempts ≤ 50 ∧ programsRun new + 2 * left g' ≤ 2 * k

variable (m : Machine S R) {j : Job R} {base : String}

theorem cost_keep (hb : Path.fileName j.params.fileName = some base) (g : Progress R) (rest : List MutationType) (ast : Json)
    (res : MutatorResult) (r : R) :
    Emits (m.traced.keep j g rest ast res r) fun o new => programsRun new = 0 ∧
      ∀ g', o = .ok (some g') → g'.attempts = 0 ∧ g'.todo = rest := by
  unfold Machine.keep
  have hrun : ∀ (o : Outcome Unit) (new : List Effect), ((∃ text b, m.print j.language ast = .ok text ∧
      Delivery (placeIn j base g.written) text b new ∧ (o = .ok () ↔ b = true)) ∨
      ((∀ text, m.print j.language ast ≠ .ok text) ∧ o ≠ .ok () ∧ new = [])) → programsRun new = 0 := by
    rintro o new (⟨text, b, -, h, -⟩ | ⟨-, -, rfl⟩)
    · exact run_delivery h
    · rfl
  refine Emits.bind (emits_writeMutant m hb g.written ast res) (fun _ => Emits.pure _) ?_ ?_
  · rintro ⟨⟩ n1 o n2 h1 ⟨rfl, rfl⟩
    rw [List.append_nil]
    refine ⟨hrun _ _ h1, fun g' e => ?_⟩
    cases e
    exact ⟨rfl, rfl⟩
  · intro o o' n1 h1 h2
    exact ⟨hrun _ _ h1, fun g' e => absurd e ((failsAs_ne h2).2 _)⟩

theorem cost_judge (hb : Path.fileName j.params.fileName = some base) (g : Progress R) (t : MutationType) (rest : List MutationType)
    (ht : g.todo = t :: rest) (ha : g.attempts < 50) (ast : Json) (res : MutatorResult) (r : R) :
    Emits (m.traced.judge j g rest ast res r) (Costs j.params.verify (left g)) := by
  have hl : left g = 50 * rest.length + 50 - g.attempts := by unfold left; rw [ht, List.length_cons]; omega
  have hk := cost_keep m hb g rest ast res r
  have hleft : ∀ g' : Progress R, g'.attempts = 0 ∧ g'.todo = rest → left g' = 50 * rest.length := by
    rintro g' ⟨h1, h2⟩
    unfold left
    rw [h1, h2, Nat.sub_zero]
  unfold Machine.judge
  by_cases hv : j.params.verify = true
  · simp only [if_pos hv]
    show Emits (Act.bind (m.traced.tryMutant j.language j.params.fileName j.params.preferences ast) _) _
    have hcost : ∀ (o : Outcome Bool) (n1 : List Effect), ((∃ text, m.print j.language ast = .ok text ∧
        TryEffects m j.language base j.params.preferences text o n1) ∨
        ((∀ text, m.print j.language ast ≠ .ok text) ∧ (∀ b, o ≠ .ok b) ∧ n1 = [])) → programsRun n1 ≤ 2 := by
      rintro o n1 (⟨text, -, b, -, h⟩ | ⟨-, -, rfl⟩)
      · exact run_trial h
      · exact Nat.zero_le _
    refine Emits.bind (emits_tryMutant m j.language _ base j.params.preferences ast hb)
      (Q := fun _ o new => programsRun new = 0 ∧ ∀ g', o = .ok (some g') → g'.attempts ≤ 50 ∧ left g' + 1 ≤ left g) (fun good => ?_) ?_ ?_
    · cases good with
      | false =>
        refine (Emits.pure _).mono fun o new h => ?_
        obtain ⟨rfl, rfl⟩ := h
        refine ⟨rfl, fun g' e => ?_⟩
        cases e
        refine ⟨ha, ?_⟩
        show 50 * g.todo.length - (g.attempts + 1) + 1 ≤ _
        rw [hl, ht, List.length_cons]
        omega
      | true =>
        refine hk.mono fun o new h => ⟨h.1, fun g' e => ⟨by rw [(h.2 g' e).1]; exact Nat.zero_le _, ?_⟩⟩
        rw [hleft g' (h.2 g' e), hl]
        omega
    · intro good n1 o n2 h1 h2
      have h3 := hcost _ _ h1
      refine ⟨fun h => absurd (hv.symm.trans h) (by simp), ?_, fun g' e => ?_⟩
      · rw [run_append, h2.1, hl]; omega
      · have := h2.2 g' e
        refine ⟨this.1, ?_⟩
        rw [run_append, h2.1]
        omega
    · intro o o' n1 h1 h2
      have h3 := hcost _ _ h1
      refine ⟨fun h => absurd (hv.symm.trans h) (by simp), ?_, fun g' e => absurd e ((failsAs_ne h2).2 _)⟩
      rw [hl]; omega
  · simp only [if_neg hv]
    refine hk.mono fun o new h => ⟨fun _ => h.1, by rw [h.1]; exact Nat.zero_le _, fun g' e => ?_⟩
    refine ⟨by rw [(h.2 g' e).1]; exact Nat.zero_le _, ?_⟩
    rw [h.1, hleft g' (h.2 g' e), hl]
    omega

variable [Rand R]

theorem cost_turn (hb : Path.fileName j.params.fileName = some base) (g : Progress R) (hg : g.attempts ≤ 50) :
    Emits (m.traced.turn j g) (Costs j.params.verify (left g)) := by
  have none_ : ∀ (o : Outcome (Option (Progress R))) (new : List Effect), new = [] →
      (∀ g', o = .ok (some g') → g'.attempts ≤ 50 ∧ left g' ≤ left g) → Costs j.params.verify (left g) o new := by
    rintro o new rfl h
    refine ⟨fun _ => rfl, Nat.zero_le _, fun g' e => ⟨(h g' e).1, ?_⟩⟩
    have := (h g' e).2
    show 0 + _ ≤ _
    omega
  unfold Machine.turn
  split
  · refine (Emits.pure _).mono fun o new h => ?_
    obtain ⟨rfl, rfl⟩ := h
    exact none_ _ _ rfl fun g' e => by cases e
  · rename_i t rest ht
    split
    · rename_i ha
      have ha : g.attempts < 50 := ha
      refine Emits.bind (Emits.unwrap _) (Q := fun _ => Costs j.params.verify (left g)) (fun n => ?_) ?_ ?_
      · refine Emits.bind (Emits.lift _) (Q := fun _ => Costs j.params.verify (left g)) (fun r => ?_) ?_ ?_
        · obtain ⟨ast, res, r⟩ := r
          simp only
          split
          · refine (Emits.pure _).mono fun o new h => ?_
            obtain ⟨rfl, rfl⟩ := h
            refine none_ _ _ rfl fun g' e => ?_
            cases e
            refine ⟨ha, ?_⟩
            show 50 * g.todo.length - (g.attempts + 1) ≤ 50 * g.todo.length - g.attempts
            omega
          · exact cost_judge m hb g t rest ht ha ast res r
        · rintro a n1 o n2 ⟨-, rfl⟩ h; exact h
        · rintro o o' n1 ⟨-, rfl⟩ h; exact none_ _ _ rfl fun g' e => absurd e ((failsAs_ne h).2 _)
      · rintro a n1 o n2 ⟨-, rfl⟩ h; exact h
      · rintro o o' n1 ⟨-, rfl⟩ h; exact none_ _ _ rfl fun g' e => absurd e ((failsAs_ne h).2 _)
    · refine (Emits.pure _).mono fun o new h => ?_
      obtain ⟨rfl, rfl⟩ := h
      refine none_ _ _ rfl fun g' e => ?_
      cases e
      refine ⟨Nat.zero_le _, ?_⟩
      show 50 * rest.length - 0 ≤ 50 * g.todo.length - g.attempts
      rw [ht, List.length_cons]
      omega

theorem cost_turns (hb : Path.fileName j.params.fileName = some base) :
    ∀ (n : Nat) (g : Progress R), g.attempts ≤ 50 →
      Emits (m.traced.turns j n g) fun _ new => (j.params.verify = false → programsRun new = 0) ∧ programsRun new ≤ 2 * left g
  | 0, g, _ => (Emits.lift _).mono fun o new h => by rw [h.2]; exact ⟨fun _ => rfl, Nat.zero_le _⟩
  | n + 1, g, hg => by
    unfold Machine.turns
    refine Emits.bindOk (cost_turn m hb g hg)
      (Q := fun g' o new => match g' with
        | none => new = []
        | some g' => (j.params.verify = false → programsRun new = 0) ∧ programsRun new ≤ 2 * left g') (fun g' n1 h => ?_) ?_ ?_
    · cases g' with
      | none => exact (Emits.pure _).mono fun o new h => h.2
      | some g' => exact cost_turns hb n g' (h.2.2 g' rfl).1
    · rintro g' n1 o n2 ⟨h1, h2, h3⟩ h4
      cases g' with
      | none =>
        simp only at h4
        subst h4
        rw [List.append_nil]
        exact ⟨h1, h2⟩
      | some g' =>
        simp only at h4
        have := (h3 g' rfl).2
        refine ⟨fun h => by rw [run_append, h1 h, h4.1 h], ?_⟩
        rw [run_append]
        omega
    · rintro o o' n1 ⟨h1, h2, -⟩ -
      exact ⟨h1, h2⟩

theorem quiet_putOut (lang : Language) (dest : Option String) (item : Item) :
    Emits (m.traced.putOut lang dest item) fun _ new => programsRun new = 0 := by
  refine (emits_putOut m lang dest item).mono ?_
  rintro o new (⟨text, b, -, h, -⟩ | ⟨-, -, rfl⟩)
  · exact run_delivery h
  · rfl

theorem quiet_putTo (lang : Language) (dest : Option String) (item : Item) :
    Emits (Act.bind (Act.unwrap dest) fun f => m.traced.putOut lang (some f) item) fun _ new => programsRun new = 0 := by
  cases dest with
  | none => exact fun s t => ⟨[], (List.append_nil _).symm, rfl⟩
  | some f => exact fun s t => quiet_putOut m lang (some f) item s t

theorem quiet_original (lang : Language) (p : Params R) (ast : Json) :
    Emits (m.traced.originalAct lang p ast) fun _ new => programsRun new = 0 := by
  unfold Machine.originalAct
  split
  · split
    · exact quiet_putOut m _ _ _
    · exact quiet_putTo m _ _ _
  · exact (Emits.pure _).mono fun o new h => by rw [h.2]; rfl

theorem quiet_config (lang : Language) (p : Params R) :
    Emits (m.traced.configAct lang p) fun _ new => programsRun new = 0 := by
  unfold Machine.configAct
  split
  · split
    · refine Emits.bind (Emits.unwrap _) (fun _ => quiet_putOut m _ _ _) ?_ ?_
      · rintro a n1 o n2 ⟨-, rfl⟩ h; exact h
      · rintro o o' n1 ⟨-, rfl⟩ h; rfl
    · exact quiet_putTo m _ _ _
  · exact (Emits.pure _).mono fun o new h => by rw [h.2]; rfl

end Effort
open Effort
variable [Rand R]

/-- **C04 on machines.** After the input has been read, at most 50 mutants are given to the compiler for each mutant that was asked for,
and the compiler is asked at most twice about each; without validation no program is run any more. -/
theorem C04_compiler (m : Machine S R) (fuel : Nat) (p : Params R) (s : S) (base : String) (hb : Path.fileName p.fileName = some base) :
    ∃ rest, (m.traced.generate fuel p (s, [])).2.2 = (m.traced.reading p (s, [])).2.2 ++ rest ∧
      programsRun rest ≤ 2 * 50 * p.numberOfMutants ∧ (p.verify = false → programsRun rest = 0) := by
  rw [generate_eq]
  have hfrom : ∀ lang ast, Emits (m.traced.generateFrom fuel p lang ast) fun _ new =>
      programsRun new ≤ 2 * 50 * p.numberOfMutants ∧ (p.verify = false → programsRun new = 0) := by
    intro lang ast
    have zero : ∀ {o : Outcome Unit} {new : List Effect}, new = [] →
        programsRun new ≤ 2 * 50 * p.numberOfMutants ∧ (p.verify = false → programsRun new = 0) := by
      rintro o new rfl; exact ⟨Nat.zero_le _, fun _ => rfl⟩
    unfold Machine.generateFrom
    simp only
    split
    · exact (Emits.lift _).mono fun o new h => zero (o := o) h.2
    · refine Emits.bind (quiet_original m lang p ast) (Q := fun _ _ new => programsRun new ≤ 2 * 50 * p.numberOfMutants ∧
        (p.verify = false → programsRun new = 0)) (fun _ => ?_) ?_ ?_
      · refine Emits.bind (quiet_config m lang p) (Q := fun _ _ new => programsRun new ≤ 2 * 50 * p.numberOfMutants ∧
          (p.verify = false → programsRun new = 0)) (fun _ => ?_) ?_ ?_
        · refine Emits.bindOk (Emits.lift _) (Q := fun _ _ new => programsRun new ≤ 2 * 50 * p.numberOfMutants ∧
            (p.verify = false → programsRun new = 0)) ?_ ?_ ?_
          · rintro ⟨todo, rng⟩ n1 ⟨h1, -⟩
            have hlen := (C01_scheduled _ (countTable_keys_nodup _ _ _ _) fuel _ p.rng rng todo h1.symm)
            refine (cost_turns m hb _ { todo := todo, rng := rng } (Nat.zero_le _)).mono fun o new h => ⟨?_, h.1⟩
            have h2 := h.2
            have h3 : left ({ todo := todo, rng := rng } : Progress R) = 50 * todo.length := rfl
            rw [h3, hlen] at h2
            have := Nat.min_le_left p.numberOfMutants ((countMutableNodes ((lang.delegate m.traced.env : Lang R)).ctx
              (functionPermissions p.functions) (m.traced.shuffle (selectMutators (lang.delegate m.traced.env) p.mutations)) ast).map Prod.snd).sum
            omega
          · rintro a n1 o n2 ⟨-, rfl⟩ h; exact h
          · rintro o o' n1 ⟨-, rfl⟩ -; exact zero (o := o') rfl
        · rintro a n1 o n2 h1 h2
          rw [run_append, h1, Nat.zero_add]
          exact h2
        · rintro o o' n1 h1 -
          rw [h1]; exact ⟨Nat.zero_le _, fun _ => rfl⟩
      · rintro a n1 o n2 h1 h2
        rw [run_append, h1, Nat.zero_add]
        exact h2
      · rintro o o' n1 h1 -
        rw [h1]; exact ⟨Nat.zero_le _, fun _ => rfl⟩
  rcases hr : m.traced.reading p (s, []) with ⟨o, s1, t1⟩
  cases o with
  | ok r =>
    rw [Act.bind_of_ok hr]
    obtain ⟨new, h1, h2⟩ := hfrom r.1 r.2 s1 t1
    exact ⟨new, h1, h2⟩
  | err e => rw [Act.bind_of_fail _ hr (by simp) (fun _ => .ok ())]; exact ⟨[], by simp, Nat.zero_le _, fun _ => rfl⟩
  | panic => rw [Act.bind_of_fail _ hr (by simp) (fun _ => .ok ())]; exact ⟨[], by simp, Nat.zero_le _, fun _ => rfl⟩
  | outOfFuel => rw [Act.bind_of_fail _ hr (by simp) (fun _ => .ok ())]; exact ⟨[], by simp, Nat.zero_le _, fun _ => rfl⟩

/-- Example: a run in which the compiler is asked three times about two mutants. -/
example : programsRun (DemoMachine.trace DemoMachine.params) = 5 ∧
    programsRun (DemoMachine.machine.traced.reading DemoMachine.params (DemoMachine.disk, [])).2.2 = 2 := by decide +kernel

end Mutagenyx
