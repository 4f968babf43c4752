import Verif.Props.Results
import Verif.Props.SyntaxTree
import Verif.Props.Selection
import Verif.Props.Visitor
import Verif.Props.Languages
import Verif.Proofs.ListedExact
import Verif.Spec.Command

/-! # Lemmas about how a run for one input ends -/

namespace Mutagenyx
open Json

variable {S R : Type}

/-- The tree passes the check that the tool makes of the trees of the language, whatever nodes in it are mutated. -/
def RootOf : Language → Json → Prop
  | .solidity, j => getStrForKey "nodeType" j = some "SourceUnit"
  | .vyper, j => SyntaxTree.VyperRoot j

/-- From every state the computation ends well, with a value as in `P`, or is cut off for the reason `C`. -/
def Act.Ends {α : Type} (C : Prop) (P : α → Prop) (x : Act S α) : Prop :=
  ∀ s, (∃ a s', x s = (.ok a, s') ∧ P a) ∨ (x s).1 = .outOfFuel ∧ C

namespace Act
variable {α β : Type} {C : Prop}

theorem Ends.bind {P : α → Prop} {Q : β → Prop} {x : Act S α} {f : α → Act S β} (hx : x.Ends C P) (hf : ∀ a, P a → (f a).Ends C Q) :
    (x >>= f).Ends C Q := by
  intro s
  rcases hx s with ⟨a, s', h, hp⟩ | ⟨h, hc⟩
  · rw [bind_of_ok h]
    exact hf a hp s'
  · refine Or.inr ⟨?_, hc⟩
    rw [bind_of_fail f (Prod.ext h rfl) (by simp) (fun _ => .outOfFuel)]
    rfl

theorem Ends.pure {P : α → Prop} {a : α} (h : P a) : (Pure.pure a : Act S α).Ends C P := fun s => Or.inl ⟨a, s, rfl, h⟩

theorem Ends.lift {P : α → Prop} {o : Outcome α} (h : (∃ a, o = .ok a ∧ P a) ∨ o = .outOfFuel ∧ C) : (lift o : Act S α).Ends C P := by
  intro s
  rcases h with ⟨a, rfl, h⟩ | ⟨rfl, hc⟩
  · exact Or.inl ⟨a, s, rfl, h⟩
  · exact Or.inr ⟨rfl, hc⟩

end Act

variable [Rand R]

namespace RunEnds

theorem deliver_ends {C : Prop} (m : Machine S R) (dest : Option String) (text : String)
    (h : ∀ f, dest = some f → ∀ s, (m.write f text s).1 = true) : (m.deliver dest text).Ends C fun _ => True := by
  cases dest with
  | none => exact fun s => Or.inl ⟨(), _, rfl, trivial⟩
  | some f =>
    intro s
    refine Or.inl ⟨(), (m.write f text s).2, ?_, trivial⟩
    have : m.toSys.create f text s = (.ok true, (m.write f text s).2) := by
      show ((Outcome.ok (m.write f text s).1, (m.write f text s).2) : Outcome Bool × S) = _
      rw [h f rfl s]
    show (m.toSys.create f text >>= _) s = _
    rw [Act.bind_of_ok this]
    rfl

theorem putOut_ends {C : Prop} (m : Machine S R) (lang : Language) (dest : Option String) (item : Item)
    (ht : ∃ text, m.text lang item = .ok text) (h : ∀ f, dest = some f → ∀ text s, (m.write f text s).1 = true) :
    (m.putOut lang dest item).Ends C fun _ => True := by
  obtain ⟨text, ht⟩ := ht
  refine Act.Ends.bind (P := fun _ => True) (Act.Ends.lift (Or.inl ⟨text, ht, trivial⟩)) fun a _ => ?_
  exact deliver_ends m dest a fun f hf s => h f hf a s

theorem unwrap_ends {α : Type} {C : Prop} {P : α → Prop} {o : Option α} {a : α} (h : o = some a) (hp : P a) :
    (Act.unwrap o : Act S α).Ends C P := Act.Ends.lift (Or.inl ⟨a, by rw [h], hp⟩)

theorem ext_eq (lang : Language) : lang.ext = suffixOf lang := by cases lang <;> rfl

variable {m : Machine S R} {p : Params R} {base : String} {lang : Language} {ast : Json} {C : Prop}

theorem original_ends (hb : Path.fileName p.fileName = some base) (hwrite : ∀ f text s, WrittenBy p f → (m.write f text s).1 = true)
    (horig : p.printOriginal = true → ∃ text, m.print lang ast = .ok text) : (m.originalAct lang p ast).Ends C fun _ => True := by
  unfold Machine.originalAct
  split
  · rename_i ho
    split
    · exact putOut_ends m lang none _ (horig ho) (by simp)
    · rename_i hs
      have ht : ∃ f, printTarget lang.ext p.fileName p.outputDirectory = some f := by
        unfold printTarget
        rw [hb]
        exact ⟨_, rfl⟩
      obtain ⟨f, ht⟩ := ht
      refine Act.Ends.bind (unwrap_ends (P := fun x => x = f) ht rfl) fun a ha => ?_
      subst ha
      refine putOut_ends m lang _ _ (horig ho) fun g hg text s => hwrite g text s ?_
      cases hg
      exact ⟨by simpa using hs, lang, Or.inl ⟨ho, by rw [← ext_eq]; exact ht⟩⟩
  · exact Act.Ends.pure trivial

theorem config_ends (hb : Path.fileName p.fileName = some base) (hwrite : ∀ f text s, WrittenBy p f → (m.write f text s).1 = true) :
    (m.configAct lang p).Ends C fun _ => True := by
  unfold Machine.configAct
  split
  · rename_i ho
    have ht : ∃ f, configTarget p.fileName p.outputDirectory = some f := by
      unfold configTarget
      rw [hb]
      exact ⟨_, rfl⟩
    obtain ⟨f, ht⟩ := ht
    refine Act.Ends.bind (unwrap_ends (P := fun x => x = f) ht rfl) fun a ha => ?_
    subst ha
    split
    · exact putOut_ends m lang none _ ⟨_, rfl⟩ (by simp)
    · rename_i hs
      refine putOut_ends m lang _ _ ⟨_, rfl⟩ fun g hg text s => hwrite g text s ?_
      cases hg
      exact ⟨by simpa using hs, lang, Or.inr (Or.inl ⟨ho, ht⟩)⟩
  · exact Act.Ends.pure trivial

theorem write_ends {j : Job R} (hj : j.params = p) (hl : j.language = lang) (hb : Path.fileName p.fileName = some base)
    (hwrite : ∀ f text s, WrittenBy p f → (m.write f text s).1 = true) (n : Nat) (mutant : Json) (res : MutatorResult)
    (hp : ∃ text, m.print lang mutant = .ok text) : (m.writeMutant j n mutant res).Ends C fun _ => True := by
  subst hj hl
  unfold Machine.writeMutant
  split
  · exact putOut_ends m _ none _ hp (by simp)
  · rename_i hs
    have ht := mutantTarget_eq (ext := j.language.ext) (outDir := j.params.outputDirectory) (ToolProps.plainExt j.language) hb n
    refine Act.Ends.bind (unwrap_ends (P := fun x => x = _) ht rfl) fun a ha => ?_
    subst ha
    refine putOut_ends m _ _ _ hp fun g hg text s => hwrite g text s ?_
    cases hg
    exact ⟨by simpa using hs, j.language, Or.inr (Or.inr ⟨n, base, hb, by rw [ext_eq]⟩)⟩

omit [Rand R] in
theorem compiles_ends (sys : Sys S) (lang : Language) {input : String} (text : String) (pr : Prefs)
    (hb : Path.fileName input = some base) : (mutantCompiles sys lang input text pr).Ends C fun _ => True := by
  have hr : ∀ a b, (sys.run a b).Ends C fun _ => True := fun a b s => Or.inl ⟨_, _, rfl, trivial⟩
  unfold mutantCompiles
  refine Act.Ends.bind (unwrap_ends (P := fun _ => True) hb trivial) fun a _ => ?_
  refine Act.Ends.bind (P := fun _ => True) (fun s => Or.inl ⟨_, _, rfl, trivial⟩) fun b _ => ?_
  cases b with
  | false => exact Act.Ends.pure trivial
  | true =>
    refine Act.Ends.bind (P := fun _ => True) ?_ fun b _ => fun s => Or.inl ⟨_, _, rfl, trivial⟩
    cases lang
    all_goals
      unfold fileCompiles
      refine Act.Ends.bind (hr _ _) fun b _ => ?_
      split
      · exact Act.Ends.pure trivial
      · exact Act.Ends.bind (hr _ _) fun b _ => Act.Ends.pure trivial

/-- How much is left to do. -/
def left (g : Progress R) : Nat := 51 * g.todo.length - g.attempts

/-- One iteration ends well, with less left to do. -/
theorem turn_ends {j : Job R} (hj : j.params = p) (hl : j.language = lang) (hb : Path.fileName p.fileName = some base)
    (hwrite : ∀ f text s, WrittenBy p f → (m.write f text s).1 = true) (g : Progress R) (ha : g.attempts ≤ 50)
    (hcount : ∀ t ∈ g.todo, ∃ n, 0 < n ∧ j.table.get? t = some n)
    (hmake : ∀ t n i r, j.table.get? t = some n → i < n →
      (∃ mutant res r', mutateAst (j.language.delegate m.env) j.mutators (functionPermissions j.params.functions) j.paths j.ast t i r =
        .ok (mutant, res, r') ∧ ∃ text, m.print lang mutant = .ok text) ∨
      mutateAst (j.language.delegate m.env) j.mutators (functionPermissions j.params.functions) j.paths j.ast t i r = .outOfFuel ∧ C) :
    (m.turn j g).Ends C fun o => (o = none ∧ g.todo = []) ∨ ∃ g', o = some g' ∧ g'.attempts ≤ 50 ∧ (∀ t ∈ g'.todo, t ∈ g.todo) ∧
      left g' < left g := by
  unfold Machine.turn
  split
  · rename_i h0
    exact Act.Ends.pure (Or.inl ⟨rfl, h0⟩)
  · rename_i t rest htodo
    have hleft : left g = 51 * (rest.length + 1) - g.attempts := by unfold left; rw [htodo]; rfl
    split
    · rename_i hlt
      replace hlt : g.attempts < 50 := hlt
      obtain ⟨n, hn, hget⟩ := hcount t (by rw [htodo]; simp)
      refine Act.Ends.bind (unwrap_ends (P := fun x => x = n) hget rfl) fun n' hn' => ?_
      subst hn'
      have again : ∀ r, ∃ g' : Progress R, some { g with rng := r, attempts := g.attempts + 1 } = some g' ∧ g'.attempts ≤ 50 ∧
          (∀ t ∈ g'.todo, t ∈ g.todo) ∧ left g' < left g := fun r => by
        refine ⟨_, rfl, hlt, fun _ h => h, ?_⟩
        rw [hleft]
        show 51 * g.todo.length - (g.attempts + 1) < _
        rw [htodo, List.length_cons]
        omega
      refine Act.Ends.bind (P := fun x => ∃ text, m.print lang x.1 = .ok text) (Act.Ends.lift ?_) fun x hx => ?_
      · rcases hmake t n' _ _ hget (pickIndex_lt hn g.rng) with ⟨mutant, res, r', h1, h2⟩ | h1
        · exact Or.inl ⟨_, h1, h2⟩
        · exact Or.inr h1
      · obtain ⟨mutant, res, r⟩ := x
        simp only
        split
        · exact Act.Ends.pure (Or.inr (again r))
        · have hkeep : (m.keep j g rest mutant res r).Ends C fun o => (o = none ∧ g.todo = []) ∨ ∃ g', o = some g' ∧
              g'.attempts ≤ 50 ∧ (∀ t ∈ g'.todo, t ∈ g.todo) ∧ left g' < left g := by
            unfold Machine.keep
            refine Act.Ends.bind (write_ends hj hl hb hwrite _ mutant res hx) fun _ _ => Act.Ends.pure (Or.inr ?_)
            refine ⟨_, rfl, by simp, fun u hu => by rw [htodo]; exact List.mem_cons_of_mem _ hu, ?_⟩
            rw [hleft]
            show 51 * rest.length - 0 < _
            omega
          unfold Machine.judge
          split
          · refine Act.Ends.bind (P := fun _ => True) ?_ fun good _ => ?_
            · unfold Machine.tryMutant
              obtain ⟨text, hx⟩ := hx
              subst hj hl
              refine Act.Ends.bind (P := fun _ => True) (Act.Ends.lift (Or.inl ⟨text, hx, trivial⟩)) fun a _ => ?_
              exact compiles_ends m.toSys _ a _ hb
            · split
              · exact hkeep
              · exact Act.Ends.pure (Or.inr (again r))
          · exact hkeep
    · rename_i hge
      replace hge : ¬ g.attempts < 50 := hge
      refine Act.Ends.pure (Or.inr ⟨_, rfl, by simp, fun u hu => by rw [htodo]; exact List.mem_cons_of_mem _ hu, ?_⟩)
      rw [hleft]
      show 51 * rest.length - 0 < _
      omega

theorem turns_ends {j : Job R} (hj : j.params = p) (hl : j.language = lang) (hb : Path.fileName p.fileName = some base)
    (hwrite : ∀ f text s, WrittenBy p f → (m.write f text s).1 = true)
    (hmake : ∀ t n i r, j.table.get? t = some n → i < n →
      (∃ mutant res r', mutateAst (j.language.delegate m.env) j.mutators (functionPermissions j.params.functions) j.paths j.ast t i r =
        .ok (mutant, res, r') ∧ ∃ text, m.print lang mutant = .ok text) ∨
      mutateAst (j.language.delegate m.env) j.mutators (functionPermissions j.params.functions) j.paths j.ast t i r = .outOfFuel ∧ C) :
    ∀ (n : Nat) (g : Progress R), left g < n → g.attempts ≤ 50 → (∀ t ∈ g.todo, ∃ n, 0 < n ∧ j.table.get? t = some n) →
      (m.turns j n g).Ends C fun _ => True
  | 0, g, h, _, _ => by omega
  | n + 1, g, h, ha, hc => by
    unfold Machine.turns
    refine Act.Ends.bind (turn_ends hj hl hb hwrite g ha hc hmake) fun o ho => ?_
    rcases ho with ⟨rfl, _⟩ | ⟨g', rfl, h1, h2, h3⟩
    · exact Act.Ends.pure trivial
    · exact turns_ends hj hl hb hwrite hmake n g' (by omega) h1 fun t ht => hc t (h2 t ht)

end RunEnds
end Mutagenyx
