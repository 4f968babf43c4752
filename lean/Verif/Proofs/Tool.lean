import Verif.Model.Tool
import Verif.Props.Loop

/-!
# The tool on a machine and the tool in a world that answers

`Machine.generate` of `Model/Tool.lean` does to a machine what the events of `generateMutations` of `Model/Driver.lean`
say, in a world that answers as the machine does.
-/

namespace Mutagenyx

variable {S R : Type}

/-- What an event does to the machine. -/
def Machine.replayEv (m : Machine S R) (lang : Language) (file : String) (p : Prefs) : Ev → S → S
  | .tried .., s => s
  | .compiled ast _, s => (m.tryMutant lang file p ast s).2
  | .output dest item, s => (m.putOut lang dest item s).2

/-- What events do to the machine. -/
def Machine.replay (m : Machine S R) (lang : Language) (file : String) (p : Prefs) (log : List Ev) (s : S) : S :=
  log.foldl (fun s e => m.replayEv lang file p e s) s

theorem replay_append (m : Machine S R) (lang : Language) (file : String) (p : Prefs) (a b : List Ev) (s : S) :
    m.replay lang file p (a ++ b) s = m.replay lang file p b (m.replay lang file p a s) := by
  unfold Machine.replay; rw [List.foldl_append]

theorem replay_concat (m : Machine S R) (lang : Language) (file : String) (p : Prefs) (a : List Ev) (e : Ev) (s : S) :
    m.replay lang file p (a ++ [e]) s = m.replayEv lang file p e (m.replay lang file p a s) := by
  rw [replay_append]; rfl

/-- What recognizing and loading the input file yields, and the machine after it. -/
def Machine.reading (m : Machine S R) (p : Params R) : Act S (Language × Json) := do
  let (language, fileType) ← recognizeFile m.toSys p.fileName p.preferences
  let ast ← loadAst m.toSys language fileType p.fileName p.preferences
  pure (language, ast)

/-- The language that is recognized. -/
def Machine.languageOf (m : Machine S R) (p : Params R) (s : S) : Language :=
  match (recognizeFile m.toSys p.fileName p.preferences s).1 with
  | .ok (l, _) => l
  | _ => .solidity

/-- The world that answers as the machine does when it processes an input file from the given state on. -/
def Machine.world [Rand R] (m : Machine S R) (st : Start R) (p : Params R) (s : S) : World R where
  toStart := st
  lang l := l.delegate m.env
  recognize _ f pr := (recognizeFile m.toSys f pr s).1
  load _ l ft f pr := (loadAst m.toSys l ft f pr (recognizeFile m.toSys p.fileName p.preferences s).2).1
  compiles log l f pr ast :=
    (m.tryMutant l f pr ast (m.replay (m.languageOf p s) p.fileName p.preferences log (m.reading p s).2)).1
  output log dest item := (m.putOut (m.languageOf p s) dest item
    (m.replay (m.languageOf p s) p.fileName p.preferences log (m.reading p s).2)).1
  defaultCompiler := defaultCompiler
  loadJson _ f := m.readJson f s
  shuffle := m.shuffle

/-- The machine is as the events have left it, or something that failed came after them. -/
inductive Settled (m : Machine S R) (lang : Language) (file : String) (p : Prefs) (s0 : S) (log : List Ev) : S → Prop
  | done : Settled m lang file p s0 log (m.replay lang file p log s0)
  | tried (ast : Json) (h : ∀ b, (m.tryMutant lang file p ast (m.replay lang file p log s0)).1 ≠ .ok b) :
      Settled m lang file p s0 log (m.tryMutant lang file p ast (m.replay lang file p log s0)).2
  | put (dest : Option String) (item : Item)
      (h : (m.putOut lang dest item (m.replay lang file p log s0)).1 ≠ .ok ()) :
      Settled m lang file p s0 log (m.putOut lang dest item (m.replay lang file p log s0)).2

/-- The two computations do the same, the one on the machine and the other with events. -/
structure Sim (m : Machine S R) (lang : Language) (file : String) (p : Prefs) (s0 : S) {α : Type} (x : Act S α) (y : Run α)
    (log : List Ev) : Prop where
  same : (x (m.replay lang file p log s0)).1 = (y log).1
  state : ∀ a, (y log).1 = .ok a → (x (m.replay lang file p log s0)).2 = m.replay lang file p (y log).2 s0
  settled : Settled m lang file p s0 (y log).2 (x (m.replay lang file p log s0)).2

section
variable {m : Machine S R} {lang : Language} {file : String} {p : Prefs} {s0 : S} {α β : Type}

theorem Sim.bind {x : Act S α} {y : Run α} {f : α → Act S β} {g : α → Run β} {log : List Ev}
    (h1 : Sim m lang file p s0 x y log) (h2 : ∀ a log, Sim m lang file p s0 (f a) (g a) log) :
    Sim m lang file p s0 (Act.bind x f) (Run.bind y g) log := by
  obtain ⟨ha, hb, hc⟩ := h1
  rcases hx : x (m.replay lang file p log s0) with ⟨o, s⟩
  rcases hy : y log with ⟨o', log'⟩
  rw [hx, hy] at ha hb hc
  simp only at ha hb hc
  subst ha
  cases o with
  | ok a =>
    obtain ⟨h3, h4, h5⟩ := h2 a log'
    have := hb a rfl
    subst this
    refine ⟨?_, ?_, ?_⟩ <;> simp only [Act.bind, Run.bind, hx, hy] <;> assumption
  | err e =>
    refine ⟨?_, ?_, ?_⟩ <;> simp only [Act.bind, Run.bind, hx, hy]
    · intro a h; cases h
    · exact hc
  | panic =>
    refine ⟨?_, ?_, ?_⟩ <;> simp only [Act.bind, Run.bind, hx, hy]
    · intro a h; cases h
    · exact hc
  | outOfFuel =>
    refine ⟨?_, ?_, ?_⟩ <;> simp only [Act.bind, Run.bind, hx, hy]
    · intro a h; cases h
    · exact hc

theorem Sim.pure (a : α) (log : List Ev) : Sim m lang file p s0 (pure a : Act S α) (pure a : Run α) log :=
  ⟨rfl, fun _ _ => rfl, .done⟩

theorem Sim.lift (o : Outcome α) (log : List Ev) :
    Sim m lang file p s0 (Act.lift o : Act S α) (Run.lift fun _ => o) log :=
  ⟨rfl, fun _ _ => rfl, .done⟩

theorem Sim.unwrap (o : Option α) (log : List Ev) :
    Sim m lang file p s0 (Act.unwrap o : Act S α) (Mutagenyx.unwrap o) log := by
  cases o <;> exact ⟨rfl, fun _ _ => rfl, .done⟩

theorem Sim.putOut {w : World R} (dest : Option String) (item : Item) (log : List Ev)
    (hw : w.output log dest item = (m.putOut lang dest item (m.replay lang file p log s0)).1) :
    Sim m lang file p s0 (m.putOut lang dest item) (Run.emit w dest item) log := by
  rcases hx : m.putOut lang dest item (m.replay lang file p log s0) with ⟨o, s⟩
  rw [hx] at hw
  have hs : s = (m.putOut lang dest item (m.replay lang file p log s0)).2 := by rw [hx]
  have ho : o = (m.putOut lang dest item (m.replay lang file p log s0)).1 := by rw [hx]
  cases o with
  | ok u =>
    refine ⟨?_, ?_, ?_⟩ <;> simp only [Run.emit, hw, hx]
    · intro a _; rw [replay_concat]; exact hs
    · have := Settled.done (m := m) (lang := lang) (file := file) (p := p) (s0 := s0) (log := log ++ [.output dest item])
      rw [replay_concat] at this
      rw [hs]; exact this
  | err e =>
    refine ⟨?_, ?_, ?_⟩ <;> simp only [Run.emit, hw, hx]
    · intro a h; cases h
    · rw [hs]; exact .put dest item (by rw [← ho]; simp)
  | panic =>
    refine ⟨?_, ?_, ?_⟩ <;> simp only [Run.emit, hw, hx]
    · intro a h; cases h
    · rw [hs]; exact .put dest item (by rw [← ho]; simp)
  | outOfFuel =>
    refine ⟨?_, ?_, ?_⟩ <;> simp only [Run.emit, hw, hx]
    · intro a h; cases h
    · rw [hs]; exact .put dest item (by rw [← ho]; simp)
end

/-! ### The mutation loops -/

/-- How far the loops are, without the events. -/
def LoopState.progress (s : LoopState R) : Progress R := ⟨s.todo, s.written, s.attempts, s.observed, s.rng⟩

variable [Rand R]

theorem Act.bind_of_ok {α β : Type} {x : Act S α} {f : α → Act S β} {s s' : S} {a : α} (h : x s = (.ok a, s')) :
    (x >>= f) s = f a s' := by
  show Act.bind x f s = _
  simp only [Act.bind, h]

theorem Act.bind_of_fail {α β : Type} {x : Act S α} (f : α → Act S β) {s s' : S} {o : Outcome α} (h : x s = (o, s'))
    (ho : ∀ a, o ≠ .ok a) (k : α → Outcome β) : (x >>= f) s = (o >>= k, s') := by
  show Act.bind x f s = _
  cases o with
  | ok a => exact absurd rfl (ho a)
  | err e => simp only [Act.bind, h]; rfl
  | panic => simp only [Act.bind, h]; rfl
  | outOfFuel => simp only [Act.bind, h]; rfl

/-- The world answers as the machine does after the events. -/
structure Answers (m : Machine S R) (w : World R) (lang : Language) (file : String) (p : Prefs) (s0 : S) : Prop where
  compiles : ∀ log ast, w.compiles log lang file p ast = (m.tryMutant lang file p ast (m.replay lang file p log s0)).1
  output : ∀ log dest item, w.output log dest item = (m.putOut lang dest item (m.replay lang file p log s0)).1

/-- The context of the loops for a job. -/
def Job.loop (m : Machine S R) (w : World R) (j : Job R) (before : List Ev) : LoopCtx R :=
  loopCtx w (j.language.delegate m.env) j.params j.mutators j.table j.paths j.ast before

section
variable {m : Machine S R} {w : World R} {j : Job R} {before : List Ev} {s0 : S}

/-- The machine after the events. -/
def Job.after (m : Machine S R) (j : Job R) (before : List Ev) (s0 : S) (log : List Ev) : S :=
  m.replay j.language j.params.fileName j.params.preferences (before ++ log) s0

theorem after_concat (log : List Ev) (e : Ev) : j.after m before s0 (log ++ [e]) =
    m.replayEv j.language j.params.fileName j.params.preferences e (j.after m before s0 log) := by
  unfold Job.after; rw [← List.append_assoc, replay_concat]

theorem put_sim (hw : Answers m w j.language j.params.fileName j.params.preferences s0) (log : List Ev) (dest : Option String)
    (item : Item) :
    (w.output (before ++ log) dest item = .ok () ∧
      m.putOut j.language dest item (j.after m before s0 log) = (.ok (), j.after m before s0 (log ++ [.output dest item]))) ∨
    (w.output (before ++ log) dest item ≠ .ok () ∧
      (m.putOut j.language dest item (j.after m before s0 log)).1 = w.output (before ++ log) dest item ∧
      Settled m j.language j.params.fileName j.params.preferences s0 (before ++ log)
        (m.putOut j.language dest item (j.after m before s0 log)).2) := by
  have h := hw.output (before ++ log) dest item
  by_cases ho : w.output (before ++ log) dest item = .ok ()
  · left
    refine ⟨ho, ?_⟩
    rw [after_concat]
    rw [ho] at h
    exact Prod.ext h.symm rfl
  · right
    refine ⟨ho, h.symm, .put dest item ?_⟩
    rw [← h]; exact ho

theorem write_sim (hw : Answers m w j.language j.params.fileName j.params.preferences s0) (log : List Ev) (n : Nat) (ast : Json)
    (res : MutatorResult) :
    (∃ dest, (j.loop m w before).emit log n ast res = .ok dest ∧ m.writeMutant j n ast res (j.after m before s0 log) =
        (.ok (), j.after m before s0 (log ++ [.output dest (.mutant ast res)]))) ∨
    ((∀ d, (j.loop m w before).emit log n ast res ≠ .ok d) ∧
      (m.writeMutant j n ast res (j.after m before s0 log)).1 = ((j.loop m w before).emit log n ast res >>= fun _ => .ok ()) ∧
      Settled m j.language j.params.fileName j.params.preferences s0 (before ++ log)
        (m.writeMutant j n ast res (j.after m before s0 log)).2) := by
  unfold Machine.writeMutant Job.loop loopCtx
  simp only
  split
  · rcases put_sim (before := before) hw log none (.mutant ast res) with ⟨h1, h2⟩ | ⟨h1, h2, h3⟩
    · left; exact ⟨none, by rw [h1], h2⟩
    · right
      cases ho : w.output (before ++ log) none (.mutant ast res) with
      | ok u => exact absurd ho h1
      | err e => rw [ho] at h2; exact ⟨by simp, h2, h3⟩
      | panic => rw [ho] at h2; exact ⟨by simp, h2, h3⟩
      | outOfFuel => rw [ho] at h2; exact ⟨by simp, h2, h3⟩
  · simp only [Language.delegate]
    cases ht : mutantTarget j.language.ext j.params.fileName j.params.outputDirectory n with
    | none => right; exact ⟨by simp, rfl, .done⟩
    | some f =>
      have he : (Act.unwrap (some f) >>= fun f => m.putOut j.language (some f) (.mutant ast res)) (j.after m before s0 log) =
          m.putOut j.language (some f) (.mutant ast res) (j.after m before s0 log) := rfl
      rw [he]
      simp only
      rcases put_sim (before := before) hw log (some f) (.mutant ast res) with ⟨h1, h2⟩ | ⟨h1, h2, h3⟩
      · left; exact ⟨some f, by rw [h1], h2⟩
      · right
        cases ho : w.output (before ++ log) (some f) (.mutant ast res) with
        | ok u => exact absurd ho h1
        | err e => rw [ho] at h2; exact ⟨by simp, h2, h3⟩
        | panic => rw [ho] at h2; exact ⟨by simp, h2, h3⟩
        | outOfFuel => rw [ho] at h2; exact ⟨by simp, h2, h3⟩

theorem try_sim (hw : Answers m w j.language j.params.fileName j.params.preferences s0) (log : List Ev) (ast : Json) :
    (∃ b, (j.loop m w before).compiles log ast = .ok b ∧
      m.tryMutant j.language j.params.fileName j.params.preferences ast (j.after m before s0 log) =
        (.ok b, j.after m before s0 (log ++ [.compiled ast b]))) ∨
    ((∀ d, (j.loop m w before).compiles log ast ≠ .ok d) ∧
      (m.tryMutant j.language j.params.fileName j.params.preferences ast (j.after m before s0 log)).1 =
        (j.loop m w before).compiles log ast ∧
      Settled m j.language j.params.fileName j.params.preferences s0 (before ++ log)
        (m.tryMutant j.language j.params.fileName j.params.preferences ast (j.after m before s0 log)).2) := by
  have h : (j.loop m w before).compiles log ast = _ := hw.compiles (before ++ log) ast
  by_cases ho : ∃ b, (j.loop m w before).compiles log ast = .ok b
  · obtain ⟨b, ho⟩ := ho
    left
    refine ⟨b, ho, ?_⟩
    rw [after_concat]
    rw [ho] at h
    exact Prod.ext h.symm rfl
  · right
    have ho' : ∀ d, (j.loop m w before).compiles log ast ≠ .ok d := fun d e => ho ⟨d, e⟩
    refine ⟨ho', h.symm, .tried ast fun b => ?_⟩
    rw [← h]; exact ho' b

/-- How the machine stands after an iteration that ends as the one with events does. -/
def TurnIs (m : Machine S R) (j : Job R) (before : List Ev) (s0 : S) (r : Outcome (Option (Progress R)) × S) :
    Option (Outcome Unit) × LoopState R → Prop
  | (none, s') => r = (.ok (some s'.progress), j.after m before s0 s'.log)
  | (some o, s') => r.1 = (o >>= fun _ => .ok none) ∧ (o = .ok () → r.2 = j.after m before s0 s'.log) ∧
      Settled m j.language j.params.fileName j.params.preferences s0 (before ++ s'.log) r.2

theorem TurnIs.failed {o : Outcome Unit} (ho : o ≠ .ok ()) {r : Outcome (Option (Progress R)) × S} {s' : LoopState R}
    (h1 : r.1 = (o >>= fun _ => .ok none))
    (h2 : Settled m j.language j.params.fileName j.params.preferences s0 (before ++ s'.log) r.2) :
    TurnIs m j before s0 r (some o, s') := ⟨h1, fun h => absurd h ho, h2⟩

theorem keep_sim (hw : Answers m w j.language j.params.fileName j.params.preferences s0) (rest : List MutationType) (ast : Json)
    (res : MutatorResult) (r : R) (t : MutationType) (written attempts : Nat) (observed : List MutatorResult) (rng : R)
    (log2 : List Ev) : TurnIs m j before s0
      (m.keep j ⟨t :: rest, written, attempts, observed, rng⟩ rest ast res r (j.after m before s0 log2))
      (match (j.loop m w before).emit log2 written ast res with
        | .err e => (some (.err e), (⟨t :: rest, written, attempts, observed, r, log2⟩ : LoopState R))
        | .panic => (some .panic, ⟨t :: rest, written, attempts, observed, r, log2⟩)
        | .outOfFuel => (some .outOfFuel, ⟨t :: rest, written, attempts, observed, r, log2⟩)
        | .ok dest => (none, ⟨rest, written + 1, 0, observed ++ [res], r, log2 ++ [.output dest (.mutant ast res)]⟩)) := by
  unfold Machine.keep
  rcases write_sim (before := before) hw log2 written ast res with ⟨dest, h1, h2⟩ | ⟨h1, h2, h3⟩
  · rw [h1, Act.bind_of_ok h2]; rfl
  · cases he : (j.loop m w before).emit log2 written ast res with
    | ok d => exact absurd he (h1 d)
    | err e =>
      rw [he] at h2
      rw [Act.bind_of_fail _ (Prod.ext h2 rfl) (by simp) (fun _ => .ok none)]
      exact .failed (by simp) rfl h3
    | panic =>
      rw [he] at h2
      rw [Act.bind_of_fail _ (Prod.ext h2 rfl) (by simp) (fun _ => .ok none)]
      exact .failed (by simp) rfl h3
    | outOfFuel =>
      rw [he] at h2
      rw [Act.bind_of_fail _ (Prod.ext h2 rfl) (by simp) (fun _ => .ok none)]
      exact .failed (by simp) rfl h3

/-- One iteration does the same in both. -/
theorem turn_sim (hw : Answers m w j.language j.params.fileName j.params.preferences s0) (s : LoopState R) :
    TurnIs m j before s0 (m.turn j s.progress (j.after m before s0 s.log)) (mutStep (j.loop m w before) s) := by
  rcases s with ⟨todo, written, attempts, observed, rng, log⟩
  show TurnIs m j before s0 (m.turn j ⟨todo, written, attempts, observed, rng⟩ (j.after m before s0 log)) _
  unfold mutStep Machine.turn
  cases todo with
  | nil => exact ⟨rfl, fun _ => rfl, .done⟩
  | cons t rest =>
    simp only
    by_cases ha : attempts < maxAttempts
    · simp only [if_pos ha]
      have hcount : (j.loop m w before).count t = j.table.get? t := rfl
      rw [hcount]
      cases hn : j.table.get? t with
      | none => exact .failed (by simp) rfl .done
      | some n =>
        have hn' : (Act.unwrap (some n) : Act S Nat) (j.after m before s0 log) = (.ok n, j.after m before s0 log) := rfl
        rw [Act.bind_of_ok hn']
        have hmut : (j.loop m w before).mutate t (pickIndex n rng).1 (pickIndex n rng).2 =
          mutateAst (j.language.delegate m.env) j.mutators (functionPermissions j.params.functions) j.paths j.ast t
            (pickIndex n rng).1 (pickIndex n rng).2 := rfl
        simp only
        rw [hmut]
        cases hm : mutateAst (j.language.delegate m.env) j.mutators (functionPermissions j.params.functions) j.paths j.ast t
            (pickIndex n rng).1 (pickIndex n rng).2 with
        | err e => exact .failed (by simp) rfl .done
        | panic => exact .failed (by simp) rfl .done
        | outOfFuel => exact .failed (by simp) rfl .done
        | ok r =>
          obtain ⟨ast, res, r⟩ := r
          have hm' : (Act.lift (.ok (ast, res, r)) : Act S (Json × MutatorResult × R)) (j.after m before s0 log) =
            (.ok (ast, res, r), j.after m before s0 log) := rfl
          rw [Act.bind_of_ok hm']
          simp only
          have hlog : j.after m before s0 log =
              j.after m before s0 (log ++ [.tried (t :: rest).length t (pickIndex n rng).1 res ast]) := by
            rw [after_concat]; rfl
          by_cases hob : observed.contains res = true
          · simp only [if_pos hob]
            exact Prod.ext rfl hlog
          · simp only [if_neg hob]
            rw [hlog]
            generalize log ++ [.tried (t :: rest).length t (pickIndex n rng).1 res ast] = log1
            have hv : (j.loop m w before).verify = j.params.verify := rfl
            rw [hv]
            have hwrite := keep_sim (before := before) hw rest ast res r t written attempts observed rng
            unfold Machine.judge
            by_cases hver : j.params.verify = true
            · simp only [if_pos hver]
              rcases try_sim (before := before) hw log1 ast with ⟨b, h1, h2⟩ | ⟨h1, h2, h3⟩
              · rw [h1, Act.bind_of_ok h2]
                cases b with
                | false => rfl
                | true => exact hwrite _
              · cases hc : (j.loop m w before).compiles log1 ast with
                | ok d => exact absurd hc (h1 d)
                | err e =>
                  rw [hc] at h2
                  rw [Act.bind_of_fail _ (Prod.ext h2 rfl) (by simp) (fun _ => .ok none)]
                  exact .failed (by simp) rfl h3
                | panic =>
                  rw [hc] at h2
                  rw [Act.bind_of_fail _ (Prod.ext h2 rfl) (by simp) (fun _ => .ok none)]
                  exact .failed (by simp) rfl h3
                | outOfFuel =>
                  rw [hc] at h2
                  rw [Act.bind_of_fail _ (Prod.ext h2 rfl) (by simp) (fun _ => .ok none)]
                  exact .failed (by simp) rfl h3
            · simp only [if_neg hver]
              exact hwrite _
    · simp only [if_neg ha]
      rfl

/-- The loops do the same in both. -/
theorem turns_sim (hw : Answers m w j.language j.params.fileName j.params.preferences s0) :
    ∀ (n : Nat) (s : LoopState R) (o : Outcome Unit) (s' : LoopState R), mutLoop (j.loop m w before) n s = some (o, s') →
      (m.turns j n s.progress (j.after m before s0 s.log)).1 = o ∧
      (o = .ok () → (m.turns j n s.progress (j.after m before s0 s.log)).2 = j.after m before s0 s'.log) ∧
      Settled m j.language j.params.fileName j.params.preferences s0 (before ++ s'.log)
        (m.turns j n s.progress (j.after m before s0 s.log)).2
  | 0, s, o, s', h => by cases h
  | n + 1, s, o, s', h => by
    have ht := turn_sim (before := before) hw s
    unfold mutLoop at h
    unfold Machine.turns
    rcases hs : mutStep (j.loop m w before) s with ⟨o1, s1⟩
    rw [hs] at h ht
    cases o1 with
    | none =>
      rw [Act.bind_of_ok ht]
      exact turns_sim hw n s1 o s' h
    | some o1 =>
      injection h with h
      injection h with h1 h2
      subst h1; subst h2
      obtain ⟨h3, h4, h5⟩ := ht
      cases o1 with
      | ok u =>
        rw [Act.bind_of_ok (a := none) (Prod.ext h3 rfl)]
        exact ⟨rfl, h4, h5⟩
      | err e =>
        rw [Act.bind_of_fail _ (Prod.ext h3 rfl) (by simp) (fun _ => .ok ())]
        exact ⟨rfl, by simp, h5⟩
      | panic =>
        rw [Act.bind_of_fail _ (Prod.ext h3 rfl) (by simp) (fun _ => .ok ())]
        exact ⟨rfl, by simp, h5⟩
      | outOfFuel =>
        rw [Act.bind_of_fail _ (Prod.ext h3 rfl) (by simp) (fun _ => .ok ())]
        exact ⟨rfl, by simp, h5⟩

theorem phase_sim (hw : Answers m w j.language j.params.fileName j.params.preferences s0) (todo : List MutationType) (rng : R)
    (log : List Ev) :
    Sim m j.language j.params.fileName j.params.preferences s0 (m.turns j (51 * todo.length + 1) { todo := todo, rng := rng })
      (mutationPhase w (j.language.delegate m.env) j.params j.mutators j.table j.paths j.ast todo rng) log := by
  obtain ⟨⟨o, s'⟩, h1, -⟩ := C04_loop_ends (j.loop m w log) todo rng
  have h := turns_sim (before := log) hw _ _ o s' h1
  have hp : mutationPhase w (j.language.delegate m.env) j.params j.mutators j.table j.paths j.ast todo rng log =
      (o, log ++ s'.log) := by
    unfold mutationPhase
    unfold Job.loop at h1
    rw [h1]
  have ha : j.after m log s0 [] = m.replay j.language j.params.fileName j.params.preferences log s0 := by
    unfold Job.after; rw [List.append_nil]
  simp only [LoopState.progress, ha] at h
  refine ⟨?_, ?_, ?_⟩
  · rw [hp]; exact h.1
  · rw [hp]; intro a hok; exact h.2.1 hok
  · rw [hp]; exact h.2.2

end

/-! ### The whole of one input file -/

section
variable {m : Machine S R} {w : World R} {lang : Language} {p : Params R} {s0 : S}

theorem original_sim (hw : Answers m w lang p.fileName p.preferences s0) (ast : Json) (log : List Ev) :
    Sim m lang p.fileName p.preferences s0 (m.originalAct lang p ast)
      (printOriginalStep w (lang.delegate m.env) p ast) log := by
  unfold Machine.originalAct printOriginalStep
  split
  · split
    · exact Sim.putOut _ _ _ (hw.output _ _ _)
    · exact (Sim.unwrap _ _).bind fun f log => Sim.putOut _ _ _ (hw.output _ _ _)
  · exact Sim.pure _ _

theorem config_sim (hw : Answers m w lang p.fileName p.preferences s0) (hd : w.defaultCompiler = defaultCompiler) (log : List Ev) :
    Sim m lang p.fileName p.preferences s0 (m.configAct lang p) (saveConfigStep w (lang.delegate m.env) p) log := by
  unfold Machine.configAct saveConfigStep
  rw [hd]
  split
  · refine (Sim.unwrap _ _).bind fun f log => ?_
    split
    · exact Sim.putOut _ _ _ (hw.output _ _ _)
    · exact Sim.putOut _ _ _ (hw.output _ _ _)
  · exact Sim.pure _ _

/-- What is done once the syntax tree is there. -/
def Machine.generateFrom (m : Machine S R) (fuel : Nat) (p : Params R) (language : Language) (ast : Json) : Act S Unit :=
  let lang : Lang R := language.delegate m.env
  let ps := functionPermissions p.functions
  let ms := m.shuffle (selectMutators lang p.mutations)
  let table := countMutableNodes lang.ctx ps ms ast
  let paths := calculateNodePaths lang.ctx ps ast
  if table.isEmpty then Act.lift (.err .noMutableNode)
  else do
    m.originalAct language p ast
    m.configAct language p
    let (todo, rng) ← Act.lift (selectAlgorithms fuel table p.numberOfMutants p.rng)
    m.turns ⟨language, p, ms, table, paths, ast⟩ (51 * todo.length + 1) { todo := todo, rng := rng }

theorem generate_eq (m : Machine S R) (fuel : Nat) (p : Params R) (s : S) :
    m.generate fuel p s = (m.reading p >>= fun r => m.generateFrom fuel p r.1 r.2) s := by
  show Act.bind _ _ s = Act.bind (Act.bind _ _) _ s
  simp only [Act.bind]
  rcases recognizeFile m.toSys p.fileName p.preferences s with ⟨o, s1⟩
  cases o with
  | ok r =>
    simp only [bind, Act.bind]
    rcases loadAst m.toSys r.1 r.2 p.fileName p.preferences s1 with ⟨o2, s2⟩
    cases o2 <;> rfl
  | err e => rfl
  | panic => rfl
  | outOfFuel => rfl

/-- The events once the syntax tree is there. -/
def eventsFrom (w : World R) (fuel : Nat) (p : Params R) (language : Language) (ast : Json) : Run Unit :=
  let lang := w.lang language
  let ps := functionPermissions p.functions
  let ms := w.shuffle (selectMutators lang p.mutations)
  let table := countMutableNodes lang.ctx ps ms ast
  let paths := calculateNodePaths lang.ctx ps ast
  if table.isEmpty then Run.lift fun _ => .err .noMutableNode
  else do
    printOriginalStep w lang p ast
    saveConfigStep w lang p
    let (todo, rng) ← Run.lift fun _ => selectAlgorithms fuel table p.numberOfMutants p.rng
    mutationPhase w lang p ms table paths ast todo rng

theorem from_sim (hw : Answers m w lang p.fileName p.preferences s0) (hd : w.defaultCompiler = defaultCompiler)
    (hl : w.lang lang = lang.delegate m.env) (hs : w.shuffle = m.shuffle) (fuel : Nat) (ast : Json) (log : List Ev) :
    Sim m lang p.fileName p.preferences s0 (m.generateFrom fuel p lang ast) (eventsFrom w fuel p lang ast) log := by
  unfold Machine.generateFrom eventsFrom
  rw [hl, hs]
  simp only
  split
  · exact Sim.lift _ _
  · refine (original_sim hw ast log).bind fun _ log => (config_sim hw hd log).bind fun _ log => (Sim.lift _ _).bind fun r log => ?_
    exact phase_sim (j := ⟨lang, p, _, _, _, ast⟩) hw r.1 r.2 log

end

theorem generateMutations_eq (w : World R) (fuel : Nat) (p : Params R) (log : List Ev) (lang : Language) (ft : FileType)
    (o : Outcome Json) (h : w.recognize log p.fileName p.preferences = .ok (lang, ft))
    (hc : ft = .config → o = .err .configFileNotSupported) (hn : w.load log lang ft p.fileName p.preferences = o) :
    generateMutations w fuel p log = Run.bind (Run.lift fun _ => o) (eventsFrom w fuel p lang) log := by
  unfold generateMutations
  rw [Run.bind_def]
  simp only [Run.lift, h]
  cases ft with
  | config => rw [hc rfl]; rfl
  | source => subst hn; rfl
  | ast => subst hn; rfl

/-- How `Machine.generate` relates to the events of `generateMutations`. -/
theorem generate_sim (m : Machine S R) (st : Start R) (fuel : Nat) (p : Params R) (s : S) :
    let w := m.world st p s
    (m.generate fuel p s).1 = (generateMutations w fuel p []).1 ∧
    (∀ lang ast, (m.reading p s).1 = .ok (lang, ast) →
      m.languageOf p s = lang ∧
      ((m.generate fuel p s).1 = .ok () → (m.generate fuel p s).2 =
        m.replay lang p.fileName p.preferences (generateMutations w fuel p []).2 (m.reading p s).2) ∧
      Settled m lang p.fileName p.preferences (m.reading p s).2 (generateMutations w fuel p []).2 (m.generate fuel p s).2) ∧
    ((∀ r, (m.reading p s).1 ≠ .ok r) → (generateMutations w fuel p []).2 = [] ∧ (m.generate fuel p s).2 = (m.reading p s).2) := by
  intro w
  rw [generate_eq]
  have hw : w = m.world st p s := rfl
  rcases hr : recognizeFile m.toSys p.fileName p.preferences s with ⟨o, s1⟩
  have hwr : w.recognize [] p.fileName p.preferences = o := by
    show (recognizeFile m.toSys p.fileName p.preferences s).1 = o
    rw [hr]
  cases o with
  | err e =>
    have hrd : m.reading p s = (.err e, s1) := Act.bind_of_fail _ hr (by simp) (fun _ => .panic)
    have hg : generateMutations w fuel p [] = (.err e, []) := by
      unfold generateMutations; rw [Run.bind_def]; simp only [Run.lift, hwr]
    rw [Act.bind_of_fail _ hrd (by simp) (fun _ => .ok ()), hg, hrd]
    exact ⟨rfl, by simp, by simp⟩
  | panic =>
    have hrd : m.reading p s = (.panic, s1) := Act.bind_of_fail _ hr (by simp) (fun _ => .panic)
    have hg : generateMutations w fuel p [] = (.panic, []) := by
      unfold generateMutations; rw [Run.bind_def]; simp only [Run.lift, hwr]
    rw [Act.bind_of_fail _ hrd (by simp) (fun _ => .ok ()), hg, hrd]
    exact ⟨rfl, by simp, by simp⟩
  | outOfFuel =>
    have hrd : m.reading p s = (.outOfFuel, s1) := Act.bind_of_fail _ hr (by simp) (fun _ => .panic)
    have hg : generateMutations w fuel p [] = (.outOfFuel, []) := by
      unfold generateMutations; rw [Run.bind_def]; simp only [Run.lift, hwr]
    rw [Act.bind_of_fail _ hrd (by simp) (fun _ => .ok ()), hg, hrd]
    exact ⟨rfl, by simp, by simp⟩
  | ok r =>
    obtain ⟨lang, ft⟩ := r
    have hlang : m.languageOf p s = lang := by unfold Machine.languageOf; rw [hr]
    rcases hl : loadAst m.toSys lang ft p.fileName p.preferences s1 with ⟨o2, s2⟩
    have hrd1 : m.reading p s = (do
        let ast ← loadAst m.toSys lang ft p.fileName p.preferences
        pure (lang, ast) : Act S (Language × Json)) s1 := Act.bind_of_ok hr
    have hlc : ft = .config → o2 = .err .configFileNotSupported := by
      rintro rfl
      exact (congrArg Prod.fst hl).symm
    have hln : w.load [] lang ft p.fileName p.preferences = o2 := by
      show (loadAst m.toSys lang ft p.fileName p.preferences (recognizeFile m.toSys p.fileName p.preferences s).2).1 = o2
      rw [hr, hl]
    have hg1 := generateMutations_eq w fuel p [] lang ft o2 hwr hlc hln
    cases o2 with
    | err e =>
      have hrd : m.reading p s = (.err e, s2) := hrd1.trans (Act.bind_of_fail _ hl (by simp) (fun _ => .panic))
      rw [Act.bind_of_fail _ hrd (by simp) (fun _ => .ok ()), hg1, hrd]
      simp only [Run.bind, Run.lift]
      exact ⟨rfl, by simp, by simp⟩
    | panic =>
      have hrd : m.reading p s = (.panic, s2) := hrd1.trans (Act.bind_of_fail _ hl (by simp) (fun _ => .panic))
      rw [Act.bind_of_fail _ hrd (by simp) (fun _ => .ok ()), hg1, hrd]
      simp only [Run.bind, Run.lift]
      exact ⟨rfl, by simp, by simp⟩
    | outOfFuel =>
      have hrd : m.reading p s = (.outOfFuel, s2) := hrd1.trans (Act.bind_of_fail _ hl (by simp) (fun _ => .panic))
      rw [Act.bind_of_fail _ hrd (by simp) (fun _ => .ok ()), hg1, hrd]
      simp only [Run.bind, Run.lift]
      exact ⟨rfl, by simp, by simp⟩
    | ok ast =>
      have hrd : m.reading p s = (.ok (lang, ast), s2) := hrd1.trans (Act.bind_of_ok hl)
      have hans : Answers m w lang p.fileName p.preferences s2 := by
        constructor
        · intro log ast
          show (m.tryMutant lang p.fileName p.preferences ast
            (m.replay (m.languageOf p s) p.fileName p.preferences log (m.reading p s).2)).1 = _
          rw [hlang, hrd]
        · intro log dest item
          show (m.putOut (m.languageOf p s) dest item
            (m.replay (m.languageOf p s) p.fileName p.preferences log (m.reading p s).2)).1 = _
          rw [hlang, hrd]
      have hsim := from_sim hans rfl rfl rfl fuel ast []
      rw [Act.bind_of_ok hrd, hg1, hrd]
      simp only [Run.bind, Run.lift]
      obtain ⟨h1, h2, h3⟩ := hsim
      refine ⟨h1, ?_, fun h => absurd rfl (h (lang, ast))⟩
      intro lang' ast' he
      injection he with he
      injection he with e1 e2
      subst e1; subst e2
      exact ⟨hlang, fun h => h2 () (h1.symm.trans h), h3⟩

end Mutagenyx
