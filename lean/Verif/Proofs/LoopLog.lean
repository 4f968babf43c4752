import Verif.Proofs.Loop

/-! From rounds to the log: helper lemmas for C04-C07 and C13. -/

namespace Mutagenyx
variable {R : Type}

/-- Where an event of a history sits. -/
theorem split_log (v : Bool) (rounds : List Round) (tail pre post : List Ev) (e : Ev)
    (h : logOf v rounds ++ tail = pre ++ e :: post) :
    (∃ r1 r r2 a b, rounds = r1 ++ r :: r2 ∧ r.events v = a ++ e :: b ∧ pre = logOf v r1 ++ a ∧
      post = b ++ (logOf v r2 ++ tail)) ∨
    (∃ a b, tail = a ++ e :: b ∧ pre = logOf v rounds ++ a ∧ post = b) := by
  induction rounds generalizing pre with
  | nil => right; exact ⟨pre, post, by simpa [logOf] using h, by simp [logOf], rfl⟩
  | cons r rs ih =>
    have hl : logOf v (r :: rs) = r.events v ++ logOf v rs := by simp [logOf]
    rw [hl, List.append_assoc] at h
    rcases List.append_eq_append_iff.1 h with ⟨a, h1, h2⟩ | ⟨b, h1, h2⟩
    · rcases ih a h2 with ⟨r1, r', r2, x, y, e1, e2, e3, e4⟩ | ⟨x, y, e1, e2, e3⟩
      · left
        exact ⟨r :: r1, r', r2, x, y, by rw [e1]; rfl, e2, by rw [h1, e3]; simp [logOf], e4⟩
      · right
        exact ⟨x, y, e1, by rw [h1, e2, hl]; simp, e3⟩
    · -- the event is in the first round, or the split is at its end
      cases b with
      | nil =>
        simp only [List.append_nil, List.nil_append] at h1 h2
        have h2' : logOf v rs ++ tail = [] ++ e :: post := by simpa using h2.symm
        rcases ih [] h2' with ⟨r1, r', r2, x, y, e1, e2, e3, e4⟩ | ⟨x, y, e1, e2, e3⟩
        · left
          exact ⟨r :: r1, r', r2, x, y, by rw [e1]; rfl, e2, by
            rw [← h1]
            have : logOf v (r :: r1) = r.events v ++ logOf v r1 := by simp [logOf]
            rw [this, List.append_assoc, ← e3]; simp, e4⟩
        · right
          exact ⟨x, y, e1, by rw [← h1, hl, List.append_assoc, ← e2]; simp, e3⟩
      | cons y ys =>
        left
        simp only [List.cons_append, List.cons.injEq] at h2
        obtain ⟨rfl, h3⟩ := h2
        exact ⟨[], r, rs, pre, ys, rfl, h1, by simp [logOf], h3⟩

theorem triedFor_append (l : Nat) (a b : List Ev) : triedFor l (a ++ b) = triedFor l a + triedFor l b := by
  simp [triedFor, List.countP_append]

theorem triedFor_events (l : Nat) (v : Bool) (r : Round) :
    triedFor l (r.events v) = if r.left = l then 1 else 0 := by
  unfold Round.events
  cases r.fate with
  | duplicate => simp [triedFor, Round.start, List.countP_cons]
  | rejected => simp [triedFor, Round.start, List.countP_cons]
  | written d => cases v <;> simp [triedFor, Round.start, List.countP_cons]

theorem triedFor_logOf (l : Nat) (v : Bool) (rounds : List Round) :
    triedFor l (logOf v rounds) = attemptsFor l rounds := by
  induction rounds with
  | nil => rfl
  | cons r rs ih =>
    have : logOf v (r :: rs) = r.events v ++ logOf v rs := by simp [logOf]
    rw [this, triedFor_append, triedFor_events, ih]
    simp [attemptsFor, List.countP_cons]
    omega

theorem mutantResults_append (a b : List Ev) : mutantResults (a ++ b) = mutantResults a ++ mutantResults b := by
  simp [mutantResults, List.filterMap_append]

theorem mutantDests_append (a b : List Ev) : mutantDests (a ++ b) = mutantDests a ++ mutantDests b := by
  simp [mutantDests, List.filterMap_append]

theorem mutantResults_events (v : Bool) (r : Round) :
    mutantResults (r.events v) = r.writtenResult.toList := by
  unfold Round.events Round.writtenResult
  cases r.fate with
  | duplicate => simp [mutantResults, Round.start]
  | rejected => simp [mutantResults, Round.start]
  | written d => cases v <;> simp [mutantResults, Round.start]

theorem mutantResults_logOf (v : Bool) (rounds : List Round) :
    mutantResults (logOf v rounds) = writtenResults rounds := by
  induction rounds with
  | nil => rfl
  | cons r rs ih =>
    have : logOf v (r :: rs) = r.events v ++ logOf v rs := by simp [logOf]
    rw [this, mutantResults_append, mutantResults_events, ih]
    unfold writtenResults
    cases h : r.writtenResult <;> simp [h]

theorem Interrupted.mutantResults {v : Bool} {tail : List Ev} (h : Interrupted v tail) : mutantResults tail = [] := by
  cases h <;> rfl

theorem Interrupted.mutantDests {v : Bool} {tail : List Ev} (h : Interrupted v tail) : mutantDests tail = [] := by
  cases h <;> rfl

/-- The rounds are all correct. -/
def AllOk (c : LoopCtx R) (todo : List MutationType) (rounds : List Round) : Prop :=
  ∀ pre r post, rounds = pre ++ r :: post → RoundOk c todo pre r

theorem AllOk.pre {c : LoopCtx R} {todo : List MutationType} {a b : List Round}
    (h : AllOk c todo (a ++ b)) : AllOk c todo a := by
  intro pre r post e
  exact h pre r (post ++ b) (by rw [e]; simp)

/-- Induction over the rounds from the left. -/
theorem rounds_induct {motive : List Round → Prop} (nil : motive [])
    (snoc : ∀ rs r, motive rs → motive (rs ++ [r])) : ∀ rs, motive rs := by
  intro rs
  have : ∀ n (rs : List Round), rs.length = n → motive rs := by
    intro n
    induction n with
    | zero => intro rs h; rw [List.eq_nil_of_length_eq_zero h]; exact nil
    | succ n ih =>
      intro rs h
      rcases List.eq_nil_or_concat rs with rfl | ⟨l, r, rfl⟩
      · exact nil
      · rw [List.concat_eq_append] at h ⊢
        exact snoc l r (ih l (by simpa using h))
  exact this _ rs rfl

theorem writtenResults_nodup {c : LoopCtx R} {todo : List MutationType} (rounds : List Round)
    (h : AllOk c todo rounds) : (writtenResults rounds).Nodup := by
  revert h
  induction rounds using rounds_induct with
  | nil => intro _; simp [writtenResults]
  | snoc rs r ih =>
    intro h
    rw [writtenResults_snoc]
    have hr := (h rs r [] (by simp)).fate
    unfold Round.writtenResult
    cases hf : r.fate with
    | duplicate => simpa using ih h.pre
    | rejected => simpa using ih h.pre
    | written d =>
      rw [hf] at hr
      simp only [Option.toList]
      rw [List.nodup_append]
      refine ⟨ih h.pre, by simp, ?_⟩
      intro a ha b hb
      rw [List.mem_singleton.1 hb]
      exact fun e => hr.1 (e ▸ ha)

theorem mutantDests_events (v : Bool) (r : Round) :
    mutantDests (r.events v) = match r.fate with
      | .written d => [d]
      | _ => [] := by
  unfold Round.events
  cases r.fate with
  | duplicate => simp [mutantDests, Round.start]
  | rejected => simp [mutantDests, Round.start]
  | written d => cases v <;> simp [mutantDests, Round.start]

theorem mutantDests_logOf {c : LoopCtx R} {todo : List MutationType} (f : Nat → Option String)
    (hf : ∀ log n ast res d, c.emit log n ast res = .ok d → d = f n) (rounds : List Round)
    (h : AllOk c todo rounds) :
    mutantDests (logOf c.verify rounds) = (List.range (writtenResults rounds).length).map f := by
  revert h
  induction rounds using rounds_induct with
  | nil => intro _; simp [writtenResults, logOf, mutantDests]
  | snoc rs r ih =>
    intro h
    rw [logOf_snoc, mutantDests_append, ih h.pre, mutantDests_events, writtenResults_snoc]
    have hr := (h rs r [] (by simp)).fate
    unfold Round.writtenResult
    cases hfate : r.fate with
    | duplicate => simp
    | rejected => simp
    | written d =>
      rw [hfate] at hr
      simp only [Option.toList, List.length_append, List.length_cons, List.length_nil, Nat.zero_add,
        List.range_succ, List.map_append, List.map_cons, List.map_nil]
      rw [hf _ _ _ _ _ hr.2.2]

theorem writtenResults_le {c : LoopCtx R} {todo : List MutationType} {lo : Nat} (rounds : List Round)
    (h : History c todo lo rounds) : (writtenResults rounds).length ≤ todo.length := by
  -- the slots of the written rounds are distinct numbers between 1 and the length of the schedule
  have hslots : ∀ r ∈ rounds, 0 < r.left ∧ r.left ≤ todo.length := by
    intro r hr
    obtain ⟨a, b, e⟩ := List.append_of_mem hr
    have := (h.ok a r b e).slot
    exact ⟨this.1, this.2.1⟩
  have key : ∀ (rs : List Round) (n : Nat), rs.Pairwise (fun a b => a.writtenResult ≠ none → b.left < a.left) →
      (∀ r ∈ rs, 0 < r.left ∧ r.left ≤ n) → (writtenResults rs).length ≤ n := by
    intro rs
    induction rs with
    | nil => intro n _ _; simp [writtenResults]
    | cons r rs ih =>
      intro n hp hs
      obtain ⟨h1, h2⟩ := List.pairwise_cons.1 hp
      have hr := hs r (by simp)
      unfold writtenResults at ih ⊢
      cases hw : r.writtenResult with
      | none =>
        rw [List.filterMap_cons_none hw]
        exact ih n h2 (fun x hx => hs x (by simp [hx]))
      | some res =>
        rw [List.filterMap_cons_some hw]
        have := ih (r.left - 1) h2 (fun x hx => by
          have h3 := h1 x hx (by rw [hw]; simp)
          have h4 := hs x (by simp [hx])
          exact ⟨h4.1, by omega⟩)
        simp only [List.length_cons]
        omega
  exact key rounds todo.length h.next hslots

variable [Rand R]

/-- Everything about a finished mutation loop. -/
theorem loop_history (c : LoopCtx R) (todo : List MutationType) (rng : R) (fuel : Nat) (o : Outcome Unit)
    (s : LoopState R) (h : mutLoop c fuel { todo := todo, rng := rng } = some (o, s)) :
    ∃ rounds lo tail, History c todo lo rounds ∧ s.log = logOf c.verify rounds ++ tail ∧
      Interrupted c.verify tail ∧ (o = .ok () → tail = [] ∧ lo = 0) ∧
      (∀ l, triedFor l s.log ≤ maxAttempts) ∧
      (∀ e ∈ tail, ∀ l t i res ast, e = .tried l t i res ast →
        ∃ n rng rng', c.count t = some n ∧ (0 < n → i < n) ∧ c.mutate t i rng = .ok (ast, res, rng')) := by
  have h' := mutLoop_mono c fuel (fuel + (51 * todo.length + 1)) (by omega) _ _ h
  obtain ⟨o', s', s'', rounds, tail, h1, h2, h3, h4, h5, h6, h7⟩ :=
    mutLoop_spec c todo (fuel + (51 * todo.length + 1)) _ [] (loopInv_init c todo rng)
      (by simp only [loopMeasure]; omega)
  rw [h'] at h1
  injection h1 with h1
  injection h1 with h1a h1b
  subst h1a h1b
  refine ⟨rounds, s''.todo.length, tail, h2.hist, by rw [h3, h2.log], h4, ?_, ?_, h7⟩
  · intro ho
    obtain ⟨ha, hb⟩ := h5 ho
    exact ⟨ha, by rw [hb]; rfl⟩
  · intro l
    rw [h3, h2.log, triedFor_append, triedFor_logOf]
    have ha := h6 l
    have hb := h2.hist.attempts l
    by_cases hl : l = s''.todo.length ∧ s''.attempts < maxAttempts
    · rw [if_pos hl] at ha
      by_cases hne : s''.todo = []
      · have : attemptsFor l rounds = 0 := by
          apply attemptsFor_zero
          intro r hr
          obtain ⟨a, b, e⟩ := List.append_of_mem hr
          have := (h2.hist.ok a r b e).slot.1
          rw [hl.1, hne]; exact this
        unfold maxAttempts
        omega
      · have := h2.attempts hne
        rw [← hl.1] at this
        omega
    · rw [if_neg hl] at ha
      omega

end Mutagenyx
