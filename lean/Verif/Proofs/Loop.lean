import Verif.Spec.History

/-! Helper lemmas about the mutation loop. -/

namespace Mutagenyx
variable {R : Type} [Rand R]

theorem pickIndex_lt {n : Nat} (h : 0 < n) (r : R) : (pickIndex n r).1 < n := by
  unfold pickIndex
  split
  · exact Nat.mod_lt _ h
  · exact h

omit [Rand R] in
theorem snoc_split {α : Type} {xs pre post : List α} {x y : α} (h : xs ++ [x] = pre ++ y :: post) :
    (post = [] ∧ xs = pre ∧ x = y) ∨ ∃ post', post = post' ++ [x] ∧ xs = pre ++ y :: post' := by
  rcases List.eq_nil_or_concat post with rfl | ⟨post', z, rfl⟩
  · left
    have := List.append_inj' h rfl
    exact ⟨rfl, this.1, by simpa using this.2⟩
  · right
    rw [List.concat_eq_append, ← List.cons_append, ← List.append_assoc] at h
    have := List.append_inj' h rfl
    have hz : x = z := by simpa using this.2
    subst hz
    exact ⟨post', List.concat_eq_append .., this.1⟩

omit [Rand R] in
theorem logOf_snoc (v : Bool) (rs : List Round) (r : Round) : logOf v (rs ++ [r]) = logOf v rs ++ r.events v := by
  simp [logOf]

omit [Rand R] in
theorem writtenResults_snoc (rs : List Round) (r : Round) :
    writtenResults (rs ++ [r]) = writtenResults rs ++ r.writtenResult.toList := by
  unfold writtenResults
  rw [List.filterMap_append]
  cases h : r.writtenResult <;> simp [h]

/-- What holds throughout the mutation loop. -/
structure LoopInv (c : LoopCtx R) (todo0 : List MutationType) (s : LoopState R) (rounds : List Round) : Prop where
  hist : History c todo0 s.todo.length rounds
  log : s.log = logOf c.verify rounds
  observed : s.observed = writtenResults rounds
  written : s.written = (writtenResults rounds).length
  suffix : s.todo = todo0.drop (todo0.length - s.todo.length)
  len : s.todo.length ≤ todo0.length
  lefts : ∀ r ∈ rounds, s.todo.length ≤ r.left ∧ (r.left = s.todo.length → r.writtenResult = none)
  attempts : s.todo ≠ [] → attemptsFor s.todo.length rounds = s.attempts
  bound : s.attempts ≤ maxAttempts

omit [Rand R] in
theorem suffix_step {todo0 rest : List MutationType} {t : MutationType}
    (h : t :: rest = todo0.drop (todo0.length - (t :: rest).length)) (hl : (t :: rest).length ≤ todo0.length) :
    rest = todo0.drop (todo0.length - rest.length) ∧
      todo0[todo0.length - (t :: rest).length]? = some t := by
  have hlt : todo0.length - (t :: rest).length < todo0.length := by simp at hl ⊢; omega
  rw [List.drop_eq_getElem_cons hlt] at h
  injection h with h1 h2
  constructor
  · have : todo0.length - (t :: rest).length + 1 = todo0.length - rest.length := by simp at hl ⊢; omega
    rw [this] at h2; exact h2
  · rw [List.getElem?_eq_getElem hlt, ← h1]

omit [Rand R] in
theorem attemptsFor_snoc (l : Nat) (rs : List Round) (r : Round) :
    attemptsFor l (rs ++ [r]) = attemptsFor l rs + if r.left = l then 1 else 0 := by
  simp [attemptsFor, List.countP_append, List.countP_cons, beq_iff_eq]

omit [Rand R] in
theorem attemptsFor_zero {l : Nat} {rs : List Round} (h : ∀ r ∈ rs, l < r.left) : attemptsFor l rs = 0 := by
  unfold attemptsFor
  rw [List.countP_eq_zero]
  intro r hr
  have := h r hr
  simp; omega

omit [Rand R] in
/-- Another unsuccessful round for the present slot. -/
theorem LoopInv.fail {c : LoopCtx R} {todo0 : List MutationType} {s : LoopState R} {rounds : List Round}
    (h : LoopInv c todo0 s rounds) {r : Round} (hr : RoundOk c todo0 rounds r) (hleft : r.left = s.todo.length)
    (hw : r.writtenResult = none) (hlt : s.attempts < maxAttempts) (hne : s.todo ≠ []) (rng : R) :
    LoopInv c todo0 { s with rng := rng, attempts := s.attempts + 1, log := s.log ++ r.events c.verify }
      (rounds ++ [r]) := by
  constructor
  · constructor
    · intro pre x post hx
      rcases snoc_split hx with ⟨rfl, rfl, rfl⟩ | ⟨post', rfl, hx'⟩
      · exact hr
      · exact h.hist.ok _ _ _ hx'
    · rw [List.pairwise_append]
      refine ⟨h.hist.order, List.pairwise_singleton _ _, ?_⟩
      intro a ha b hb
      rw [List.mem_singleton.1 hb, hleft]
      exact (h.lefts a ha).1
    · rw [List.pairwise_append]
      refine ⟨h.hist.next, List.pairwise_singleton _ _, ?_⟩
      intro a ha b hb hwa
      rw [List.mem_singleton.1 hb, hleft]
      have := h.lefts a ha
      rcases Nat.lt_or_eq_of_le this.1 with h1 | h1
      · exact h1
      · exact absurd (this.2 h1.symm) hwa
    · intro l
      rw [attemptsFor_snoc]
      split
      · rename_i hl
        subst hl
        rw [hleft, h.attempts hne]; omega
      · exact h.hist.attempts l
    · intro l hl1 hl2
      rcases h.hist.done l hl1 hl2 with ⟨x, hx, h1⟩ | h1
      · exact Or.inl ⟨x, List.mem_append_left _ hx, h1⟩
      · right
        have : ¬ r.left = l := by simp at hl1; omega
        rw [attemptsFor_snoc, if_neg this, h1, Nat.add_zero]
  · simp only [logOf_snoc, h.log]
  · simp only [writtenResults_snoc, hw, Option.toList, List.append_nil]; exact h.observed
  · simp only [writtenResults_snoc, hw, Option.toList, List.append_nil]; exact h.written
  · exact h.suffix
  · exact h.len
  · intro x hx
    rcases List.mem_append.1 hx with hx | hx
    · exact h.lefts x hx
    · rw [List.mem_singleton.1 hx]
      exact ⟨by rw [hleft]; exact Nat.le_refl _, fun _ => hw⟩
  · intro _
    rw [attemptsFor_snoc, if_pos hleft, h.attempts hne]
  · exact hlt

omit [Rand R] in
/-- A successful round for the present slot. -/
theorem LoopInv.success {c : LoopCtx R} {todo0 rest : List MutationType} {t : MutationType} {s : LoopState R}
    {rounds : List Round} (h : LoopInv c todo0 s rounds) (htodo : s.todo = t :: rest) {r : Round}
    (hr : RoundOk c todo0 rounds r) (hleft : r.left = s.todo.length)
    (hw : r.writtenResult = some r.res) (hlt : s.attempts < maxAttempts) (rng : R) :
    LoopInv c todo0 { s with
      rng := rng, todo := rest, attempts := 0, observed := s.observed ++ [r.res], written := s.written + 1,
      log := s.log ++ r.events c.verify } (rounds ++ [r]) := by
  have hne : s.todo ≠ [] := by rw [htodo]; simp
  have hlen : s.todo.length = rest.length + 1 := by rw [htodo]; simp
  have hstep := suffix_step (htodo ▸ h.suffix) (htodo ▸ h.len)
  constructor
  · constructor
    · intro pre x post hx
      rcases snoc_split hx with ⟨rfl, rfl, rfl⟩ | ⟨post', rfl, hx'⟩
      · exact hr
      · exact h.hist.ok _ _ _ hx'
    · rw [List.pairwise_append]
      refine ⟨h.hist.order, List.pairwise_singleton _ _, ?_⟩
      intro a ha b hb
      rw [List.mem_singleton.1 hb, hleft]
      exact (h.lefts a ha).1
    · rw [List.pairwise_append]
      refine ⟨h.hist.next, List.pairwise_singleton _ _, ?_⟩
      intro a ha b hb hwa
      rw [List.mem_singleton.1 hb, hleft]
      have := h.lefts a ha
      rcases Nat.lt_or_eq_of_le this.1 with h1 | h1
      · exact h1
      · exact absurd (this.2 h1.symm) hwa
    · intro l
      rw [attemptsFor_snoc]
      split
      · rename_i hl
        subst hl
        rw [hleft, h.attempts hne]; omega
      · exact h.hist.attempts l
    · intro l hl1 hl2
      by_cases hl : l = r.left
      · left
        exact ⟨r, by simp, hl.symm, by rw [hw]; simp⟩
      · have hl1' : s.todo.length < l := by simp at hl1; omega
        rcases h.hist.done l hl1' hl2 with ⟨x, hx, h1⟩ | h1
        · exact Or.inl ⟨x, List.mem_append_left _ hx, h1⟩
        · right
          rw [attemptsFor_snoc, if_neg (fun e => hl e.symm), h1, Nat.add_zero]
  · simp only [logOf_snoc, h.log]
  · simp only [writtenResults_snoc, hw, Option.toList, h.observed]
  · simp only [writtenResults_snoc, hw, Option.toList, h.written, List.length_append, List.length_cons, List.length_nil]
  · exact hstep.1
  · have := h.len; simp only; omega
  · intro x hx
    simp only
    rcases List.mem_append.1 hx with hx | hx
    · have := (h.lefts x hx).1
      exact ⟨by omega, fun e => by omega⟩
    · rw [List.mem_singleton.1 hx]
      exact ⟨by omega, fun e => by omega⟩
  · intro _
    simp only
    rw [attemptsFor_snoc, if_neg (by omega), attemptsFor_zero]
    intro x hx
    have := (h.lefts x hx).1
    omega
  · exact Nat.zero_le _

omit [Rand R] in
/-- The attempts for the present slot are used up. -/
theorem LoopInv.skip {c : LoopCtx R} {todo0 rest : List MutationType} {t : MutationType} {s : LoopState R}
    {rounds : List Round} (h : LoopInv c todo0 s rounds) (htodo : s.todo = t :: rest)
    (hge : ¬ s.attempts < maxAttempts) :
    LoopInv c todo0 { s with attempts := 0, todo := rest } rounds := by
  have hne : s.todo ≠ [] := by rw [htodo]; simp
  have hlen : s.todo.length = rest.length + 1 := by rw [htodo]; simp
  have hstep := suffix_step (htodo ▸ h.suffix) (htodo ▸ h.len)
  constructor
  · refine ⟨h.hist.ok, h.hist.order, h.hist.next, h.hist.attempts, ?_⟩
    intro l hl1 hl2
    by_cases hl : l = s.todo.length
    · right
      rw [hl, h.attempts hne]
      have := h.bound
      omega
    · exact h.hist.done l (by simp at hl1; omega) hl2
  · exact h.log
  · exact h.observed
  · exact h.written
  · exact hstep.1
  · have := h.len; simp only; omega
  · intro x hx
    have := (h.lefts x hx).1
    simp only
    exact ⟨by omega, fun e => by omega⟩
  · intro _
    simp only
    apply attemptsFor_zero
    intro x hx
    have := (h.lefts x hx).1
    omega
  · exact Nat.zero_le _

/-- How much there is left to do, at most. -/
def loopMeasure (s : LoopState R) : Nat := 51 * s.todo.length - s.attempts

/-- The result of one iteration. -/
def StepSpec (c : LoopCtx R) (todo0 : List MutationType) (s : LoopState R)
    (out : Option (Outcome Unit) × LoopState R) : Prop :=
  match out with
  | (some o, s') =>
    (o = .ok () → s' = s ∧ s.todo = []) ∧
    ∃ tail, s'.log = s.log ++ tail ∧ Interrupted c.verify tail ∧
      (∀ l, triedFor l tail ≤ if l = s.todo.length ∧ s.attempts < maxAttempts then 1 else 0) ∧
      (∀ e ∈ tail, ∀ l t i res ast, e = .tried l t i res ast →
        ∃ n rng rng', c.count t = some n ∧ (0 < n → i < n) ∧ c.mutate t i rng = .ok (ast, res, rng'))
  | (none, s') => loopMeasure s' < loopMeasure s ∧ ∃ rounds', LoopInv c todo0 s' rounds'

omit [Rand R] in
theorem interrupted_tried_tail (r : Round) (tail : List Ev)
    (h : tail = [r.start] ∨ tail = [r.start, .compiled r.ast true]) :
    (∀ l, triedFor l tail ≤ if l = r.left then 1 else 0) := by
  intro l
  rcases h with rfl | rfl <;> simp only [triedFor, Round.start, List.countP_cons, List.countP_nil, beq_iff_eq]
  all_goals
    by_cases hl : r.left = l
    · simp [hl]
    · simp [hl]

theorem mutStep_spec (c : LoopCtx R) (todo0 : List MutationType) (s : LoopState R) (rounds : List Round)
    (h : LoopInv c todo0 s rounds) : StepSpec c todo0 s (mutStep c s) := by
  have stop : ∀ o : Outcome Unit, o ≠ .ok () → StepSpec c todo0 s (some o, s) := by
    intro o ho
    refine ⟨fun e => absurd e ho, [], by simp, .none, ?_, by simp⟩
    intro l; simp [triedFor]
  cases htodo : s.todo with
  | nil =>
    have : mutStep c s = (some (.ok ()), s) := by unfold mutStep; rw [htodo]
    rw [this]
    refine ⟨fun _ => ⟨rfl, htodo⟩, [], by simp, .none, ?_, by simp⟩
    intro l; simp [triedFor]
  | cons t rest =>
    have hne : s.todo ≠ [] := by rw [htodo]; simp
    have hlen : s.todo.length = rest.length + 1 := by rw [htodo]; simp
    have hstep := suffix_step (htodo ▸ h.suffix) (htodo ▸ h.len)
    have hbound := h.bound
    unfold mutStep
    rw [htodo]
    simp only
    by_cases hlt : s.attempts < maxAttempts
    · rw [if_pos hlt]
      cases hcount : c.count t with
      | none => exact stop _ (by simp)
      | some n =>
        simp only
        cases hmut : c.mutate t (pickIndex n s.rng).1 (pickIndex n s.rng).2 with
        | err e => exact stop _ (by simp)
        | panic => exact stop _ (by simp)
        | outOfFuel => exact stop _ (by simp)
        | ok out =>
          obtain ⟨ast, res, rng⟩ := out
          simp only
          have mk : ∀ fate : Fate, ∃ r : Round, r.left = s.todo.length ∧ r.t = t ∧
              r.index = (pickIndex n s.rng).1 ∧ r.res = res ∧ r.ast = ast ∧ r.fate = fate :=
            fun fate => ⟨⟨s.todo.length, t, (pickIndex n s.rng).1, res, ast, fate⟩, rfl, rfl, rfl, rfl, rfl, rfl⟩
          have hslot : 0 < s.todo.length ∧ s.todo.length ≤ todo0.length ∧
              todo0[todo0.length - s.todo.length]? = some t :=
            ⟨by omega, h.len, by rw [htodo]; exact hstep.2⟩
          have hmade : ∃ n' rng0 rng', c.count t = some n' ∧ (0 < n' → (pickIndex n s.rng).1 < n') ∧
              c.mutate t (pickIndex n s.rng).1 rng0 = .ok (ast, res, rng') :=
            ⟨n, _, rng, hcount, fun hn => pickIndex_lt hn s.rng, hmut⟩
          have hmeas : ∀ s' : LoopState R, s'.todo = s.todo → s'.attempts = s.attempts + 1 →
              loopMeasure s' < loopMeasure s := by
            intro s' h1 h2
            unfold loopMeasure
            rw [h1, h2]
            unfold maxAttempts at hlt
            omega
          -- stops after the start of a round
          have stopTail : ∀ (o : Outcome Unit) (s' : LoopState R) (tail : List Ev) (r : Round), o ≠ .ok () →
              r.left = s.todo.length → r.t = t → r.index = (pickIndex n s.rng).1 → r.res = res → r.ast = ast →
              (tail = [r.start] ∨ (tail = [r.start, .compiled r.ast true] ∧ c.verify = true)) →
              s'.log = s.log ++ tail → StepSpec c todo0 s (some o, s') := by
            intro o s' tail r ho hl ht hi hres hast htail hlog
            refine ⟨fun e => absurd e ho, tail, hlog, ?_, ?_, ?_⟩
            · rcases htail with rfl | ⟨rfl, hv⟩
              · exact .tried r
              · exact .compiled r hv
            · intro l
              have := interrupted_tried_tail r tail
                (htail.imp id And.left) l
              rw [hl] at this
              simpa [hlt] using this
            · intro e he l t' i res' ast' heq
              have hstart : e = r.start := by
                rcases htail with rfl | ⟨rfl, hv⟩
                · simpa using he
                · rcases List.mem_cons.1 he with he | he
                  · exact he
                  · rw [List.mem_singleton.1 he] at heq; cases heq
              rw [hstart] at heq
              unfold Round.start at heq
              injection heq with h1 h2 h3 h4 h5
              subst h2 h3 h4 h5
              rw [ht, hi, hres, hast]
              exact hmade
          by_cases hobs : s.observed.contains res
          · rw [if_pos hobs]
            obtain ⟨r, hrl, hrt, hri, hrr, hra, hrf⟩ := mk .duplicate
            refine ⟨hmeas _ htodo.symm rfl, rounds ++ [r], ?_⟩
            have hr : RoundOk c todo0 rounds r := by
              refine ⟨by rw [hrl, hrt]; exact hslot, by rw [hrt, hri, hra, hrr]; exact hmade, ?_⟩
              rw [hrf]
              simp only
              rw [hrr, ← h.observed]
              simpa using hobs
            have := h.fail hr hrl (by simp [Round.writtenResult, hrf]) hlt hne rng
            have hev : r.events c.verify = [.tried s.todo.length t (pickIndex n s.rng).1 res ast] := by
              simp [Round.events, hrf, Round.start, hrl, hrt, hri, hrr, hra]
            rw [hev] at this
            simpa only [htodo] using this
          · rw [if_neg hobs]
            have hnot : res ∉ writtenResults rounds := by
              rw [← h.observed]; simpa using hobs
            -- writing
            have write : ∀ (evs : List Ev) (s2 : LoopState R),
                (evs = if c.verify then [.compiled ast true] else []) →
                (c.verify = true → c.compiles (s.log ++ [.tried s.todo.length t (pickIndex n s.rng).1 res ast]) ast = .ok true) →
                s2 = { s with rng := rng, log := s.log ++ (.tried s.todo.length t (pickIndex n s.rng).1 res ast :: evs) } →
                StepSpec c todo0 s
                  (match c.emit s2.log s2.written ast res with
                  | .err e => (some (.err e), s2)
                  | .panic => (some .panic, s2)
                  | .outOfFuel => (some .outOfFuel, s2)
                  | .ok dest =>
                    (none, { s2 with
                      todo := rest, observed := s.observed ++ [res], written := s.written + 1,
                      attempts := 0, log := s2.log ++ [.output dest (.mutant ast res)] })) := by
              intro evs s2 hevs hcomp hs2
              have stop2 : ∀ o : Outcome Unit, o ≠ .ok () → StepSpec c todo0 s (some o, s2) := by
                intro o ho
                obtain ⟨r, hrl, hrt, hri, hrr, hra, hrf⟩ := mk .duplicate
                refine stopTail o s2 (r.start :: evs) r ho hrl hrt hri hrr hra ?_ ?_
                · cases hv : c.verify with
                  | true => right; rw [hevs, hv, hra]; exact ⟨rfl, rfl⟩
                  | false => left; rw [hevs, hv]; rfl
                · rw [hs2]
                  simp [Round.start, hrl, hrt, hri, hrr, hra]
              cases hemit : c.emit s2.log s2.written ast res with
              | err e => exact stop2 _ (by simp)
              | panic => exact stop2 _ (by simp)
              | outOfFuel => exact stop2 _ (by simp)
              | ok dest =>
                simp only
                obtain ⟨r, hrl, hrt, hri, hrr, hra, hrf⟩ := mk (.written dest)
                have hstart : r.start = .tried s.todo.length t (pickIndex n s.rng).1 res ast := by
                  simp [Round.start, hrl, hrt, hri, hrr, hra]
                refine ⟨?_, rounds ++ [r], ?_⟩
                · unfold loopMeasure
                  unfold maxAttempts at hlt
                  simp only
                  omega
                · have hr : RoundOk c todo0 rounds r := by
                    refine ⟨by rw [hrl, hrt]; exact hslot, by rw [hrt, hri, hra, hrr]; exact hmade, ?_⟩
                    rw [hrf]
                    simp only
                    rw [hrr, hra, hstart, ← h.log, ← h.written]
                    refine ⟨hnot, hcomp, ?_⟩
                    rw [← hevs]
                    rw [hs2] at hemit
                    exact hemit
                  have := h.success htodo hr hrl (by simp [Round.writtenResult, hrf]) hlt rng
                  have hev : r.events c.verify =
                      .tried s.todo.length t (pickIndex n s.rng).1 res ast :: (evs ++ [.output dest (.mutant ast res)]) := by
                    rw [hevs]
                    cases hv : c.verify <;> simp [Round.events, hrf, Round.start, hrl, hrt, hri, hrr, hra]
                  rw [hev, hrr] at this
                  rw [hs2]
                  simpa using this
            by_cases hv : c.verify = true
            · rw [if_pos hv]
              have hl : (t :: rest).length = s.todo.length := by rw [htodo]
              rw [hl]
              cases hcomp : c.compiles (s.log ++ [.tried s.todo.length t (pickIndex n s.rng).1 res ast]) ast with
              | err e =>
                obtain ⟨r, hrl, hrt, hri, hrr, hra, hrf⟩ := mk .duplicate
                exact stopTail _ _ [r.start] r (by simp) hrl hrt hri hrr hra (Or.inl rfl)
                  (by simp [Round.start, hrl, hrt, hri, hrr, hra])
              | panic =>
                obtain ⟨r, hrl, hrt, hri, hrr, hra, hrf⟩ := mk .duplicate
                exact stopTail _ _ [r.start] r (by simp) hrl hrt hri hrr hra (Or.inl rfl)
                  (by simp [Round.start, hrl, hrt, hri, hrr, hra])
              | outOfFuel =>
                obtain ⟨r, hrl, hrt, hri, hrr, hra, hrf⟩ := mk .duplicate
                exact stopTail _ _ [r.start] r (by simp) hrl hrt hri hrr hra (Or.inl rfl)
                  (by simp [Round.start, hrl, hrt, hri, hrr, hra])
              | ok b =>
                cases b with
                | false =>
                  simp only
                  obtain ⟨r, hrl, hrt, hri, hrr, hra, hrf⟩ := mk .rejected
                  have hstart : r.start = .tried s.todo.length t (pickIndex n s.rng).1 res ast := by
                    simp [Round.start, hrl, hrt, hri, hrr, hra]
                  refine ⟨hmeas _ htodo.symm rfl, rounds ++ [r], ?_⟩
                  have hr : RoundOk c todo0 rounds r := by
                    refine ⟨by rw [hrl, hrt]; exact hslot, by rw [hrt, hri, hra, hrr]; exact hmade, ?_⟩
                    rw [hrf]
                    simp only
                    rw [hrr, hra, hstart, ← h.log]
                    exact ⟨hnot, hv, hcomp⟩
                  have := h.fail hr hrl (by simp [Round.writtenResult, hrf]) hlt hne rng
                  have hev : r.events c.verify =
                      [.tried s.todo.length t (pickIndex n s.rng).1 res ast, .compiled ast false] := by
                    simp [Round.events, hrf, hstart, hra]
                  rw [hev] at this
                  simpa [htodo] using this
                | true =>
                  simp only
                  exact write [.compiled ast true]
                    { s with todo := t :: rest, rng := rng,
                             log := (s.log ++ [.tried s.todo.length t (pickIndex n s.rng).1 res ast]) ++
                              [.compiled ast true] } (by simp [hv]) (fun _ => hcomp) (by simp [htodo])
            · rw [if_neg hv]
              have hl : (t :: rest).length = s.todo.length := by rw [htodo]
              rw [hl]
              exact write []
                { s with todo := t :: rest, rng := rng,
                         log := s.log ++ [.tried s.todo.length t (pickIndex n s.rng).1 res ast] }
                (by simp [hv]) (fun e => absurd e hv) (by simp [htodo])
    · rw [if_neg hlt]
      refine ⟨?_, rounds, by simpa [htodo] using h.skip htodo hlt⟩
      unfold loopMeasure
      unfold maxAttempts at hlt hbound
      simp only
      omega

omit [Rand R] in
theorem loopInv_init (c : LoopCtx R) (todo : List MutationType) (rng : R) :
    LoopInv c todo { todo := todo, rng := rng } [] := by
  constructor
  · constructor
    · intro pre r post h; simp at h
    · exact .nil
    · exact .nil
    · intro l; simp [attemptsFor]
    · intro l h1 h2; simp at h1; omega
  · rfl
  · rfl
  · rfl
  · simp
  · exact Nat.le_refl _
  · simp
  · intro _; rfl
  · exact Nat.zero_le _

/-- The whole loop. -/
theorem mutLoop_spec (c : LoopCtx R) (todo0 : List MutationType) (fuel : Nat) :
    ∀ (s : LoopState R) (rounds : List Round), LoopInv c todo0 s rounds → loopMeasure s < fuel →
    ∃ o s' s'' rounds' tail, mutLoop c fuel s = some (o, s') ∧ LoopInv c todo0 s'' rounds' ∧
      s'.log = s''.log ++ tail ∧ Interrupted c.verify tail ∧
      (o = .ok () → tail = [] ∧ s''.todo = []) ∧
      (∀ l, triedFor l tail ≤ if l = s''.todo.length ∧ s''.attempts < maxAttempts then 1 else 0) ∧
      (∀ e ∈ tail, ∀ l t i res ast, e = .tried l t i res ast →
        ∃ n rng rng', c.count t = some n ∧ (0 < n → i < n) ∧ c.mutate t i rng = .ok (ast, res, rng')) := by
  induction fuel with
  | zero => intro s rounds _ h; omega
  | succ fuel ih =>
    intro s rounds h hm
    have hs := mutStep_spec c todo0 s rounds h
    rw [mutLoop]
    cases hstep : mutStep c s with
    | mk o s' =>
      rw [hstep] at hs
      cases o with
      | none =>
        obtain ⟨h1, rounds', h2⟩ := hs
        exact ih s' rounds' h2 (by omega)
      | some o =>
        obtain ⟨h1, tail, h2, h3, h4, h5⟩ := hs
        refine ⟨o, s', s, rounds, tail, rfl, h, h2, h3, ?_, h4, h5⟩
        intro ho
        obtain ⟨h6, h7⟩ := h1 ho
        subst h6
        refine ⟨?_, h7⟩
        simpa using h2

/-- More iterations do not change a result. -/
theorem mutLoop_mono (c : LoopCtx R) (fuel fuel' : Nat) (hle : fuel ≤ fuel') :
    ∀ (s : LoopState R) (out : Outcome Unit × LoopState R), mutLoop c fuel s = some out →
      mutLoop c fuel' s = some out := by
  induction fuel generalizing fuel' with
  | zero => intro s out h; cases h
  | succ fuel ih =>
    intro s out h
    obtain ⟨f, rfl⟩ : ∃ f, fuel' = f + 1 := ⟨fuel' - 1, by omega⟩
    rw [mutLoop] at h ⊢
    cases hstep : mutStep c s with
    | mk o s' =>
      rw [hstep] at h
      cases o with
      | none => exact ih f (by omega) s' out h
      | some o => exact h

end Mutagenyx
