import Verif.Proofs.Generate
import Verif.Props.Visitor

/-!
# C04, C05, C06, C13: making the mutants of one input file

`before` is what happened before this file, `new` what happens while it is processed; `o` is how the
processing ends.  The world is arbitrary: recognition, loading, compiling and printing may answer
anything, depending on everything that happened so far.
-/

namespace Mutagenyx
variable {R : Type} [Rand R]

/-- Events other than the mutation loop's. -/
theorem extras_quiet (w : World R) (lang : Lang R) (p : Params R) (ast : Json) :
    (∀ l, triedFor l (originalEvents lang p ast ++ configEvents w lang p) = 0) ∧
    mutantResults (originalEvents lang p ast ++ configEvents w lang p) = [] ∧
    mutantDests (originalEvents lang p ast ++ configEvents w lang p) = [] ∧
    (∀ e ∈ originalEvents lang p ast ++ configEvents w lang p, ∃ d,
      e = .output d (.original ast) ∨ e = .output d (.config (savedConfig w.defaultCompiler lang.language p))) := by
  unfold originalEvents configEvents
  by_cases h1 : p.printOriginal = true <;> by_cases h2 : p.saveConfig = true <;>
    simp [h1, h2, triedFor, mutantResults, mutantDests]

/-- What happens while a file is processed: first perhaps the original and the configuration are printed,
then perhaps the mutation loop runs. -/
theorem file_events (w : World R) (fuel : Nat) (p : Params R) (before new : List Ev)
    (o : Outcome Unit) (h : generateMutations w fuel p before = (o, before ++ new)) :
    (o ≠ .ok () ∧ (∀ l, triedFor l new = 0) ∧ mutantResults new = [] ∧ mutantDests new = [] ∧
      ∀ e ∈ new, ∃ d it, e = .output d it ∧ ∀ ast res, it ≠ .mutant ast res) ∨
    ∃ language ft ast todo rng s, LoopRan w fuel p before o language ft ast todo rng s ∧
      new = (originalEvents (w.lang language) p ast ++ configEvents w (w.lang language) p) ++ s.log := by
  rcases generate_decompose w fuel p before _ o h with ⟨ho, pre, h1, h2⟩ | ⟨language, ft, ast, todo, rng, s, h1, h2⟩
  · left
    have hp : new = pre := List.append_cancel_left h1
    subst hp
    refine ⟨ho, ?_⟩
    have hsub : new = [] ∨ ∃ language ast rest, new ++ rest =
        originalEvents (w.lang language) p ast ++ configEvents w (w.lang language) p := by
      rcases h2 with h2 | ⟨language, ast, h2 | h2⟩
      · exact Or.inl h2
      · exact Or.inr ⟨language, ast, _, by rw [h2]⟩
      · exact Or.inr ⟨language, ast, [], by rw [h2]; simp⟩
    rcases hsub with rfl | ⟨language, ast, rest, hr⟩
    · simp [triedFor, mutantResults, mutantDests]
    · obtain ⟨q1, q2, q3, q4⟩ := extras_quiet w (w.lang language) p ast
      rw [← hr] at q1 q2 q3 q4
      refine ⟨fun l => ?_, ?_, ?_, ?_⟩
      · have := q1 l; rw [triedFor_append] at this; omega
      · rw [mutantResults_append] at q2; exact (List.append_eq_nil_iff.1 q2).1
      · rw [mutantDests_append] at q3; exact (List.append_eq_nil_iff.1 q3).1
      · intro e he
        obtain ⟨d, hd | hd⟩ := q4 e (List.mem_append_left _ he)
        · exact ⟨d, _, hd, by simp⟩
        · exact ⟨d, _, hd, by simp⟩
  · right
    refine ⟨language, ft, ast, todo, rng, s, h1, ?_⟩
    rw [List.append_assoc, List.append_assoc] at h2
    rw [List.append_assoc]
    exact List.append_cancel_left h2

/-- **C04.** The mutation loop ends: as many iterations as 51 per scheduled mutant, and one, are enough,
and allowing more changes nothing.  This holds whatever the mutators, the compiler and the random numbers
do (a mutator that itself does not return is `outOfFuel`). -/
theorem C04_loop_ends (c : LoopCtx R) (todo : List MutationType) (rng : R) :
    ∃ out, mutLoop c (51 * todo.length + 1) { todo := todo, rng := rng } = some out ∧
      ∀ fuel, 51 * todo.length + 1 ≤ fuel → mutLoop c fuel { todo := todo, rng := rng } = some out := by
  obtain ⟨o, s, -, -, -, h1, -⟩ := mutLoop_spec c todo
    (51 * todo.length + 1) _ [] (loopInv_init _ todo rng) (by simp only [loopMeasure]; omega)
  exact ⟨(o, s), h1, fun fuel hf => mutLoop_mono c _ fuel hf _ _ h1⟩

/-- **C04.** At most 50 mutants are made for each scheduled mutant. -/
theorem C04_attempts (w : World R) (fuel : Nat) (p : Params R) (before new : List Ev) (o : Outcome Unit)
    (h : generateMutations w fuel p before = (o, before ++ new)) (left : Nat) :
    triedFor left new ≤ 50 := by
  rcases file_events w fuel p before new o h with ⟨-, h1, -⟩ | ⟨language, ft, ast, todo, rng, s, hl, hnew⟩
  · rw [h1 left]; omega
  · obtain ⟨-, -, -, -, -, -, -, h2, -⟩ := loop_history _ _ _ _ _ _ hl.loop
    rw [hnew, triedFor_append, (extras_quiet w (w.lang language) p ast).1 left]
    have := h2 left
    unfold maxAttempts at this
    omega

/-- **C04.** No more mutants are written than were requested, nor than there are mutable nodes; and a run
that ends normally served every scheduled slot: a mutant was written for it, or 50 attempts failed. -/
theorem C04_written (w : World R) (fuel : Nat) (p : Params R) (before new : List Ev) (o : Outcome Unit)
    (h : generateMutations w fuel p before = (o, before ++ new)) :
    (mutantResults new).length ≤ p.numberOfMutants ∧
    (o = .ok () → ∃ language ft ast, w.recognize before p.fileName p.preferences = .ok (language, ft) ∧
      w.load before language ft p.fileName p.preferences = .ok ast ∧
      ∀ left, 0 < left → left ≤ min p.numberOfMutants
        ((countMutableNodes (w.lang language).ctx (functionPermissions p.functions)
          (w.shuffle (selectMutators (w.lang language) p.mutations)) ast).map Prod.snd).sum →
        WrittenFor left new ∨ triedFor left new = 50) := by
  rcases file_events w fuel p before new o h with ⟨ho, -, h2, -⟩ | ⟨language, ft, ast, todo, rng, s, hl, hnew⟩
  · exact ⟨by rw [h2]; simp, fun e => absurd e ho⟩
  · obtain ⟨rounds, lo, tail, hh, hlog, htail, hend, htried, -⟩ := loop_history _ _ _ _ _ _ hl.loop
    obtain ⟨q1, q2, q3, -⟩ := extras_quiet w (w.lang language) p ast
    have hlen : todo.length = min p.numberOfMutants
        ((countMutableNodes (w.lang language).ctx (functionPermissions p.functions)
          (w.shuffle (selectMutators (w.lang language) p.mutations)) ast).map Prod.snd).sum := by
      rcases select_spec (countTable_keys_nodup (w.lang language).ctx (functionPermissions p.functions)
          (w.shuffle (selectMutators (w.lang language) p.mutations)) ast) fuel p.numberOfMutants p.rng with
        ⟨t, r, h1, -, -, h2⟩ | h1
      · rw [hl.selected] at h1; cases h1; exact h2
      · rw [hl.selected] at h1; cases h1
    constructor
    · rw [hnew, mutantResults_append, q2, hlog, mutantResults_append, mutantResults_logOf, htail.mutantResults]
      have := writtenResults_le rounds hh
      simp
      omega
    · intro ho
      refine ⟨language, ft, ast, hl.recognized, hl.loaded, ?_⟩
      intro left h1 h2
      rw [← hlen] at h2
      obtain ⟨ht, hlo⟩ := hend ho
      subst hlo
      rcases hh.done left h1 h2 with ⟨r, hr, hleft, hw⟩ | hatt
      · left
        obtain ⟨a, b, e⟩ := List.append_of_mem hr
        have hlogr : s.log = logOf p.verify a ++
            (r.events p.verify ++ logOf p.verify b) := by
          rw [hlog, ht, e]
          simp [logOf, fileCtx_verify]
        cases hf : r.fate with
        | duplicate => simp [Round.writtenResult, hf] at hw
        | rejected => simp [Round.writtenResult, hf] at hw
        | written d =>
          refine ⟨originalEvents (w.lang language) p ast ++ configEvents w (w.lang language) p ++
            logOf p.verify a, logOf p.verify b, r.t, r.index, r.res, r.ast, d,
            if p.verify then [.compiled r.ast true] else [], ?_, ?_⟩
          · rw [hnew, hlogr]
            cases hv : p.verify <;>
              simp [Round.events, hf, hv, Round.start, hleft]
          · cases p.verify <;> simp
      · right
        rw [hnew, triedFor_append, q1 left, hlog, triedFor_append, triedFor_logOf, hatt, ht]
        rfl

/-- **C05.** No two mutants written for a file have the same algorithm, node number, node id and hash. -/
theorem C05_no_duplicates (w : World R) (fuel : Nat) (p : Params R) (before new : List Ev)
    (o : Outcome Unit) (h : generateMutations w fuel p before = (o, before ++ new)) :
    (mutantResults new).Nodup := by
  rcases file_events w fuel p before new o h with ⟨-, -, h2, -⟩ | ⟨language, ft, ast, todo, rng, s, hl, hnew⟩
  · rw [h2]; exact List.nodup_nil
  · obtain ⟨rounds, lo, tail, hh, hlog, htail, hend, htried, -⟩ := loop_history _ _ _ _ _ _ hl.loop
    obtain ⟨-, q2, -⟩ := extras_quiet w (w.lang language) p ast
    rw [hnew, mutantResults_append, q2, hlog, mutantResults_append, mutantResults_logOf, htail.mutantResults]
    simpa using writtenResults_nodup rounds hh.ok

/-- **C06.** With validation on, every written mutant was accepted by the compiler immediately before it
was written, and that answer was given for this very mutant. -/
theorem C06_only_accepted_mutants (w : World R) (fuel : Nat) (p : Params R) (before new : List Ev)
    (o : Outcome Unit) (h : generateMutations w fuel p before = (o, before ++ new)) (hv : p.verify = true)
    (pre post : List Ev) (dest : Option String) (ast : Json) (res : MutatorResult)
    (hout : new = pre ++ .output dest (.mutant ast res) :: post) :
    ∃ pre', pre = pre' ++ [.compiled ast true] ∧
      ∃ language ft, w.recognize before p.fileName p.preferences = .ok (language, ft) ∧
        w.compiles (before ++ pre') (w.lang language).language p.fileName p.preferences ast = .ok true := by
  rcases file_events w fuel p before new o h with ⟨-, -, -, -, h4⟩ | ⟨language, ft, ast0, todo, rng, s, hl, hnew⟩
  · obtain ⟨d, it, h5, h6⟩ := h4 (.output dest (.mutant ast res)) (by rw [hout]; simp)
    injection h5 with _ h5
    exact absurd h5.symm (h6 ast res)
  · obtain ⟨rounds, lo, tail, hh, hlog, htail, hend, htried, -⟩ := loop_history _ _ _ _ _ _ hl.loop
    obtain ⟨-, -, -, q4⟩ := extras_quiet w (w.lang language) p ast0
    have hvc : (fileCtx w p before language ast0).verify = true := hv
    generalize hex : originalEvents (w.lang language) p ast0 ++ configEvents w (w.lang language) p = ex at *
    -- the event is in the loop's part of the log
    have hloc : ∃ pre1, pre = ex ++ pre1 ∧ s.log = pre1 ++ .output dest (.mutant ast res) :: post := by
      rw [hnew] at hout
      rcases List.append_eq_append_iff.1 hout with ⟨a, h1, h2⟩ | ⟨b, h1, h2⟩
      · exact ⟨a, h1, h2⟩
      · cases b with
        | nil => exact ⟨[], by simpa using h1.symm, by simpa using h2.symm⟩
        | cons y ys =>
          simp only [List.cons_append, List.cons.injEq] at h2
          obtain ⟨d, hd | hd⟩ := q4 y (by rw [h1]; simp)
          · rw [← h2.1] at hd; cases hd
          · rw [← h2.1] at hd; cases hd
    obtain ⟨pre1, hpre, hs⟩ := hloc
    rw [hlog, hvc] at hs
    rcases split_log true rounds tail pre1 post _ hs with ⟨r1, r, r2, a, b, e1, e2, e3, e4⟩ | ⟨a, b, e1, -, -⟩
    · have hok := hh.ok r1 r r2 e1
      have hfate := hok.fate
      unfold Round.events at e2
      cases hf : r.fate with
      | duplicate =>
        rw [hf] at e2
        rcases a with _ | ⟨x, a⟩
        · simp [Round.start] at e2
        · simp at e2
      | rejected =>
        rw [hf] at e2
        rcases a with _ | ⟨x, _ | ⟨y, a⟩⟩
        · simp [Round.start] at e2
        · simp at e2
        · simp at e2
      | written d =>
        rw [hf] at e2 hfate
        simp only [if_true] at e2
        rcases a with _ | ⟨x, _ | ⟨y, _ | ⟨z, a⟩⟩⟩
        · simp [Round.start] at e2
        · simp at e2
        · simp only [List.cons_append, List.nil_append, List.cons.injEq] at e2
          obtain ⟨rfl, rfl, e5, rfl⟩ := e2
          injection e5 with e5 e6
          injection e6 with e6 e7
          obtain ⟨-, hcomp, -⟩ := hfate
          have hcomp := hcomp hvc
          refine ⟨ex ++ (logOf true r1 ++ [r.start]), ?_, language, ft, hl.recognized, ?_⟩
          · rw [hpre, e3, e6]; simp
          · rw [hvc] at hcomp
            unfold fileCtx loopCtx at hcomp
            simp only at hcomp
            rw [← e6, ← hex]
            simpa using hcomp
        · simp at e2
    · cases htail with
      | none => simp at e1
      | tried r =>
        rcases a with _ | ⟨x, a⟩
        · simp [Round.start] at e1
        · simp at e1
      | compiled r =>
        rcases a with _ | ⟨x, _ | ⟨y, a⟩⟩
        · simp [Round.start] at e1
        · simp at e1
        · simp at e1

/-- **C06.** With validation off the compiler is never asked about a mutant. -/
theorem C06_validation_off (w : World R) (fuel : Nat) (p : Params R) (before new : List Ev)
    (o : Outcome Unit) (h : generateMutations w fuel p before = (o, before ++ new)) (hv : p.verify = false)
    (ast : Json) (b : Bool) : Ev.compiled ast b ∉ new := by
  intro hmem
  rcases file_events w fuel p before new o h with ⟨-, -, -, -, h4⟩ | ⟨language, ft, ast0, todo, rng, s, hl, hnew⟩
  · obtain ⟨d, it, h5, -⟩ := h4 _ hmem
    cases h5
  · obtain ⟨rounds, lo, tail, hh, hlog, htail, hend, htried, -⟩ := loop_history _ _ _ _ _ _ hl.loop
    obtain ⟨-, -, -, q4⟩ := extras_quiet w (w.lang language) p ast0
    have hvc : (fileCtx w p before language ast0).verify = false := hv
    rw [hnew] at hmem
    rcases List.mem_append.1 hmem with hm | hm
    · obtain ⟨d, hd | hd⟩ := q4 _ hm <;> cases hd
    · obtain ⟨x, y, e⟩ := List.append_of_mem hm
      rw [hlog, hvc] at e
      rcases split_log false rounds tail x y _ e with ⟨r1, r, r2, a, b', e1, e2, -, -⟩ | ⟨a, b', e1, -, -⟩
      · have hfate := (hh.ok r1 r r2 e1).fate
        have hin : Ev.compiled ast b ∈ r.events false := by rw [e2]; simp
        unfold Round.events at hin
        cases hf : r.fate with
        | duplicate => rw [hf] at hin; simp [Round.start] at hin
        | rejected => rw [hf, hvc] at hfate; simp at hfate
        | written d => rw [hf] at hin; simp [Round.start] at hin
      · rw [hvc] at htail
        cases htail with
        | none => simp at e1
        | tried r =>
          rcases a with _ | ⟨z, a⟩
          · simp [Round.start] at e1
          · simp at e1
        | compiled r hr => cases hr

/-- **C06.** With validation on, and if the run of the file ends normally: a mutant is dropped without
asking the compiler exactly if one with the same result was *written* before.  In particular a mutant the
compiler rejected is not remembered: the same result is tried on the compiler again. -/
theorem C06_dropped_iff_written_before (w : World R) (fuel : Nat) (p : Params R) (before new : List Ev)
    (h : generateMutations w fuel p before = (.ok (), before ++ new)) (hv : p.verify = true)
    (pre post : List Ev) (left : Nat) (t : MutationType) (i : Nat) (res : MutatorResult) (ast : Json)
    (htried : new = pre ++ .tried left t i res ast :: post) :
    (res ∈ mutantResults pre ↔ ¬ ∃ ok post', post = .compiled ast ok :: post') := by
  rcases file_events w fuel p before new _ h with ⟨h1, -⟩ | ⟨language, ft, ast0, todo, rng, s, hl, hnew⟩
  · exact absurd rfl h1
  · obtain ⟨rounds, lo, tail, hh, hlog, -, hend, -⟩ := loop_history _ _ _ _ _ _ hl.loop
    obtain ⟨q1, q2, -, q4⟩ := extras_quiet w (w.lang language) p ast0
    have hvc : (fileCtx w p before language ast0).verify = true := hv
    generalize hex : originalEvents (w.lang language) p ast0 ++ configEvents w (w.lang language) p = ex at *
    have hloc : ∃ pre1, pre = ex ++ pre1 ∧ s.log = pre1 ++ .tried left t i res ast :: post := by
      rw [hnew] at htried
      rcases List.append_eq_append_iff.1 htried with ⟨a, h1, h2⟩ | ⟨b, h1, h2⟩
      · exact ⟨a, h1, h2⟩
      · cases b with
        | nil => exact ⟨[], by simpa using h1.symm, by simpa using h2.symm⟩
        | cons y ys =>
          simp only [List.cons_append, List.cons.injEq] at h2
          obtain ⟨d, hd | hd⟩ := q4 y (by rw [h1]; simp)
          · rw [← h2.1] at hd; cases hd
          · rw [← h2.1] at hd; cases hd
    obtain ⟨pre1, hpre, hs⟩ := hloc
    obtain ⟨rfl, -⟩ := hend rfl
    rw [hlog, hvc] at hs
    rcases split_log true rounds [] pre1 post _ hs with ⟨r1, r, r2, a, b, e1, e2, e3, e4⟩ | ⟨a, b, e1, -, -⟩
    · have hfate := (hh.ok r1 r r2 e1).fate
      -- the event starts the round
      have ha : a = [] ∧ r.start = .tried left t i res ast := by
        unfold Round.events at e2
        cases hf : r.fate with
        | duplicate =>
          rw [hf] at e2
          rcases a with _ | ⟨x, a⟩
          · simp at e2; exact ⟨rfl, e2.1⟩
          · simp at e2
        | rejected =>
          rw [hf] at e2
          rcases a with _ | ⟨x, _ | ⟨y, a⟩⟩
          · simp at e2; exact ⟨rfl, e2.1⟩
          · simp at e2
          · simp at e2
        | written d =>
          rw [hf] at e2
          simp only [if_true] at e2
          rcases a with _ | ⟨x, _ | ⟨y, _ | ⟨z, a⟩⟩⟩
          · simp at e2; exact ⟨rfl, e2.1⟩
          · simp at e2
          · simp at e2
          · simp at e2
      obtain ⟨rfl, hstart⟩ := ha
      have hres : r.res = res := by unfold Round.start at hstart; injection hstart
      have hast : r.ast = ast := by unfold Round.start at hstart; injection hstart
      have hmr : mutantResults pre = writtenResults r1 := by
        rw [hpre, e3, List.append_nil, mutantResults_append, q2, mutantResults_logOf]; rfl
      rw [hmr]
      -- a further round starts with a `tried` event
      have hnext : ∀ post', logOf true r2 ++ [] ≠ .compiled ast true :: post' ∧
          logOf true r2 ++ [] ≠ .compiled ast false :: post' := by
        intro post'
        cases r2 with
        | nil => simp [logOf]
        | cons x xs =>
          have : ∃ l, logOf true (x :: xs) = x.start :: l := by
            unfold logOf Round.events
            simp only [List.flatMap_cons]
            cases x.fate <;> simp
          obtain ⟨l, hl⟩ := this
          rw [hl]
          simp [Round.start]
      unfold Round.events at e2
      cases hf : r.fate with
      | duplicate =>
        rw [hf] at e2 hfate
        simp only [List.nil_append, List.cons.injEq] at e2
        refine ⟨fun _ => ?_, fun _ => hres ▸ hfate⟩
        rintro ⟨ok, post', hp⟩
        rw [e4, ← e2.2, List.nil_append] at hp
        cases ok
        · exact (hnext post').2 hp
        · exact (hnext post').1 hp
      | rejected =>
        rw [hf] at e2 hfate
        simp only [List.nil_append, List.cons.injEq] at e2
        refine ⟨fun hm => absurd (hres ▸ hm) hfate.1, fun hn => absurd ⟨false, logOf true r2 ++ [], ?_⟩ hn⟩
        rw [e4, ← e2.2, hast]; rfl
      | written d =>
        rw [hf] at e2 hfate
        simp only [if_true, List.nil_append, List.cons.injEq] at e2
        refine ⟨fun hm => absurd (hres ▸ hm) hfate.1,
          fun hn => absurd ⟨true, .output d (.mutant r.ast r.res) :: (logOf true r2 ++ []), ?_⟩ hn⟩
        rw [e4, ← e2.2, hast]; rfl
    · simp at e1

/-- **C13.** Every attempt asks an algorithm of the run for a node number below the number of candidates
counted for it, so the request is served: some candidate node is mutated (or the algorithm fails on it).
The iteration order of the mutator table may be any permutation. -/
theorem C13_attempt_in_range (w : World R) (hsh : ∀ l, (w.shuffle l).Perm l) (fuel : Nat) (p : Params R)
    (before new : List Ev) (o : Outcome Unit)
    (h : generateMutations w fuel p before = (o, before ++ new))
    (left : Nat) (t : MutationType) (i : Nat) (res : MutatorResult) (ast : Json)
    (htried : .tried left t i res ast ∈ new) :
    ∃ language ft ast0 n m rng pos, w.recognize before p.fileName p.preferences = .ok (language, ft) ∧
      w.load before language ft p.fileName p.preferences = .ok ast0 ∧
      m ∈ selectMutators (w.lang language) p.mutations ∧ m.implements = t ∧
      (countMutableNodes (w.lang language).ctx (functionPermissions p.functions)
        (w.shuffle (selectMutators (w.lang language) p.mutations)) ast0).get? t = some n ∧ i < n ∧
      ServedAt m ast0 rng pos
        (runMaker (w.lang language).ctx (functionPermissions p.functions) m i ast0 rng) ∧
      res.index = some i := by
  rcases file_events w fuel p before new o h with ⟨-, -, -, -, h4⟩ | ⟨language, ft, ast0, todo, rng, s, hl, hnew⟩
  · obtain ⟨d, it, h5, -⟩ := h4 _ htried
    cases h5
  · obtain ⟨rounds, lo, tail, hh, hlog, htail, hend, -, htl⟩ := loop_history _ _ _ _ _ _ hl.loop
    obtain ⟨-, -, -, q4⟩ := extras_quiet w (w.lang language) p ast0
    have hmade : ∃ n rng rng', (countMutableNodes (w.lang language).ctx (functionPermissions p.functions)
        (w.shuffle (selectMutators (w.lang language) p.mutations)) ast0).get? t = some n ∧ (0 < n → i < n) ∧
        mutateAst (w.lang language) (w.shuffle (selectMutators (w.lang language) p.mutations))
          (functionPermissions p.functions)
          (calculateNodePaths (w.lang language).ctx (functionPermissions p.functions) ast0) ast0 t i rng =
          .ok (ast, res, rng') := by
      rw [hnew] at htried
      rcases List.mem_append.1 htried with hm | hm
      · obtain ⟨d, hd | hd⟩ := q4 _ hm <;> cases hd
      · rw [hlog] at hm
        rcases List.mem_append.1 hm with hm | hm
        · unfold logOf at hm
          rw [List.mem_flatMap] at hm
          obtain ⟨r, hr, hin⟩ := hm
          obtain ⟨a, b, e⟩ := List.append_of_mem hr
          have hst : r.start = .tried left t i res ast := by
            unfold Round.events at hin
            cases hf : r.fate with
            | duplicate => rw [hf] at hin; simp at hin; exact hin.symm
            | rejected => rw [hf] at hin; simp at hin; exact hin.symm
            | written d =>
              rw [hf] at hin
              simp only at hin
              split at hin <;> (simp at hin; exact hin.symm)
          have hm := (hh.ok a r b e).made
          unfold Round.start at hst
          injection hst with h1 h2 h3 h4 h5
          rw [h2, h3, h4, h5] at hm
          exact hm
        · exact htl _ hm _ _ _ _ _ rfl
    obtain ⟨n, rng', rng'', hcount, hlt, hmut⟩ := hmade
    have hpos : 0 < n := by
      rcases Nat.eq_zero_or_pos n with rfl | hp
      · exact absurd hcount (countTable_pos _ _ _ _ _)
      · exact hp
    unfold mutateAst at hmut
    split at hmut
    · cases hmut
    · rename_i m hfind
      have hm := List.mem_of_find?_eq_some hfind
      have ht : m.implements = t := by simpa using List.find?_some hfind
      have hnod : ((w.shuffle (selectMutators (w.lang language) p.mutations)).map (·.implements)).Nodup :=
        ((hsh _).map _).nodup_iff.2 (selectMutators_nodup _ _)
      have hcand := get?_countMutableNodes (w.lang language).ctx (functionPermissions p.functions) _ hnod m hm ast0
      rw [ht, hcount] at hcand
      obtain ⟨pos, hserved⟩ := C08_index_below_count_is_served (w.lang language).ctx
        (functionPermissions p.functions) _ hnod m hm ast0 n i rng' (by rw [ht]; exact hcount) (hlt hpos)
      refine ⟨language, ft, ast0, n, m, rng', pos, hl.recognized, hl.loaded, (hsh _).mem_iff.1 hm, ht, hcount,
        hlt hpos, hserved, ?_⟩
      simp only at hmut
      split at hmut
      · cases hmut
      · cases hmut
      · cases hmut
      · split at hmut
        · injection hmut with hmut
          injection hmut with _ hmut
          injection hmut with hmut _
          rw [← hmut]
        · cases hmut

end Mutagenyx
