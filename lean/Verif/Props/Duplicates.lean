import Verif.Proofs.Duplicates
import Verif.Props.Results
import Verif.Props.Demo

/-!
# Only the same mutant is passed over as a duplicate (property C97)

The loop keeps the reports of the mutants it wrote (`mutation_generator.rs:456-540`) and passes over a mutant
whose report is among them.  The report holds the algorithm, the node's number, its id and a digest of random choices.
That different lists of choices have different digests (sha256) is a hypothesis here.
-/

namespace Mutagenyx
open Json
namespace Duplicates

variable {R : Type} [Rand R] {env : MutEnv}

theorem solidity_told (hd : ∀ a b, env.digest a = env.digest b → a = b) {t : MutationType} {m : Mutator R}
    (hm : Solidity.mutatorFor env t = some m) (h1 : t ≠ .integer) (h2 : t ≠ .swapFunctionArguments) : Told m.mutate := by
  cases t <;> cases hm
  all_goals first
    | exact absurd rfl h1
    | exact absurd rfl h2
    | exact solidity_binary hd
    | exact solidity_unary hd
    | exact solidity_delete hd
    | exact solidity_call hd
    | exact solidity_if hd
    | exact solidity_operands
    | exact solidity_lines hd
    | exact solidity_require
    | exact solidity_delegate
    | exact solidity_assignment hd
    | exact solidity_unchecked hd

theorem vyper_told (hd : ∀ a b, env.digest a = env.digest b → a = b) {t : MutationType} {m : Mutator R}
    (hm : Vyper.mutatorFor env t = some m) (h1 : t ≠ .integer) : Told m.mutate := by
  cases t <;> cases hm
  all_goals first
    | exact absurd rfl h1
    | exact vyper_binary hd
    | exact vyper_unary
    | exact vyper_delete hd
    | exact vyper_call hd
    | exact vyper_if hd
    | exact vyper_operands
    | exact vyper_lines hd
    | exact vyper_arguments hd
    | exact vyper_assignment hd

/-- For numbers of Solidity, unless a random number is put in, the report tells what was done. -/
theorem solidity_integer (hd : ∀ a b, env.digest a = env.digest b → a = b) {j j₁ j₂ : Json}
    {rep₁ rep₂ : MutatorResult} {c₁ c₂ : Option Json} {r₁ r₂ s₁ s₂ : R}
    (h₁ : Solidity.integerMutate env j r₁ = .ok (j₁, rep₁, c₁, s₁)) (h₂ : Solidity.integerMutate env j r₂ = .ok (j₂, rep₂, c₂, s₂))
    (h : rep₁.randomBehaviorHash = rep₂.randomBehaviorHash) (hne : rep₁.randomBehaviorHash ≠ some (env.digest [.byte 2])) :
    j₁ = j₂ ∧ c₁ = c₂ := by
  have key : ∀ {r s : R} {j' : Json} {rep : MutatorResult} {c : Option Json}, Solidity.integerMutate env j r = .ok (j', rep, c, s) →
      rep.randomBehaviorHash = some (env.digest [.byte ((nextU64 r).1 % 3)]) := by
    intro r s j' rep c hh
    simp only [Solidity.integerMutate] at hh
    repeat' (split at hh)
    all_goals first
      | (cases hh; done)
      | (cases hh; rfl)
  have k₁ := key h₁
  have k₂ := key h₂
  rw [k₁, k₂] at h
  injection h with h
  have hc := hd _ _ h
  injection hc with hc
  injection hc with hc
  rw [k₁] at hne
  have hn : (nextU64 r₁).1 % 3 ≠ 2 := fun e => hne (by rw [e])
  simp only [Solidity.integerMutate] at h₁ h₂
  rw [if_neg hn] at h₁
  rw [← hc, if_neg hn] at h₂
  cases hv : j.getStrForKey "value" with
  | none => simp only [hv] at h₁ h₂; cases h₁; cases h₂; exact ⟨rfl, rfl⟩
  | some v =>
    simp only [hv] at h₁ h₂
    generalize Solidity.integerStep env (if (nextU64 r₁).1 % 3 = 0 then 1 else -1) v = x at h₁ h₂
    cases x with
    | none => cases h₁
    | some x => cases h₁; cases h₂; exact ⟨rfl, rfl⟩

/-- The same for Vyper. -/
theorem vyper_integer (hd : ∀ a b, env.digest a = env.digest b → a = b) {j j₁ j₂ : Json}
    {rep₁ rep₂ : MutatorResult} {c₁ c₂ : Option Json} {r₁ r₂ s₁ s₂ : R}
    (h₁ : Vyper.integerMutate env j r₁ = .ok (j₁, rep₁, c₁, s₁)) (h₂ : Vyper.integerMutate env j r₂ = .ok (j₂, rep₂, c₂, s₂))
    (h : rep₁.randomBehaviorHash = rep₂.randomBehaviorHash) (hne : rep₁.randomBehaviorHash ≠ some (env.digest [.index 2])) :
    j₁ = j₂ ∧ c₁ = c₂ := by
  have key : ∀ {r s : R} {j' : Json} {rep : MutatorResult} {c : Option Json}, Vyper.integerMutate env j r = .ok (j', rep, c, s) →
      rep.randomBehaviorHash = some (env.digest [.index ((nextU64 r).1 % 3)]) := by
    intro r s j' rep c hh
    simp only [Vyper.integerMutate] at hh
    repeat' (split at hh)
    all_goals first
      | (cases hh; done)
      | (cases hh; rfl)
  have k₁ := key h₁
  have k₂ := key h₂
  rw [k₁, k₂] at h
  injection h with h
  have hc := hd _ _ h
  injection hc with hc
  injection hc with hc
  rw [k₁] at hne
  have hn : (nextU64 r₁).1 % 3 ≠ 2 := fun e => hne (by rw [e])
  simp only [Vyper.integerMutate] at h₁ h₂
  rw [if_neg hn] at h₁
  rw [← hc, if_neg hn] at h₂
  generalize (Json.field? "value" j).bind Json.asI64 = v at h₁ h₂
  cases v with
  | none => cases h₁; cases h₂; exact ⟨rfl, rfl⟩
  | some v =>
    simp only at h₁ h₂
    generalize addI64 env.overflowChecks v (if (nextU64 r₁).1 % 3 = 0 then 1 else -1) = x at h₁ h₂
    cases x with
    | none => cases h₁
    | some x => cases h₁; cases h₂; exact ⟨rfl, rfl⟩
/-! ### The report names the algorithm -/

theorem solidity_type {t : MutationType} {m : Mutator R} (hm : Solidity.mutatorFor env t = some m) {j j' : Json} {r r' : R}
    {rep : MutatorResult} {c : Option Json} (h : m.mutate j r = .ok (j', rep, c, r')) : rep.mutationType = some t := by
  cases t <;> cases hm <;>
    simp only [Solidity.binaryOpMutate, Solidity.unaryOpMutate, Solidity.deleteStatementMutate, Solidity.functionCallMutate,
      Solidity.ifMutate, Solidity.swapOperandsMutate, Solidity.swapLinesMutate, Solidity.requireMutate, Solidity.delegateCallMutate,
      Solidity.assignmentMutate, Solidity.uncheckedBlockMutate, Solidity.integerMutate, Solidity.swapArgumentsMutate] at h <;>
    repeat' (split at h)
  all_goals first
    | (cases h; done)
    | (cases h; rfl)

theorem vyper_type {t : MutationType} {m : Mutator R} (hm : Vyper.mutatorFor env t = some m) {j j' : Json} {r r' : R}
    {rep : MutatorResult} {c : Option Json} (h : m.mutate j r = .ok (j', rep, c, r')) : rep.mutationType = some t := by
  cases t <;> cases hm <;>
    simp only [Vyper.binaryOpMutate, Vyper.unaryOpMutate, Vyper.deleteStatementMutate, Vyper.functionCallMutate,
      Vyper.ifMutate, Vyper.swapOperandsMutate, Vyper.swapLinesMutate,
      Vyper.assignmentMutate, Vyper.integerMutate, Vyper.swapArgumentsMutate] at h <;>
    repeat' (split at h)
  all_goals first
    | (cases h; done)
    | (cases h; rfl)

/-! ### Mutants of a tree -/

/-- What goes into the digest when a random number is put in. -/
def drawn : Language → HashPart
  | .solidity => .byte 2
  | .vyper => .index 2

theorem told (hd : ∀ a b, env.digest a = env.digest b → a = b) {lang : Language} {t : MutationType} {m : Mutator R}
    (hm : languageMutator env lang t = some m) {j j₁ j₂ : Json} {rep₁ rep₂ : MutatorResult} {c₁ c₂ : Option Json} {r₁ r₂ s₁ s₂ : R}
    (h1 : t = .integer → rep₁.randomBehaviorHash ≠ some (env.digest [drawn lang]))
    (h2 : lang = .solidity → t ≠ .swapFunctionArguments)
    (h₁ : m.mutate j r₁ = .ok (j₁, rep₁, c₁, s₁)) (h₂ : m.mutate j r₂ = .ok (j₂, rep₂, c₂, s₂))
    (h : rep₁.randomBehaviorHash = rep₂.randomBehaviorHash) : j₁ = j₂ ∧ c₁ = c₂ := by
  by_cases ht : t = .integer
  · subst ht
    cases lang <;> cases hm
    · exact solidity_integer hd h₁ h₂ h (h1 rfl)
    · exact vyper_integer hd h₁ h₂ h (h1 rfl)
  · cases lang with
    | solidity => exact solidity_told hd hm ht (h2 rfl) h₁ h₂ h
    | vyper => exact vyper_told hd hm ht h₁ h₂ h

theorem told_type {lang : Language} {t : MutationType} {m : Mutator R} (hm : languageMutator env lang t = some m) {j j' : Json}
    {r r' : R} {rep : MutatorResult} {c : Option Json} (h : m.mutate j r = .ok (j', rep, c, r')) : rep.mutationType = some t := by
  cases lang with
  | solidity => exact solidity_type hm h
  | vyper => exact vyper_type hm h

/-- How a mutant comes about. -/
theorem made_by (lang : Language) (env : MutEnv) (types : List MutationType) (functions : List String)
    (ms : List (Mutator R)) (hms : ∀ m ∈ ms, m ∈ selectMutators (lang.delegate env) types)
    (hnod : (ms.map (·.implements)).Nodup) (paths : PathMap) (ast mutant : Json) (t : MutationType)
    (index n : Nat) (rng rng' : R) (report : MutatorResult)
    (hcount : (countMutableNodes lang.ctx (functionPermissions functions) ms ast).get? t = some n) (hi : 0 < n → index < n)
    (h : mutateAst (lang.delegate env) ms (functionPermissions functions) paths ast t index rng = .ok (mutant, report, rng')) :
    ∃ (m : Mutator R) (pos : Pos) (nd nd' : Json) (rep : MutatorResult) (comment : Option Json) (rng2 : R),
      ms.find? (fun m => m.implements = t) = some m ∧ languageMutator env lang t = some m ∧
      (cand lang.ctx (functionPermissions functions) m.isMutable ast false).1[index]? = some pos ∧
      nodeAt pos ast = some nd ∧ m.mutate nd rng = .ok (nd', rep, comment, rng2) ∧
      report = { rep with index := some index } ∧
      mutant = addComment (lang.delegate env : Lang R) paths comment (commentTarget lang rep nd') (replaceAt pos nd' ast) := by
  unfold mutateAst at h
  split at h
  · cases h
  · rename_i m hfind
    have hm := List.mem_of_find?_eq_some hfind
    have ht : m.implements = t := by simpa using List.find?_some hfind
    have hcand := get?_countMutableNodes lang.ctx (functionPermissions functions) ms hnod m hm ast
    rw [ht, hcount] at hcand
    have hpos : 0 < n := by
      rcases Nat.eq_zero_or_pos n with rfl | hp
      · exact absurd hcount (countTable_pos _ _ _ _ _)
      · exact hp
    have hlen : index < (cand lang.ctx (functionPermissions functions) m.isMutable ast false).1.length := by
      split at hcand
      · cases hcand
      · cases hcand; exact hi hpos
    have hget := List.getElem?_eq_getElem hlen
    obtain ⟨t', ht', hfac⟩ := Results.mem_selectMutators _ _ m (hms m hm)
    simp only at h
    split at h
    · cases h
    · cases h
    · cases h
    · rename_i hfail
      split at h
      · rename_i hast
        injection h with h
        injection h with h1 h
        injection h with h2 h3
        obtain ⟨nd, nd', rep, comment, rng2, r1, r2, r3, r4, r5, r6, r7⟩ :=
          Results.maker_result lang (functionPermissions functions) m ast index rng _ hget hfail
        have htt : t = t' := by rw [← ht]; exact Results.implements_of lang env hfac
        subst htt
        refine ⟨m, _, nd, nd', rep, comment, rng2, hfind, hfac, hget, r1, r3, ?_, ?_⟩
        · rw [← h2]
          exact congrArg (fun r : MutatorResult => { r with index := some index }) r5
        · have h1 : addComment (lang.delegate env) _ (runMaker lang.ctx (functionPermissions functions) m index ast rng).2.comment
            (runMaker lang.ctx (functionPermissions functions) m index ast rng).2.mutatedNodeId
            (runMaker lang.ctx (functionPermissions functions) m index ast rng).1 = mutant := h1
          rw [r6, r4, r7] at h1
          exact h1.symm
      · cases h

/-- Mutants of a tree with the same report are the same. -/
theorem same_mutant (hd : ∀ a b, env.digest a = env.digest b → a = b) (lang : Language) (types : List MutationType)
    (functions : List String) (ms : List (Mutator R)) (hms : ∀ m ∈ ms, m ∈ selectMutators (lang.delegate env) types)
    (hnod : (ms.map (·.implements)).Nodup) (paths : PathMap) (ast : Json) {report : MutatorResult}
    (hint : report.mutationType = some .integer → report.randomBehaviorHash ≠ some (env.digest [drawn lang]))
    (hswap : lang = .solidity → report.mutationType ≠ some .swapFunctionArguments)
    {mutant₁ : Json} {t₁ : MutationType} {i₁ n₁ : Nat} {r₁ s₁ : R}
    (hc₁ : (countMutableNodes lang.ctx (functionPermissions functions) ms ast).get? t₁ = some n₁) (hi₁ : 0 < n₁ → i₁ < n₁)
    (h₁ : mutateAst (lang.delegate env) ms (functionPermissions functions) paths ast t₁ i₁ r₁ = .ok (mutant₁, report, s₁))
    {mutant₂ : Json} {t₂ : MutationType} {i₂ n₂ : Nat} {r₂ s₂ : R}
    (hc₂ : (countMutableNodes lang.ctx (functionPermissions functions) ms ast).get? t₂ = some n₂) (hi₂ : 0 < n₂ → i₂ < n₂)
    (h₂ : mutateAst (lang.delegate env) ms (functionPermissions functions) paths ast t₂ i₂ r₂ = .ok (mutant₂, report, s₂)) :
    mutant₁ = mutant₂ := by
  obtain ⟨m₁, p₁, nd₁, nd₁', rep₁, c₁, q₁, a1, a2, a3, a4, a5, a6, a7⟩ :=
    made_by lang env types functions ms hms hnod paths ast mutant₁ t₁ i₁ n₁ r₁ s₁ report hc₁ hi₁ h₁
  obtain ⟨m₂, p₂, nd₂, nd₂', rep₂, c₂, q₂, b1, b2, b3, b4, b5, b6, b7⟩ :=
    made_by lang env types functions ms hms hnod paths ast mutant₂ t₂ i₂ n₂ r₂ s₂ report hc₂ hi₂ h₂
  have hrep := a6.symm.trans b6
  injection hrep with e1 e2 e3 e4
  have hi : i₁ = i₂ := by injection e2
  have ht₁ := told_type a2 a5
  have ht₂ := told_type b2 b5
  have ht : t₁ = t₂ := by
    have := ht₁.symm.trans (e1.trans ht₂)
    injection this
  subst hi ht
  rw [a2] at b2; cases b2
  rw [a3] at b3; cases b3
  rw [a4] at b4; cases b4
  have htr : report.mutationType = some t₁ := by rw [a6]; exact ht₁
  obtain ⟨rfl, rfl⟩ := told hd a2 (fun e hh => hint (e ▸ htr) (by rw [a6]; exact hh)) (fun e e' => hswap e (e' ▸ htr)) a5 b5 e4
  have : rep₁ = rep₂ ∨ commentTarget lang rep₁ nd₁' = commentTarget lang rep₂ nd₁' := by
    right; unfold commentTarget; rw [e3]
  rw [a7, b7]
  rcases this with rfl | this
  · rfl
  · rw [this]

/-! ### Runs -/

/-- The events that show a mutant: the attempt at it, and its being written. -/
def Shows (e : Ev) (ast : Json) (res : MutatorResult) : Prop :=
  (∃ left t i, e = .tried left t i res ast) ∨ ∃ d, e = .output d (.mutant ast res)

theorem shows_round {v : Bool} {r : Round} {e : Ev} {ast : Json} {res : MutatorResult} (he : e ∈ r.events v) (hs : Shows e ast res) :
    r.ast = ast ∧ r.res = res := by
  unfold Round.events Round.start at he
  cases hf : r.fate with
  | duplicate =>
    rw [hf] at he
    rcases hs with ⟨l, t, i, rfl⟩ | ⟨d, rfl⟩ <;> simp at he
    exact ⟨he.2.2.2.2.symm, he.2.2.2.1.symm⟩
  | rejected =>
    rw [hf] at he
    rcases hs with ⟨l, t, i, rfl⟩ | ⟨d, rfl⟩ <;> simp at he
    exact ⟨he.2.2.2.2.symm, he.2.2.2.1.symm⟩
  | written d =>
    rw [hf] at he
    simp only at he
    split at he <;> rcases hs with ⟨l, t, i, rfl⟩ | ⟨d, rfl⟩ <;> simp at he
    · exact ⟨he.2.2.2.2.symm, he.2.2.2.1.symm⟩
    · exact ⟨he.2.1.symm, he.2.2.symm⟩
    · exact ⟨he.2.2.2.2.symm, he.2.2.2.1.symm⟩
    · exact ⟨he.2.1.symm, he.2.2.symm⟩

/-- A mutant that is shown while a file is processed was made from the file's tree. -/
theorem shown_made (w : World R) (fuel : Nat) (p : Params R) (before new : List Ev) (o : Outcome Unit)
    (h : generateMutations w fuel p before = (o, before ++ new)) {e : Ev} (he : e ∈ new) {ast : Json} {res : MutatorResult}
    (hs : Shows e ast res) :
    ∃ language ft ast0 t i n rng rng', w.recognize before p.fileName p.preferences = .ok (language, ft) ∧
      w.load before language ft p.fileName p.preferences = .ok ast0 ∧
      (countMutableNodes (w.lang language).ctx (functionPermissions p.functions)
        (w.shuffle (selectMutators (w.lang language) p.mutations)) ast0).get? t = some n ∧ (0 < n → i < n) ∧
      mutateAst (w.lang language) (w.shuffle (selectMutators (w.lang language) p.mutations)) (functionPermissions p.functions)
        (calculateNodePaths (w.lang language).ctx (functionPermissions p.functions) ast0) ast0 t i rng = .ok (ast, res, rng') := by
  rcases file_events w fuel p before new o h with ⟨-, -, -, -, h4⟩ | ⟨language, ft, ast0, todo, rng, s, hl, hnew⟩
  · obtain ⟨d, it, rfl, h5⟩ := h4 _ he
    rcases hs with ⟨l, t, i, h⟩ | ⟨d', h⟩
    · cases h
    · cases h; exact absurd rfl (h5 _ _)
  · obtain ⟨rounds, lo, tail, hh, hlog, htail, -, -, htl⟩ := loop_history _ _ _ _ _ _ hl.loop
    obtain ⟨-, -, -, q4⟩ := extras_quiet w (w.lang language) p ast0
    rw [hnew] at he
    rcases List.mem_append.1 he with hm | hm
    · obtain ⟨d, hd⟩ := q4 _ hm
      rcases hs with ⟨l, t, i, rfl⟩ | ⟨d', rfl⟩ <;> rcases hd with hd | hd <;> cases hd
    · rw [hlog] at hm
      rcases List.mem_append.1 hm with hm | hm
      · unfold logOf at hm
        rw [List.mem_flatMap] at hm
        obtain ⟨r, hr, hin⟩ := hm
        obtain ⟨a, b, e'⟩ := List.append_of_mem hr
        obtain ⟨rfl, rfl⟩ := shows_round hin hs
        obtain ⟨n, g, g', g1, g2, g3⟩ := (hh.ok a r b e').made
        exact ⟨language, ft, ast0, r.t, r.index, n, g, g', hl.recognized, hl.loaded, g1, g2, g3⟩
      · rcases hs with ⟨l, t, i, rfl⟩ | ⟨d, rfl⟩
        · obtain ⟨n, g, g', g1, g2, g3⟩ := htl _ hm _ _ _ _ _ rfl
          exact ⟨language, ft, ast0, t, i, n, g, g', hl.recognized, hl.loaded, g1, g2, g3⟩
        · have := htail.mutantResults
          have h2 : res ∈ mutantResults tail := by
            unfold mutantResults
            exact List.mem_filterMap.2 ⟨_, hm, rfl⟩
          rw [this] at h2
          cases h2

theorem mem_mutantResults {res : MutatorResult} {l : List Ev} (h : res ∈ mutantResults l) :
    ∃ d ast, .output d (.mutant ast res) ∈ l := by
  unfold mutantResults at h
  obtain ⟨e, he, h2⟩ := List.mem_filterMap.1 h
  split at h2
  · cases h2; exact ⟨_, _, he⟩
  · cases h2

/-- A digest under which different choices differ: everything in unary. -/
def spell : HashPart → List Char
  | .text s => 't' :: (s.toList.flatMap (fun c => ['c', c]) ++ ['.'])
  | .byte b => 'b' :: (List.replicate b '1' ++ ['.'])
  | .index i => 'i' :: (List.replicate i '1' ++ ['.'])
  | .int (.ofNat n) => 'p' :: (List.replicate n '1' ++ ['.'])
  | .int (.negSucc n) => 'n' :: (List.replicate n '1' ++ ['.'])

theorem unary_prefix {m n : Nat} {xs ys : List Char}
    (h : List.replicate m '1' ++ '.' :: xs = List.replicate n '1' ++ '.' :: ys) : m = n ∧ xs = ys := by
  induction m generalizing n with
  | zero =>
    cases n with
    | zero => simpa using h
    | succ n => simp [List.replicate_succ] at h
  | succ m ih =>
    cases n with
    | zero => simp [List.replicate_succ] at h
    | succ n =>
      simp only [List.replicate_succ, List.cons_append, List.cons.injEq, true_and] at h
      obtain ⟨rfl, h2⟩ := ih h
      exact ⟨rfl, h2⟩

theorem text_prefix {s t xs ys : List Char}
    (h : s.flatMap (fun c => ['c', c]) ++ '.' :: xs = t.flatMap (fun c => ['c', c]) ++ '.' :: ys) : s = t ∧ xs = ys := by
  induction s generalizing t with
  | nil =>
    cases t with
    | nil => simpa using h
    | cons c t => simp at h
  | cons c s ih =>
    cases t with
    | nil => simp at h
    | cons d t =>
      simp only [List.flatMap_cons, List.cons_append, List.nil_append, List.cons.injEq, true_and] at h
      obtain ⟨rfl, h⟩ := h
      obtain ⟨rfl, h2⟩ := ih h
      exact ⟨rfl, h2⟩

theorem spell_prefix {p q : HashPart} {xs ys : List Char} (h : spell p ++ xs = spell q ++ ys) : p = q ∧ xs = ys := by
  rcases p with s | b | i | (n | n) <;> rcases q with s' | b' | i' | (n' | n') <;>
    simp only [spell, List.cons_append, List.append_assoc, List.nil_append, List.cons.injEq, true_and] at h <;>
    first
      | (exact absurd h.1 (by decide))
      | (obtain ⟨rfl, h2⟩ := unary_prefix h; exact ⟨rfl, h2⟩)
      | (obtain ⟨e, h2⟩ := text_prefix h; exact ⟨congrArg _ (String.toList_inj.1 e), h2⟩)

theorem spell_inj : ∀ {a b : List HashPart}, a.flatMap spell = b.flatMap spell → a = b
  | [], [], _ => rfl
  | [], q :: b, h => by rcases q with s | b | i | (n | n) <;> simp [spell] at h
  | p :: a, [], h => by rcases p with s | b | i | (n | n) <;> simp [spell] at h
  | p :: a, q :: b, h => by
    simp only [List.flatMap_cons] at h
    obtain ⟨rfl, h2⟩ := spell_prefix h
    rw [spell_inj h2]

/-- The environment of the examples, with that digest. -/
def plain : MutEnv := { DemoNodes.env with digest := fun ps => String.ofList (ps.flatMap spell) }

theorem plain_inj (a b : List HashPart) (h : plain.digest a = plain.digest b) : a = b :=
  spell_inj (String.ofList_injective h)

/-- An increment. -/
def increment (id : Nat) : Json :=
  .obj [("id", .num (.int id)), ("nodeType", .str "UnaryOperation"), ("prefix", .bool true), ("operator", .str "++")]

/-- A number. -/
def number (id : Nat) (v : String) : Json :=
  .obj [("id", .num (.int id)), ("nodeType", .str "Literal"), ("kind", .str "number"), ("value", .str v)]

/-- A number of a Vyper program. -/
def vyperNumber (v : Int) : Json := .obj [("ast_type", .str "Int"), ("node_id", .num (.int 3)), ("value", .num (.int v))]

/-- A Solidity tree with two increments and two numbers. -/
def tree : Json :=
  .obj [("id", .num (.int 1)), ("nodeType", .str "SourceUnit"), ("nodes", .arr [increment 2, number 3 "1", increment 4, number 5 "2"])]

/-- The world of the demonstration with the algorithms of the program. -/
def world : World ListRand where
  lang := fun l => l.delegate plain
  recognize _ _ _ := .ok (.solidity, .source)
  load _ _ _ _ _ := .ok tree
  compiles _ _ _ _ _ := .ok true
  output _ _ _ := .ok ()
  defaultCompiler _ := []
  loadJson _ _ := none
  shuffle l := l
  seedRng n := ⟨[n]⟩
  now := 0

/-- One file, two mutants wanted. -/
def params (t : MutationType) (draws : List Nat) : Params ListRand where
  fileName := "a.sol"
  numberOfMutants := 2
  rngSeed := 0
  rng := ⟨draws⟩
  outputDirectory := "out"
  useStdout := false
  mutations := [t]
  verify := false
  printOriginal := false
  saveConfig := false
  preferences := []
  functions := []

end Duplicates

open Duplicates

variable {R : Type} [Rand R]

/-- **C97** for the attempts of a run: if a mutant's report is that of a mutant written before for the same file, then
it is that mutant, tree for tree.  With C06 (`C06_dropped_iff_written_before`) this says that only repetitions are passed over.
Missing: integers replaced by random numbers in both languages, and the swapping of function arguments in Solidity. -/
theorem C97_passed_over_partial (w : World R) (env : MutEnv) (hd : ∀ a b, env.digest a = env.digest b → a = b)
    (hw : ∀ l, w.lang l = l.delegate env) (hsh : ∀ l, (w.shuffle l).Perm l) (fuel : Nat) (p : Params R)
    (before new : List Ev) (o : Outcome Unit) (h : generateMutations w fuel p before = (o, before ++ new))
    (language : Language) (ft : FileType) (hlang : w.recognize before p.fileName p.preferences = .ok (language, ft))
    (pre post : List Ev) (left : Nat) (t : MutationType) (i : Nat) (res : MutatorResult) (ast : Json)
    (htried : new = pre ++ .tried left t i res ast :: post) (hres : res ∈ mutantResults pre)
    (h1 : res.mutationType = some .integer → res.randomBehaviorHash ≠ some (env.digest [drawn language]))
    (h2 : language = .solidity → res.mutationType ≠ some .swapFunctionArguments) :
    ∃ d, .output d (.mutant ast res) ∈ pre := by
  obtain ⟨d, ast', hin⟩ := mem_mutantResults hres
  have hin' : .output d (.mutant ast' res) ∈ new := by rw [htried]; exact List.mem_append_left _ hin
  have ht : .tried left t i res ast ∈ new := by rw [htried]; simp
  obtain ⟨l₁, f₁, ast₁, t₁, i₁, n₁, r₁, s₁, a1, a2, a3, a4, a5⟩ := shown_made w fuel p before new o h hin' (.inr ⟨d, rfl⟩)
  obtain ⟨l₂, f₂, ast₂, t₂, i₂, n₂, r₂, s₂, b1, b2, b3, b4, b5⟩ := shown_made w fuel p before new o h ht (.inl ⟨left, t, i, rfl⟩)
  rw [hlang] at a1 b1
  cases a1; cases b1
  rw [a2] at b2; cases b2
  rw [hw] at a3 a5 b3 b5
  have hms : ∀ m ∈ w.shuffle (selectMutators (language.delegate env) p.mutations),
      m ∈ selectMutators (language.delegate env) p.mutations := fun m hm => (hsh _).mem_iff.1 hm
  have hnod : ((w.shuffle (selectMutators (language.delegate env) p.mutations)).map (·.implements)).Nodup :=
    ((hsh _).map _).nodup_iff.2 (selectMutators_nodup _ _)
  have := same_mutant hd language p.mutations p.functions _ hms hnod _ ast₁
    h1 h2 a3 a4 a5 b3 b4 b5
  subst this
  exact ⟨d, hin⟩

/-- The parts of a run of two mutants in which the second attempt comes to nothing: the report and tree of that attempt, and the
reports and trees of the two written mutants. -/
def Duplicates.parts : List Ev → Option ((MutatorResult × Json) × (MutatorResult × Json) × (MutatorResult × Json))
  | [.tried _ _ _ _ _, .output _ (.mutant a ra), .tried _ _ _ res ast, .tried _ _ _ _ _, .output _ (.mutant b rb)] =>
    some ((res, ast), (ra, a), (rb, b))
  | _ => none

theorem Duplicates.of_parts {l : List Ev} {res ra rb : MutatorResult} {ast a b : Json}
    (h : parts l = some ((res, ast), (ra, a), (rb, b))) :
    ∃ e₁ d₁ left t i e₂ d₂, l = [e₁, .output d₁ (.mutant a ra)] ++ .tried left t i res ast :: [e₂, .output d₂ (.mutant b rb)] ∧
      (∀ d r m, .output d (.mutant m r) ∈ l → m = a ∨ m = b) := by
  unfold parts at h
  split at h
  · injection h with h
    injection h with h1 h
    injection h with h2 h3
    injection h1 with h4 h5
    injection h2 with h6 h7
    injection h3 with h8 h9
    subst h4 h5 h6 h7 h8 h9
    refine ⟨_, _, _, _, _, _, _, rfl, ?_⟩
    intro d r m hm
    simp at hm
    rcases hm with hm | hm
    · exact .inl hm.2.1
    · exact .inr hm.2.1
  · cases h

/-- The facts about such a run. -/
theorem Duplicates.of_run (g : Outcome Unit × List Ev) (algorithm : MutationType) (other : Bool)
    (hok : g.1.toOption = some ())
    (h : ((parts g.2).map fun x => (decide (x.1.1 = x.2.1.1), x.1.1.mutationType, decide (x.1.2 ≠ x.2.1.2 ∧ x.1.2 ≠ x.2.2.2))) =
      some (true, some algorithm, other)) :
    ∃ (new pre post : List Ev) (left : Nat) (t : MutationType) (i : Nat) (res : MutatorResult) (ast : Json),
      g = (.ok (), [] ++ new) ∧ new = pre ++ .tried left t i res ast :: post ∧ res ∈ mutantResults pre ∧
      res.mutationType = some algorithm ∧ (other = true → ∀ d res', .output d (.mutant ast res') ∉ new) := by
  obtain ⟨o, l⟩ := g
  have ho : o = .ok () := by
    cases o with
    | ok u => rfl
    | err e => cases hok
    | panic => cases hok
    | outOfFuel => cases hok
  subst ho
  rw [Option.map_eq_some_iff] at h
  obtain ⟨⟨⟨res, ast⟩, ⟨ra, a⟩, rb, b⟩, h1, h2⟩ := h
  injection h2 with h2 h3
  injection h3 with h3 h4
  have h2 : res = ra := by simpa using h2
  subst h2
  obtain ⟨e₁, d₁, left, t, i, e₂, d₂, h5, h6⟩ := of_parts h1
  refine ⟨l, _, _, left, t, i, res, ast, rfl, h5, List.mem_filterMap.2 ⟨.output d₁ (.mutant a res), by simp, rfl⟩, h3, ?_⟩
  intro ht d res' hin
  rw [ht] at h4
  have h4 := of_decide_eq_true h4
  rcases h6 _ _ _ hin with h | h
  · exact h4.1 h
  · exact h4.2 h

/-- A run in which a mutant is passed over, and the hypotheses of `C97_passed_over_partial` are met. -/
example : (∀ a b, plain.digest a = plain.digest b → a = b) ∧ (∀ l, Duplicates.world.lang l = l.delegate plain) ∧
    (∀ l, (Duplicates.world.shuffle l).Perm l) ∧
    ∃ (new pre post : List Ev) (left : Nat) (t : MutationType) (i : Nat) (res : MutatorResult) (ast : Json),
      generateMutations Duplicates.world 100 (params .unaryOp [0, 0, 0, 1, 0, 1, 1, 1]) [] = (.ok (), [] ++ new) ∧
      new = pre ++ .tried left t i res ast :: post ∧ res ∈ mutantResults pre ∧
      res.mutationType = some .unaryOp ∧ (false = true → ∀ d res', .output d (.mutant ast res') ∉ new) :=
  ⟨plain_inj, fun _ => rfl, fun l => List.Perm.refl l,
    Duplicates.of_run (generateMutations Duplicates.world 100 (params .unaryOp [0, 0, 0, 1, 0, 1, 1, 1]) []) .unaryOp false
      (by decide +kernel) (by decide +kernel)⟩

/-- **C97 is false for numbers**: the digest covers which of the three changes was made, not the number that was drawn
(`solidity/mutators.rs:1309-1378`).  In this run a mutant is passed over that was never written. -/
theorem C97_run_counterexample :
    ∃ (new pre post : List Ev) (left : Nat) (t : MutationType) (i : Nat) (res : MutatorResult) (ast : Json),
      generateMutations Duplicates.world 100 (params .integer [0, 0, 0, 2, 5, 0, 2, 7, 1, 2, 9]) [] = (.ok (), [] ++ new) ∧
      new = pre ++ .tried left t i res ast :: post ∧ res ∈ mutantResults pre ∧
      res.mutationType = some .integer ∧ ∀ d res', .output d (.mutant ast res') ∉ new := by
  obtain ⟨new, pre, post, left, t, i, res, ast, h1, h2, h3, h4, h5⟩ := Duplicates.of_run
    (generateMutations Duplicates.world 100 (params .integer [0, 0, 0, 2, 5, 0, 2, 7, 1, 2, 9]) []) .integer true
      (by decide +kernel) (by decide +kernel)
  exact ⟨new, pre, post, left, t, i, res, ast, h1, h2, h3, h4, h5 rfl⟩

/-- **C97 is false for numbers**, in both languages and for every digest: other numbers, same report. -/
theorem C97_integer_counterexample (env : MutEnv) :
    (∃ (j j₁ j₂ : Json) (rep : MutatorResult) (c₁ c₂ : Option Json) (r₁ r₂ s₁ s₂ : ListRand), Solidity.integerMutable j = true ∧
      Solidity.integerMutate env j r₁ = .ok (j₁, rep, c₁, s₁) ∧ Solidity.integerMutate env j r₂ = .ok (j₂, rep, c₂, s₂) ∧ j₁ ≠ j₂) ∧
    (∃ (j j₁ j₂ : Json) (rep : MutatorResult) (c₁ c₂ : Option Json) (r₁ r₂ s₁ s₂ : ListRand), Vyper.integerMutable j = true ∧
      Vyper.integerMutate env j r₁ = .ok (j₁, rep, c₁, s₁) ∧ Vyper.integerMutate env j r₂ = .ok (j₂, rep, c₂, s₂) ∧ j₁ ≠ j₂) := by
  have a1 : nextU64 (⟨[2, 5]⟩ : ListRand) = (2, ⟨[5]⟩) := by decide +kernel
  have a2 : nextU64 (⟨[5]⟩ : ListRand) = (5, ⟨[]⟩) := by decide +kernel
  have b1 : nextU64 (⟨[2, 7]⟩ : ListRand) = (2, ⟨[7]⟩) := by decide +kernel
  have b2 : nextU64 (⟨[7]⟩ : ListRand) = (7, ⟨[]⟩) := by decide +kernel
  have v5 : u64AsI64 5 = 5 := by decide +kernel
  have v7 : u64AsI64 7 = 7 := by decide +kernel
  have s5 : ∃ c, Solidity.integerMutate env (number 3 "1") (⟨[2, 5]⟩ : ListRand) =
      .ok (number 3 "5", ⟨some .integer, none, some 3, some (env.digest [.byte 2])⟩, c, ⟨[]⟩) := by
    apply Exists.intro; simp only [Solidity.integerMutate, a1, a2]; rfl
  have s7 : ∃ c, Solidity.integerMutate env (number 3 "1") (⟨[2, 7]⟩ : ListRand) =
      .ok (number 3 "7", ⟨some .integer, none, some 3, some (env.digest [.byte 2])⟩, c, ⟨[]⟩) := by
    apply Exists.intro; simp only [Solidity.integerMutate, b1, b2]; rfl
  have y5 : ∃ c, Vyper.integerMutate env (vyperNumber 1) (⟨[2, 5]⟩ : ListRand) =
      .ok (vyperNumber 5, ⟨some .integer, none, some 3, some (env.digest [.index 2])⟩, c, ⟨[]⟩) := by
    apply Exists.intro; simp only [Vyper.integerMutate, a1, a2, v5]; rfl
  have y7 : ∃ c, Vyper.integerMutate env (vyperNumber 1) (⟨[2, 7]⟩ : ListRand) =
      .ok (vyperNumber 7, ⟨some .integer, none, some 3, some (env.digest [.index 2])⟩, c, ⟨[]⟩) := by
    apply Exists.intro; simp only [Vyper.integerMutate, b1, b2, v7]; rfl
  obtain ⟨_, s5⟩ := s5
  obtain ⟨_, s7⟩ := s7
  obtain ⟨_, y5⟩ := y5
  obtain ⟨_, y7⟩ := y7
  exact ⟨⟨_, _, _, _, _, _, _, _, _, _, by decide, s5, s7, by decide⟩, _, _, _, _, _, _, _, _, _, _, by decide, y5, y7, by decide⟩

namespace Duplicates

/-- An argument of a call. -/
def argument (name type : String) : Json :=
  .obj [("name", .str name), ("nodeType", .str "Identifier"), ("typeDescriptions", .obj [("typeString", .str type)])]

/-- A call `f(a, b, x, y)` with arguments of two types. -/
def call (args : List Json) : Json := .obj [("id", .num (.int 7)), ("nodeType", .str "FunctionCall"), ("arguments", .arr args)]

end Duplicates

/-- **C97 is false for the arguments of Solidity's function calls**: the digest covers the number of the group of arguments with
one type, but the groups are numbered in the order of a hash map (`solidity/mutators.rs:1045-1075`), which differs between two
calls.  Only that order differs here. -/
theorem C97_arguments_counterexample :
    ∃ (env env' : MutEnv) (j j₁ j₂ : Json) (rep : MutatorResult) (c₁ c₂ : Option Json) (r s₁ s₂ : ListRand),
      env' = { env with groupOrder := env'.groupOrder, groupOrder_perm := env'.groupOrder_perm } ∧
      Solidity.swapArgumentsMutable j = true ∧
      Solidity.swapArgumentsMutate env j r = .ok (j₁, rep, c₁, s₁) ∧ Solidity.swapArgumentsMutate env' j r = .ok (j₂, rep, c₂, s₂) ∧
      j₁ ≠ j₂ :=
  ⟨plain, { plain with groupOrder := List.reverse, groupOrder_perm := fun l => List.reverse_perm l },
    call [argument "a" "uint256", argument "b" "uint256", argument "x" "bool", argument "y" "bool"],
    call [argument "b" "uint256", argument "a" "uint256", argument "x" "bool", argument "y" "bool"],
    call [argument "a" "uint256", argument "b" "uint256", argument "y" "bool", argument "x" "bool"],
    ⟨some .swapFunctionArguments, none, some 7, some "i."⟩, some (Solidity.commentNode "SwapFunctionArguments Mutator: switched '' for ''"),
    some (Solidity.commentNode "SwapFunctionArguments Mutator: switched '' for ''"), ⟨[]⟩, ⟨[]⟩, ⟨[]⟩,
    rfl, by decide, rfl, rfl, by decide⟩

end Mutagenyx
