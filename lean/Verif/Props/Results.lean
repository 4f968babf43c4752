import Verif.Props.Comments
import Verif.Props.Paths
import Verif.Props.Tool
import Verif.Spec.Mutant

/-!
# What a run leaves behind (property C68)
-/

namespace Mutagenyx
open Json

variable {S R : Type}

namespace Results

/-! ### One mutant -/

/-- What a served request yields, with the node that the comment is for. -/
theorem maker_result (lang : Language) (ps : Permissions) (m : Mutator R) (ast : Json) (index : Nat) (rng : R) (pos : Pos)
    (hp : (cand lang.ctx ps m.isMutable ast false).1[index]? = some pos) (hok : (runMaker lang.ctx ps m index ast rng).2.failure = none) :
    ∃ n n' rep comment rng', nodeAt pos ast = some n ∧ m.isMutable n = true ∧ m.mutate n rng = .ok (n', rep, comment, rng') ∧
      (runMaker lang.ctx ps m index ast rng).1 = replaceAt pos n' ast ∧ (runMaker lang.ctx ps m index ast rng).2.result = rep ∧
      (runMaker lang.ctx ps m index ast rng).2.comment = comment ∧
      (runMaker lang.ctx ps m index ast rng).2.mutatedNodeId = commentTarget lang rep n' := by
  obtain ⟨n, k, hn, ht⟩ := (maker_aux lang.ctx ps m index ast { rng := rng } (Nat.zero_le _)).1 pos hp
  obtain ⟨n1, hn1, hmut⟩ := cand_mutable lang.ctx ps m.isMutable (List.mem_of_getElem? hp)
  rw [hn] at hn1; cases hn1
  unfold runMaker at hok ⊢
  rw [ht] at hok ⊢
  unfold makerHit at hok ⊢
  simp only at hok ⊢
  cases hm : m.mutate n rng with
  | ok r =>
    obtain ⟨n', rep, comment, rng'⟩ := r
    refine ⟨n, n', rep, comment, rng', hn, hmut, hm, ?_, ?_, ?_, ?_⟩ <;> simp only
    unfold commentTarget
    have hid : lang.ctx.idOf n' = nodeIdIn lang n' := by cases lang <;> rfl
    rw [hid]
    cases rep.mutatedNodeId with
    | some => rfl
    | none => cases nodeIdIn lang n' <;> rfl
  | err e => rw [hm] at hok; cases hok
  | panic => rw [hm] at hok; cases hok
  | outOfFuel => rw [hm] at hok; cases hok

/-- The mutators of a run come from the factory. -/
theorem mem_selectMutators (l : Lang R) (types : List MutationType) (m : Mutator R) (h : m ∈ selectMutators l types) :
    ∃ t ∈ types, l.mutatorFor t = some m := by
  have key : ∀ (xs tbl : List (Mutator R)) (m : Mutator R), m ∈ xs.foldl (fun tbl m => insertMutator m tbl) tbl →
      m ∈ xs ∨ m ∈ tbl := by
    intro xs
    induction xs with
    | nil => intro tbl m h; exact .inr h
    | cons x xs ih =>
      intro tbl m h0
      rcases ih _ m h0 with h | h
      · exact .inl (List.mem_cons_of_mem _ h)
      · have : m = x ∨ m ∈ tbl := by
          clear ih h0
          replace h : m ∈ insertMutator x tbl := h
          induction tbl with
          | nil => exact .inl (by simpa [insertMutator] using h)
          | cons y ys ih =>
            simp only [insertMutator] at h
            split at h
            · rcases List.mem_cons.1 h with h | h
              · exact .inl h
              · exact .inr (List.mem_cons_of_mem _ h)
            · rcases List.mem_cons.1 h with h | h
              · exact .inr (by rw [h]; exact List.mem_cons_self)
              · rcases ih h with h | h
                · exact .inl h
                · exact .inr (List.mem_cons_of_mem _ h)
        rcases this with h | h
        · exact .inl (by rw [h]; exact List.mem_cons_self)
        · exact .inr h
  rcases key _ [] m h with h | h
  · obtain ⟨t, ht, hm⟩ := List.mem_filterMap.1 h
    exact ⟨t, ht, hm⟩
  · cases h

/-- What inserting a comment by a path does. -/
theorem insert_commented (lang : Language) (c ast : Json) (path : List Nat) (id : Nat)
    (hp : path.getLast? = some id) :
    GotComment lang id (some c) ast (insertCommentByPath lang.commenting ast c path) := by
  obtain ⟨up, rfl⟩ : ∃ up, path = up ++ [id] := by
    obtain ⟨ys, h⟩ := List.getLast?_eq_some_iff.1 hp
    exact ⟨ys, h⟩
  cases lang with
  | vyper =>
    rcases C16_vyper_only_adds ast c up id with h | h
    · show GotComment _ _ _ _ (insertCommentByPath Vyper.commenting ast c (up ++ [id]))
      rw [h]; exact .leftOut
    · exact .added c _ rfl h
  | solidity =>
    show GotComment _ _ _ _ (insertCommentByPath Solidity.commenting ast c (up ++ [id]))
    unfold insertCommentByPath
    rw [List.reverse_append]
    simp only [List.reverse_cons, List.reverse_nil, List.nil_append, List.singleton_append]
    rcases insertCommentLoop_spec Solidity.commenting id c up.reverse ast with ⟨_, h⟩ | ⟨a, _, p, n, _, hp, hm, h⟩
    · rw [h]; exact .leftOut
    · rw [h]
      by_cases hb : BranchBlock id n
      · exact .garbled c p n _ rfl rfl hp hb
      · rcases solidity_insert_spec id c hb hm with h' | ⟨h', _⟩
        · exact .added c _ rfl (h'.lift hp)
        · show GotComment _ _ _ _ (replaceAt p (Solidity.insertComment id c n) ast)
          rw [h', replaceAt_self hp]
          exact .leftOut

variable [Rand R]

omit [Rand R] in
theorem implements_of (lang : Language) (env : MutEnv) [Rand R] {t : MutationType} {m : Mutator R}
    (h : languageMutator env lang t = some m) : m.implements = t := by
  cases lang <;> cases t <;> cases h <;> rfl

/-- A mutant that `mutateAst` makes for a candidate of an algorithm. -/
theorem mutateAst_by (lang : Language) (env : MutEnv) (types : List MutationType) (functions : List String)
    (ms : List (Mutator R)) (hms : ∀ m ∈ ms, m ∈ selectMutators (lang.delegate env) types)
    (hnod : (ms.map (·.implements)).Nodup) (ast mutant : Json) (t : MutationType)
    (index n : Nat) (rng rng' : R) (report : MutatorResult)
    (hcount : (countMutableNodes lang.ctx (functionPermissions functions) ms ast).get? t = some n) (hi : 0 < n → index < n)
    (h : mutateAst (lang.delegate env) ms (functionPermissions functions)
      (calculateNodePaths lang.ctx (functionPermissions functions) ast) ast t index rng = .ok (mutant, report, rng')) :
    t ∈ types ∧ OneMutation (R := R) lang env [t] functions ast mutant report := by
  unfold mutateAst at h
  split at h
  · cases h
  · rename_i m hfind
    have hm := List.mem_of_find?_eq_some hfind
    have ht : m.implements = t := by simpa using List.find?_some hfind
    have hcand := get?_countMutableNodes lang.ctx (functionPermissions functions) ms hnod m hm ast
    rw [ht, hcount] at hcand
    have hpos : 0 < n := by
      rcases Nat.eq_zero_or_pos n with rfl | hp
      · exact absurd hcount (countTable_pos _ _ _ _ _)
      · exact hp
    have hlen : index < (cand lang.ctx (functionPermissions functions) m.isMutable ast false).1.length := by
      split at hcand
      · cases hcand
      · cases hcand; exact hi hpos
    have hget := List.getElem?_eq_getElem hlen
    obtain ⟨t', ht', hfac⟩ := mem_selectMutators _ _ m (hms m hm)
    simp only at h
    split at h
    · cases h
    · cases h
    · cases h
    · rename_i hfail
      split at h
      · rename_i hast
        injection h with h
        injection h with h1 h
        injection h with h2 h3
        obtain ⟨nd, nd', rep, comment, rng2, r1, r2, r3, r4, r5, r6, r7⟩ :=
          maker_result lang (functionPermissions functions) m ast index rng _ hget hfail
        have htt : t = t' := by rw [← ht]; exact implements_of lang env hfac
        subst htt
        refine ⟨ht', t, List.mem_singleton.2 rfl, m, hfac, _, nd, nd', rng, rng2, rep, comment, index, r1, r2, ?_, ?_, r3, ?_, ?_⟩
        · intro hne
          exact (cand_sound_aux lang.ctx hne m.isMutable ast false).2 rfl _ (List.getElem_mem hlen)
        · intro hnil
          subst hnil
          rw [← cand_all_aux lang.ctx m.isMutable ast false, hget]
        · rw [← h2]
          exact congrArg (fun r : MutatorResult => { r with index := some index }) r5
        · have h1 : addComment (lang.delegate env) _ (runMaker lang.ctx (functionPermissions functions) m index ast rng).2.comment
            (runMaker lang.ctx (functionPermissions functions) m index ast rng).2.mutatedNodeId
            (runMaker lang.ctx (functionPermissions functions) m index ast rng).1 = mutant := h1
          rw [r6, r4, r7] at h1
          rw [← h1]
          unfold addComment
          cases comment with
          | none => exact .leftOut
          | some c =>
            simp only
            split
            · rename_i path hpath
              exact insert_commented lang c _ path _ (C15_ends_with_self _ _ _ _ _ hpath)
            · exact .leftOut
      · cases h

theorem mutateAst_one (lang : Language) (env : MutEnv) (types : List MutationType) (functions : List String)
    (ms : List (Mutator R)) (hms : ∀ m ∈ ms, m ∈ selectMutators (lang.delegate env) types)
    (hnod : (ms.map (·.implements)).Nodup) (ast mutant : Json) (t : MutationType)
    (index n : Nat) (rng rng' : R) (report : MutatorResult)
    (hcount : (countMutableNodes lang.ctx (functionPermissions functions) ms ast).get? t = some n) (hi : 0 < n → index < n)
    (h : mutateAst (lang.delegate env) ms (functionPermissions functions)
      (calculateNodePaths lang.ctx (functionPermissions functions) ast) ast t index rng = .ok (mutant, report, rng')) :
    OneMutation (R := R) lang env types functions ast mutant report := by
  obtain ⟨h1, t', h2, h3⟩ := mutateAst_by lang env types functions ms hms hnod ast mutant t index n rng rng' report hcount hi h
  rw [List.mem_singleton.1 h2] at h3
  exact ⟨t, h1, h3⟩

/-! ### The written mutants of a history -/

/-- The mutant and its report, if the mutant was written. -/
def written (r : Round) : Option (Json × MutatorResult) :=
  match r.fate with
  | .written _ => some (r.ast, r.res)
  | _ => none

/-- The mutants that were written, in order. -/
def writtenMutants (rounds : List Round) : List (Json × MutatorResult) := rounds.filterMap written

theorem written_result (r : Round) : r.writtenResult = (written r).map (·.2) := by
  unfold Round.writtenResult written
  cases r.fate <;> rfl

theorem writtenMutants_results (rounds : List Round) : (writtenMutants rounds).map (·.2) = writtenResults rounds := by
  unfold writtenMutants writtenResults
  rw [List.map_filterMap]
  congr 1
  funext r
  rw [written_result]

/-- Where an element of a filtered list comes from. -/
theorem filterMap_at {α β : Type} (f : α → Option β) : ∀ (xs : List α) (k : Nat) (y : β), (xs.filterMap f)[k]? = some y →
    ∃ pre x post, xs = pre ++ x :: post ∧ f x = some y ∧ (pre.filterMap f).length = k
  | [], k, y, h => by simp at h
  | x :: xs, k, y, h => by
    cases hx : f x with
    | none =>
      rw [List.filterMap_cons_none hx] at h
      obtain ⟨pre, z, post, h1, h2, h3⟩ := filterMap_at f xs k y h
      exact ⟨x :: pre, z, post, by rw [h1]; rfl, h2, by rw [List.filterMap_cons_none hx]; exact h3⟩
    | some b =>
      rw [List.filterMap_cons_some hx] at h
      cases k with
      | zero =>
        rw [List.getElem?_cons_zero] at h
        exact ⟨[], x, xs, rfl, by rw [hx]; exact h, rfl⟩
      | succ k =>
        rw [List.getElem?_cons_succ] at h
        obtain ⟨pre, z, post, h1, h2, h3⟩ := filterMap_at f xs k y h
        exact ⟨x :: pre, z, post, by rw [h1]; rfl, h2, by rw [List.filterMap_cons_some hx, List.length_cons, h3]⟩

/-! ### Files -/

open InputsKept ToolProps

omit [Rand R] in
/-- An event that does not write the file leaves it alone. -/
theorem replayEv_keeps (m : Machine S R) {content : String → S → Option String} (hc : Contents m.toSys content) {g : String}
    (hg : ¬ InTemp m.toSys g) (hout : ∀ t s, content g (m.stdout t s) = content g s) (lang : Language) (file : String) (p : Prefs)
    (e : Ev) (he : ∀ item, e ≠ .output (some g) item) (s : S) : content g (m.replayEv lang file p e s) = content g s := by
  cases e with
  | tried => rfl
  | compiled ast b =>
    have : Keeps content g (m.tryMutant lang file p ast) :=
      (Keeps.lift _).bind fun text s => C62_validation_partial m.toSys hc g hg _ _ text _ s
    exact this s
  | output dest item => exact keeps_putOut m hc hout lang dest (fun e => he item (by rw [e])) item s

omit [Rand R] in
theorem replay_keeps (m : Machine S R) {content : String → S → Option String} (hc : Contents m.toSys content) {g : String}
    (hg : ¬ InTemp m.toSys g) (hout : ∀ t s, content g (m.stdout t s) = content g s) (lang : Language) (file : String) (p : Prefs) :
    ∀ (log : List Ev), (∀ item, .output (some g) item ∉ log) → ∀ s, content g (m.replay lang file p log s) = content g s
  | [], _, _ => rfl
  | e :: log, h, s => by
    have h1 := replay_keeps m hc hg hout lang file p log (fun item hi => h item (List.mem_cons_of_mem _ hi))
      (m.replayEv lang file p e s)
    have h2 := replayEv_keeps m hc hg hout lang file p e (fun item hi => h item (by rw [hi]; exact List.mem_cons_self)) s
    exact h1.trans h2

omit [Rand R] in
/-- Putting out succeeds: the file holds the text. -/
theorem putOut_holds (m : Machine S R) {content : String → S → Option String}
    (hw : ∀ f t s, (m.write f t s).1 = true → content f (m.write f t s).2 = some t) (lang : Language) (f : String) (item : Item)
    (s : S) (h : (m.putOut lang (some f) item s).1 = .ok ()) :
    ∃ text, m.text lang item = .ok text ∧ content f (m.putOut lang (some f) item s).2 = some text := by
  unfold Machine.putOut at h ⊢
  cases ht : m.text lang item with
  | ok text =>
    rw [ht] at h
    refine ⟨text, rfl, ?_⟩
    have he : (Act.lift (.ok text) >>= fun text => m.deliver (some f) text) s = m.deliver (some f) text s := rfl
    rw [he] at h ⊢
    unfold Machine.deliver at h ⊢
    simp only at h ⊢
    rcases hwr : m.write f text s with ⟨b, s'⟩
    have hcr : m.toSys.create f text s = (.ok b, s') := by unfold Sys.create; rw [hwr]
    rw [Act.bind_of_ok hcr] at h ⊢
    have := hw f text s
    rw [hwr] at this
    cases b with
    | true => exact this rfl
    | false => cases h
  | err e => rw [ht] at h; cases h
  | panic => rw [ht] at h; cases h
  | outOfFuel => rw [ht] at h; cases h

/-- The events of a round write at most the place of its mutant. -/
theorem round_writes {c : LoopCtx R} {todo : List MutationType} {pre : List Round} {r : Round} (h : RoundOk c todo pre r)
    {f : String} {item : Item} (hm : .output (some f) item ∈ r.events c.verify) :
    ∃ log, c.emit log (writtenResults pre).length r.ast r.res = .ok (some f) := by
  have hf := h.fate
  unfold Round.events at hm
  cases hr : r.fate with
  | duplicate => rw [hr] at hm; simp [Round.start] at hm
  | rejected => rw [hr] at hm; simp [Round.start] at hm
  | written dest =>
    rw [hr] at hm hf
    simp only at hm hf
    have : dest = some f := by
      split at hm <;> simp [Round.start] at hm <;> exact hm.1.symm
    exact ⟨_, by rw [← this]; exact hf.2.2⟩

end Results

open Results ToolProps InputsKept

variable [Rand R]

/-- **C68.** After a run that ends well, the files for mutants hold what they should: there is a list of mutants, each of them
the input with one node mutated, such that the files with numbers below its length hold the texts printed for these mutants
and the files with higher numbers are as they were.  The reports of the mutants differ, and there are not more mutants than
asked for.  Missing: Solidity mutants of the block of a branch or of a catch clause, for which the claim fails
(`C68_solidity_counterexample`), and output directories in the directory for temporary files. -/
theorem C68_files_partial (m : Machine S R) (hsh : ∀ l, (m.shuffle l).Perm l) {content : String → S → Option String}
    (hc : Contents m.toSys content) (hw : ∀ f t s, (m.write f t s).1 = true → content f (m.write f t s).2 = some t)
    (fuel : Nat) (p : Params R) (s s' : S) (base : String)
    (hb : Path.fileName p.fileName = some base) (hs : p.useStdout = false) (lang : Language) (ast : Json)
    (hr : (m.reading p s).1 = .ok (lang, ast))
    (htmp : ∀ n : Nat, ¬ InTemp m.toSys (Path.join p.outputDirectory (base ++ "_" ++ toString n ++ "." ++ suffixOf lang)))
    (hout : ∀ (n : Nat) t s, content (Path.join p.outputDirectory (base ++ "_" ++ toString n ++ "." ++ suffixOf lang)) (m.stdout t s) =
      content (Path.join p.outputDirectory (base ++ "_" ++ toString n ++ "." ++ suffixOf lang)) s)
    (hok : m.generate fuel p s = (.ok (), s')) :
    ∃ mutants : List (Json × MutatorResult),
      (∀ (k : Nat) (mutant : Json) (report : MutatorResult), mutants[k]? = some (mutant, report) →
        OneMutation (R := R) lang m.env p.mutations p.functions ast mutant report ∧
        ∃ text, m.print lang mutant = .ok text ∧
          content (Path.join p.outputDirectory (base ++ "_" ++ toString k ++ "." ++ suffixOf lang)) s' = some text) ∧
      (∀ k : Nat, mutants.length ≤ k →
        content (Path.join p.outputDirectory (base ++ "_" ++ toString k ++ "." ++ suffixOf lang)) s' =
        content (Path.join p.outputDirectory (base ++ "_" ++ toString k ++ "." ++ suffixOf lang)) s) ∧
      (mutants.map (·.2)).Nodup ∧ mutants.length ≤ p.numberOfMutants := by
  rw [show suffixOf lang = lang.ext by cases lang <;> rfl] at htmp hout ⊢
  have hext := plainExt lang
  obtain ⟨hsim1, hsim2, -⟩ := generate_sim m ⟨fun _ => p.rng, 0⟩ fuel p s
  obtain ⟨hlang, hstate, -⟩ := hsim2 lang ast hr
  rw [hok] at hsim1 hstate
  simp only at hsim1 hstate
  generalize hwd : m.world ⟨fun _ => p.rng, 0⟩ p s = w at hsim1 hstate
  have hwlang : ∀ l, w.lang l = l.delegate m.env := by subst hwd; exact fun _ => rfl
  have hwsh : w.shuffle = m.shuffle := by subst hwd; rfl
  have hwout : ∀ log dest item, w.output log dest item =
      (m.putOut lang dest item (m.replay lang p.fileName p.preferences log (m.reading p s).2)).1 := by
    intro log dest item
    subst hwd
    show (m.putOut (m.languageOf p s) dest item (m.replay (m.languageOf p s) p.fileName p.preferences log _)).1 = _
    rw [hlang]
  rcases hgen : generateMutations w fuel p [] with ⟨o0, log0⟩
  rw [hgen] at hsim1 hstate
  simp only at hsim1 hstate
  have hwc04 := (C04_written w fuel p [] log0 _ (by rw [hgen, List.nil_append])).1
  rcases generate_decompose w fuel p [] log0 o0 hgen with ⟨hne, -⟩ | ⟨language, ft, ast', todo, rng, ls, hl, hlog⟩
  · exact absurd hsim1.symm hne
  have hla : language = lang ∧ ast' = ast := by
    have h1 := hl.recognized
    have h2 := hl.loaded
    subst hwd
    have h1 : (recognizeFile m.toSys p.fileName p.preferences s).1 = .ok (language, ft) := h1
    have h2 : (loadAst m.toSys language ft p.fileName p.preferences
      (recognizeFile m.toSys p.fileName p.preferences s).2).1 = .ok ast' := h2
    have h3 : m.reading p s = (.ok (language, ast'), (m.reading p s).2) := by
      unfold Machine.reading
      rw [Act.bind_of_ok (Prod.ext h1 rfl)]
      simp only
      rw [Act.bind_of_ok (Prod.ext h2 rfl)]
      rfl
    rw [h3] at hr
    simp only [Outcome.ok.injEq, Prod.mk.injEq] at hr
    exact hr
  obtain ⟨rfl, rfl⟩ := hla
  obtain ⟨rounds, lo, tail, hh, hlog', -, hend, -⟩ := loop_history _ _ _ _ _ _ hl.loop
  obtain ⟨rfl, -⟩ := hend hsim1.symm
  rw [List.append_nil] at hlog'
  have hres : writtenResults rounds = mutantResults log0 := by
    obtain ⟨-, q2, -⟩ := extras_quiet w (w.lang language) p ast'
    rw [hlog, mutantResults_append, List.nil_append, q2, hlog', mutantResults_logOf, List.nil_append]
  -- where the rounds write
  have hemit : ∀ log n a rs d, (fileCtx w p [] language ast').emit log n a rs = .ok d →
      d = some (Path.join p.outputDirectory (base ++ "_" ++ toString n ++ "." ++ language.ext)) ∧
      (m.putOut language d (.mutant a rs) (m.replay language p.fileName p.preferences
        ([] ++ originalEvents (w.lang language) p ast' ++ configEvents w (w.lang language) p ++ log) (m.reading p s).2)).1 = .ok () := by
    intro log n a rs d hd
    have hx : (w.lang language).ext = language.ext := by rw [hwlang]; rfl
    unfold fileCtx loopCtx at hd
    simp only [hs, Bool.false_eq_true, if_false] at hd
    rw [hx, mutantTarget_eq hext hb] at hd
    simp only at hd
    split at hd
    · rename_i ho
      injection hd with hd
      subst hd
      rw [hwout] at ho
      exact ⟨rfl, ho⟩
    all_goals cases hd
  have hplaces : ∀ a b : Nat, Path.join p.outputDirectory (base ++ "_" ++ toString a ++ "." ++ language.ext) =
      Path.join p.outputDirectory (base ++ "_" ++ toString b ++ "." ++ language.ext) → a = b := by
    intro a b h
    refine (C07_distinct language.ext p.fileName p.outputDirectory base hext hb a b).1 ?_
    rw [mutantTarget_eq hext hb, mutantTarget_eq hext hb, h]
  -- the original and the configuration go elsewhere
  have hA : ∀ (k : Nat) item, .output (some (Path.join p.outputDirectory (base ++ "_" ++ toString k ++ "." ++ language.ext))) item ∉
      [] ++ originalEvents (w.lang language) p ast' ++ configEvents w (w.lang language) p := by
    intro k item hm
    have hd := C07_distinct language.ext p.fileName p.outputDirectory base hext hb k k
    rw [mutantTarget_eq hext hb] at hd
    have hx : (w.lang language).ext = language.ext := by rw [hwlang]; rfl
    rw [List.nil_append] at hm
    rcases List.mem_append.1 hm with hm | hm
    · unfold originalEvents at hm
      split at hm
      · simp only [hs, Bool.false_eq_true, if_false, List.mem_singleton, Ev.output.injEq] at hm
        rw [hx] at hm
        exact hd.2.1 hm.1
      · cases hm
    · unfold configEvents at hm
      split at hm
      · simp only [hs, Bool.false_eq_true, if_false, List.mem_singleton, Ev.output.injEq] at hm
        exact hd.2.2 (by cases language <;> decide) hm.1
      · cases hm
  have hB : ∀ (pre : List Round) (r : Round) (post : List Round), rounds = pre ++ r :: post → ∀ (k : Nat) item,
      .output (some (Path.join p.outputDirectory (base ++ "_" ++ toString k ++ "." ++ language.ext))) item ∈ r.events p.verify →
      (writtenResults pre).length = k := by
    intro pre r post he k item hm
    obtain ⟨log, hlog⟩ := round_writes (hh.ok pre r post he) hm
    exact hplaces _ _ (Option.some.inj (hemit _ _ _ _ _ hlog).1.symm)
  have hfinal : s' = m.replay language p.fileName p.preferences
      (([] ++ originalEvents (w.lang language) p ast' ++ configEvents w (w.lang language) p) ++ logOf p.verify rounds)
      (m.reading p s).2 := by
    rw [hstate trivial, hlog, hlog']; rfl
  have hkeep : ∀ k : Nat, content (Path.join p.outputDirectory (base ++ "_" ++ toString k ++ "." ++ language.ext)) (m.reading p s).2 =
      content (Path.join p.outputDirectory (base ++ "_" ++ toString k ++ "." ++ language.ext)) s := by
    intro k
    exact ((Keeps.recognizeFile hc (htmp k)).bind fun r => (Keeps.loadAst hc (htmp k) r.2).bind fun _ => Keeps.pure _) s
  have hlen : (writtenMutants rounds).length = (writtenResults rounds).length := by
    rw [← writtenMutants_results, List.length_map]
  refine ⟨writtenMutants rounds, ?_, ?_, ?_, ?_⟩
  · intro k mutant report hk
    obtain ⟨pre, r, post, he, hwr, hn⟩ := filterMap_at written rounds k _ hk
    have hro := hh.ok pre r post he
    have hn : (writtenResults pre).length = k := by
      rw [← writtenMutants_results, List.length_map]; exact hn
    obtain ⟨dest, hfate, hast, hrep⟩ : ∃ dest, r.fate = .written dest ∧ r.ast = mutant ∧ r.res = report := by
      unfold written at hwr
      cases hf : r.fate with
      | duplicate => rw [hf] at hwr; cases hwr
      | rejected => rw [hf] at hwr; cases hwr
      | written dest =>
        rw [hf] at hwr
        simp only [Option.some.injEq, Prod.mk.injEq] at hwr
        exact ⟨dest, rfl, hwr.1, hwr.2⟩
    subst hast hrep
    constructor
    · obtain ⟨n, rng1, rng2, h1, h2, h3⟩ := hro.made
      have h1 : (countMutableNodes language.ctx (functionPermissions p.functions)
        (w.shuffle (selectMutators (w.lang language) p.mutations)) ast').get? r.t = some n := by
        have : (w.lang language).ctx = language.ctx := by rw [hwlang]; rfl
        rw [← this]; exact h1
      have h3 : mutateAst (w.lang language) (w.shuffle (selectMutators (w.lang language) p.mutations))
        (functionPermissions p.functions) (calculateNodePaths (w.lang language).ctx (functionPermissions p.functions) ast') ast'
        r.t r.index rng1 = .ok (r.ast, r.res, rng2) := h3
      rw [hwlang, hwsh] at h1 h3
      exact mutateAst_one language m.env p.mutations p.functions _ (fun x hx => (hsh _).mem_iff.1 hx)
        (((hsh _).map _).nodup_iff.2 (selectMutators_nodup _ _)) ast' r.ast r.t r.index n rng1 rng2 r.res h1 h2 h3
    · have hf := hro.fate
      rw [hfate] at hf
      simp only at hf
      obtain ⟨hd1, hd2⟩ := hemit _ _ _ _ _ hf.2.2
      have hev : r.events p.verify = (r.start :: if p.verify then [.compiled r.ast true] else []) ++
          [.output dest (.mutant r.ast r.res)] := by
        unfold Round.events
        rw [hfate]
        cases p.verify <;> rfl
      rw [hd1, hn] at hd2
      obtain ⟨text, ht1, ht2⟩ := putOut_holds m hw language _ _ _ hd2
      refine ⟨text, ht1, ?_⟩
      have hsplit : logOf p.verify rounds = (logOf p.verify pre ++ (r.start :: if p.verify then [.compiled r.ast true] else [])) ++
          ([.output dest (.mutant r.ast r.res)] ++ logOf p.verify post) := by
        rw [he]
        unfold logOf
        rw [List.flatMap_append, List.flatMap_cons, hev]
        simp only [List.append_assoc]
      rw [hfinal, hsplit, ← List.append_assoc, replay_append, replay_append]
      rw [replay_keeps m hc (htmp k) (hout k)]
      · rw [hd1, hn]
        exact ht2
      · intro item hm
        unfold logOf at hm
        obtain ⟨r', hr', hin⟩ := List.mem_flatMap.1 hm
        obtain ⟨a, b, e⟩ := List.append_of_mem hr'
        have := hB (pre ++ r :: a) r' b (by rw [he, e]; simp) k item hin
        unfold writtenResults at this hn
        rw [List.filterMap_append, List.filterMap_cons_some (show r.writtenResult = some r.res by
          unfold Round.writtenResult; rw [hfate])] at this
        simp at this
        omega
  · intro k hk
    rw [hfinal, replay_append, replay_keeps m hc (htmp k) (hout k), replay_keeps m hc (htmp k) (hout k), hkeep]
    · exact hA k
    · intro item hm
      unfold logOf at hm
      obtain ⟨r', hr', hin⟩ := List.mem_flatMap.1 hm
      obtain ⟨a, b, e⟩ := List.append_of_mem hr'
      have := hB a r' b e k item hin
      obtain ⟨log, hlog2⟩ := round_writes (hh.ok a r' b e) hin
      have hw' : r'.writtenResult ≠ none := by
        unfold Round.writtenResult
        unfold Round.events at hin
        cases hf : r'.fate with
        | duplicate => rw [hf] at hin; simp [Round.start] at hin
        | rejected => rw [hf] at hin; simp [Round.start] at hin
        | written dest => simp
      have : (writtenResults rounds).length > k := by
        rw [e]
        unfold writtenResults at this ⊢
        rw [List.filterMap_append, List.length_append, this]
        cases hx : r'.writtenResult with
        | none => exact absurd hx hw'
        | some x => rw [List.filterMap_cons_some hx]; simp
      omega
  · rw [writtenMutants_results, hres]
    exact C05_no_duplicates w fuel p [] log0 o0 (by rw [hgen, List.nil_append])
  · rw [hlen, hres]; exact hwc04

/-- **C68**, Vyper: after a run that ends well, the files for mutants hold the texts of mutants, each of them the input with one
node mutated and perhaps with the comment about that beside the node. -/
theorem C68_vyper (m : Machine S R) (hsh : ∀ l, (m.shuffle l).Perm l) {content : String → S → Option String}
    (hc : Contents m.toSys content) (hw : ∀ f t s, (m.write f t s).1 = true → content f (m.write f t s).2 = some t)
    (fuel : Nat) (p : Params R) (s s' : S) (base : String)
    (hb : Path.fileName p.fileName = some base) (hs : p.useStdout = false) (ast : Json)
    (hr : (m.reading p s).1 = .ok (.vyper, ast))
    (htmp : ∀ n : Nat, ¬ InTemp m.toSys (Path.join p.outputDirectory (base ++ "_" ++ toString n ++ ".vy")))
    (hout : ∀ (n : Nat) t s, content (Path.join p.outputDirectory (base ++ "_" ++ toString n ++ ".vy")) (m.stdout t s) =
      content (Path.join p.outputDirectory (base ++ "_" ++ toString n ++ ".vy")) s)
    (hok : m.generate fuel p s = (.ok (), s')) :
    ∃ count ≤ p.numberOfMutants, ∀ k : Nat,
      (k < count → ∃ t ∈ p.mutations, ∃ mutator : Mutator R, Vyper.mutatorFor m.env t = some mutator ∧
        ∃ (pos : Pos) (node node' : Json) (rng rng' : R) (rep : MutatorResult) (comment : Option Json) (mutant : Json) (text : String),
          nodeAt pos ast = some node ∧ mutator.isMutable node = true ∧
          (p.functions ≠ [] → insideListed vyperCtx p.functions pos ast = true) ∧
          mutator.mutate node rng = .ok (node', rep, comment, rng') ∧
          (mutant = replaceAt pos node' ast ∨
            ∃ c, comment = some c ∧ CommentAdded .vyper (commentTarget .vyper rep node') c (replaceAt pos node' ast) mutant) ∧
          m.print .vyper mutant = .ok text ∧
          content (Path.join p.outputDirectory (base ++ "_" ++ toString k ++ ".vy")) s' = some text) ∧
      (count ≤ k → content (Path.join p.outputDirectory (base ++ "_" ++ toString k ++ ".vy")) s' =
        content (Path.join p.outputDirectory (base ++ "_" ++ toString k ++ ".vy")) s) := by
  have hn : ∀ n : Nat, base ++ "_" ++ toString n ++ "." ++ suffixOf .vyper = base ++ "_" ++ toString n ++ ".vy" := by
    intro n; rw [String.append_assoc (s₂ := ".")]; rfl
  obtain ⟨mutants, h1, h2, h3, h4⟩ := C68_files_partial m hsh hc hw fuel p s s' base hb hs .vyper ast hr
    (fun n => by rw [hn]; exact htmp n) (fun n => by rw [hn]; exact hout n) hok
  refine ⟨mutants.length, h4, fun k => ⟨fun hk => ?_, fun hk => ?_⟩⟩
  · rcases hget : mutants[k] with ⟨mutant, report⟩
    obtain ⟨⟨t, ht, mu, hmu, pos, nd, nd', rng, rng', rep, comment, num, r1, r2, r3, -, r4, -, r5⟩, text, r6, r7⟩ :=
      h1 k mutant report (by rw [List.getElem?_eq_getElem hk, hget])
    refine ⟨t, ht, mu, hmu, pos, nd, nd', rng, rng', rep, comment, _, text, r1, r2, r3, r4, ?_, r6, by rw [← hn]; exact r7⟩
    cases r5 with
    | leftOut => exact .inl rfl
    | added c after h5 h6 => exact .inr ⟨c, h5, h6⟩
    | garbled c p n x h5 => cases h5
  · rw [← hn]; exact h2 k hk

/-! ### Runs -/

namespace DemoMachine

theorem holds (f t : String) (d : DemoSystem.Disk) : (machine.write f t d).2.lookup f = some t := by
  show (DemoSystem.put f t d).lookup f = some t
  simp [DemoSystem.put]

theorem place_head (n : Nat) : ∃ rest, (Path.join "out" ("b.sol" ++ "_" ++ toString n ++ "." ++ suffixOf .solidity)).toList =
    'o' :: rest := by
  have hb : Path.fileName "/in/b.sol" = some "b.sol" := by decide
  obtain ⟨h1, h2⟩ := mutantFile_ok (ToolProps.plainExt .solidity) (Path.fileName_spec hb).2 n
  show ∃ rest, (Path.join "out" ("b.sol" ++ "_" ++ toString n ++ "." ++ Language.solidity.ext)).toList = 'o' :: rest
  rw [Path.join_toList _ _ h1 h2]
  exact ⟨_, rfl⟩

/-- A tree with statements in a function. -/
def program_ (stmts : List Json) : Json :=
  .obj [("id", .num (.int 1)), ("nodeType", .str "SourceUnit"), ("nodes", .arr [
    .obj [("abstract", .bool false), ("baseContracts", .arr []), ("contractKind", .str "contract"), ("id", .num (.int 2)),
      ("name", .str "C"), ("nodeType", .str "ContractDefinition"), ("nodes", .arr [
        .obj [("body", .obj [("id", .num (.int 4)), ("nodeType", .str "Block"), ("statements", .arr stmts)]),
          ("id", .num (.int 3)), ("implemented", .bool true), ("kind", .str "function"), ("modifiers", .arr []),
          ("name", .str "f"), ("nodeType", .str "FunctionDefinition"),
          ("parameters", .obj [("id", .num (.int 9)), ("nodeType", .str "ParameterList"), ("parameters", .arr [])]),
          ("returnParameters", .obj [("id", .num (.int 10)), ("nodeType", .str "ParameterList"), ("parameters", .arr [])]),
          ("stateMutability", .str "nonpayable"), ("virtual", .bool false), ("visibility", .str "public")]])]])]

/-- A branch with two statements. -/
def branch : Json :=
  .obj [("condition", variable_ 20 "c"), ("id", .num (.int 21)), ("nodeType", .str "IfStatement"),
    ("trueBody", .obj [("id", .num (.int 22)), ("nodeType", .str "Block"),
      ("statements", .arr [statement 23 (variable_ 24 "x"), statement 25 (variable_ 26 "y")])])]

/-- The machine with a program that has a branch. -/
def branchMachine : Machine DemoSystem.Disk ListRand :=
  { machine with readJson := fun f d => (d.lookup f).bind fun t => if t = treeText then some (program_ [branch]) else none }

end DemoMachine

/-- **C68 fails** for mutants of the block of a branch: a run that is to swap two lines in a branch of the program
`contract C { function f() public { if(c) { x; y; } } }` ends well and leaves a mutant without the branch. -/
theorem C68_solidity_counterexample :
    let p : Params ListRand := { DemoMachine.params with
      numberOfMutants := 1, mutations := [.swapLines], verify := false, rng := ⟨[0, 0, 0, 1, 0, 0, 0, 0, 1, 1, 1]⟩ }
    let r := DemoMachine.branchMachine.generate 100 p DemoMachine.disk
    r.1 = .ok () ∧
    r.2.lookup "out/b.sol" =
      some "contract C {\n    function f() public {\n        if(c) {\n            x;\n            y;\n        }\n    }\n}\n\n" ∧
    r.2.lookup "out/b.sol_0.sol" = some "contract C {\n    function f() public {\n        if(c) \n    }\n}\n\n" := by
  decide +kernel

/-- Example: the run of the example for C65 meets the hypotheses of `C68_files_partial`, and leaves one mutant. -/
example : ∃ mutant report,
    OneMutation (R := ListRand) .solidity DemoMachine.machine.env [.arithmeticBinaryOp] [] DemoMachine.tree mutant report ∧
    DemoMachine.machine.print .solidity mutant = .ok (DemoMachine.mutant "*") := by
  have hr : (DemoMachine.machine.reading DemoMachine.params DemoMachine.disk).1 = .ok (.solidity, DemoMachine.tree) := by
    decide +kernel
  have hok : (DemoMachine.machine.generate 100 DemoMachine.params DemoMachine.disk).1 = .ok () := by decide +kernel
  have hgen : DemoMachine.machine.generate 100 DemoMachine.params DemoMachine.disk =
      (.ok (), (DemoMachine.machine.generate 100 DemoMachine.params DemoMachine.disk).2) := by
    have hpair : ∀ x : Outcome Unit × DemoSystem.Disk, x.1 = .ok () → x = (.ok (), x.2) := by rintro ⟨a, b⟩ rfl; rfl
    exact hpair _ hok
  have hfile : (DemoMachine.machine.generate 100 DemoMachine.params DemoMachine.disk).2.lookup "out/b.sol_0.sol" =
    some (DemoMachine.mutant "*") := by decide +kernel
  generalize (DemoMachine.machine.generate 100 DemoMachine.params DemoMachine.disk).2 = s' at hgen hfile
  obtain ⟨mutants, h, h', -⟩ := C68_files_partial DemoMachine.machine (fun _ => .refl _) DemoMachine.contents
    (fun f t s _ => DemoMachine.holds f t s) 100 DemoMachine.params DemoMachine.disk s' "b.sol" (by decide) rfl .solidity
    DemoMachine.tree hr
    (fun n hp => by
      obtain ⟨rest, h⟩ := DemoMachine.place_head n
      unfold InTemp at hp
      have hp : "/tmp".toList <+: (Path.join "out" ("b.sol" ++ "_" ++ toString n ++ "." ++ suffixOf .solidity)).toList := hp
      rw [h] at hp
      have := (List.cons_prefix_cons.1 (show '/' :: "tmp".toList <+: 'o' :: rest from hp)).1
      revert this; decide)
    (fun n t s => DemoSystem.lookup_put _ _ _ (fun e => by
      obtain ⟨rest, h⟩ := DemoMachine.place_head n
      have e : Path.join "out" ("b.sol" ++ "_" ++ toString n ++ "." ++ suffixOf .solidity) = "stdout" := e
      rw [e] at h
      have h := (List.cons.inj (show 's' :: "tdout".toList = 'o' :: rest from h)).1
      revert h; decide) s)
    hgen
  have hname : Path.join DemoMachine.params.outputDirectory ("b.sol" ++ "_" ++ toString 0 ++ "." ++ suffixOf .solidity) =
    "out/b.sol_0.sol" := by decide +kernel
  have hnone : DemoMachine.disk.lookup "out/b.sol_0.sol" = none := by decide +kernel
  cases mutants with
  | nil =>
    have h0 := h' 0 (Nat.le_refl _)
    rw [hname] at h0
    have h0 : s'.lookup "out/b.sol_0.sol" = DemoMachine.disk.lookup "out/b.sol_0.sol" := h0
    rw [hfile, hnone] at h0
    cases h0
  | cons x mutants =>
    obtain ⟨h1, text, h2, h3⟩ := h 0 x.1 x.2 rfl
    rw [hname] at h3
    have h3 : s'.lookup "out/b.sol_0.sol" = some text := h3
    rw [hfile] at h3
    exact ⟨x.1, x.2, h1, by rw [h2, ← Option.some.inj h3]⟩

end Mutagenyx
