import Verif.Props.Reach
import Verif.Props.Results
import Verif.Props.SyntaxTree

/-!
# C89 for a run: every mutation of every node can come up
-/

namespace Mutagenyx
open Json Results

variable {S : Type}

namespace ReachRun

/-- A table keeps what is put into it unless something for the same algorithm comes later. -/
theorem mem_insertMutator_of {R : Type} {x m : Mutator R} {tbl : List (Mutator R)} (h : x ∈ tbl) (hne : x.implements ≠ m.implements) :
    x ∈ insertMutator m tbl := by
  induction tbl with
  | nil => cases h
  | cons y ys ih =>
    unfold insertMutator
    split
    · rename_i he
      rcases List.mem_cons.1 h with rfl | h
      · exact absurd he hne
      · exact List.mem_cons_of_mem _ h
    · rcases List.mem_cons.1 h with rfl | h
      · exact List.mem_cons_self
      · exact List.mem_cons_of_mem _ (ih h)

theorem mem_insertMutator_self {R : Type} (m : Mutator R) (tbl : List (Mutator R)) : m ∈ insertMutator m tbl := by
  induction tbl with
  | nil => exact List.mem_cons_self
  | cons y ys ih =>
    unfold insertMutator
    split
    · exact List.mem_cons_self
    · exact List.mem_cons_of_mem _ ih

/-- Each algorithm asked for is there. -/
theorem selected_of {R : Type} [Rand R] (env : MutEnv) (lang : Language) (types : List MutationType) {t : MutationType} {m : Mutator R}
    (ht : t ∈ types) (hm : languageMutator env lang t = some m) : m ∈ selectMutators (lang.delegate env) types := by
  have key : ∀ (ts : List MutationType) (tbl : List (Mutator R)), (m ∈ tbl ∨ t ∈ ts) →
      m ∈ (ts.filterMap (lang.delegate (R := R) env).mutatorFor).foldl (fun tbl m => insertMutator m tbl) tbl := by
    intro ts
    induction ts with
    | nil => intro tbl h; rcases h with h | h; exact h; cases h
    | cons u ts ih =>
      intro tbl h
      cases hu : (lang.delegate (R := R) env).mutatorFor u with
      | none =>
        rw [List.filterMap_cons_none hu]
        refine ih tbl (h.imp_right fun h => ?_)
        rcases List.mem_cons.1 h with rfl | h
        · rw [show (lang.delegate (R := R) env).mutatorFor t = some m from hm] at hu; cases hu
        · exact h
      | some x =>
        rw [List.filterMap_cons_some hu, List.foldl_cons]
        apply ih
        have hx : x.implements = u := implements_of lang env hu
        have hmi : m.implements = t := implements_of lang env hm
        by_cases he : u = t
        · subst he
          rw [show (lang.delegate (R := R) env).mutatorFor u = some m from hm] at hu
          cases hu
          exact .inl (mem_insertMutator_self _ _)
        · rcases h with h | h
          · exact .inl (mem_insertMutator_of h (by rw [hx, hmi]; exact fun e => he e.symm))
          · rcases List.mem_cons.1 h with rfl | h
            · exact absurd rfl he
            · exact .inr h
  exact key types [] (.inr ht)

theorem find_unique {R : Type} {ms : List (Mutator R)} (hn : (ms.map (·.implements)).Nodup) {m : Mutator R} (hm : m ∈ ms) :
    ms.find? (fun x => x.implements = m.implements) = some m := by
  induction ms with
  | nil => cases hm
  | cons y ys ih =>
    rw [List.map_cons, List.nodup_cons] at hn
    rcases List.mem_cons.1 hm with rfl | h
    · simp
    · rw [List.find?_cons_of_neg, ih hn.2 h]
      intro he
      exact hn.1 (List.mem_map.2 ⟨m, h, (of_decide_eq_true he).symm⟩)

/-- The check at the end of a mutation lets a mutant of a program pass. -/
def Root (lang : Language) (ast : Json) : Prop :=
  match lang with
  | .solidity => getStrForKey "nodeType" ast = some "SourceUnit"
  | .vyper => SyntaxTree.VyperRoot ast

theorem checked {R : Type} [Rand R] (lang : Language) (env : MutEnv) (ms : List (Mutator R))
    (hms : ∀ m ∈ ms, ∃ t, languageMutator env lang t = some m) (ps : Permissions) (paths : PathMap) (ast : Json) (h : Root lang ast)
    (t : MutationType) (index : Nat) (rng rng' : R) (ast' : Json) (res : MutatorResult)
    (hok : mutateAst { lang.delegate env with isAst := fun _ => true } ms ps paths ast t index rng = .ok (ast', res, rng')) :
    mutateAst (lang.delegate env) ms ps paths ast t index rng = .ok (ast', res, rng') := by
  cases lang with
  | solidity => exact (C64_solidity env ms hms ps paths ast h t index rng rng' ast' res hok).2
  | vyper => exact (C64_vyper env ms hms ps paths ast h t index rng rng' ast' res hok).2

/-- The mutation of a node comes about if its number is drawn. -/
theorem mutant_of {R : Type} [Rand R] (lang : Language) (env : MutEnv) (ms : List (Mutator R))
    (hms : ∀ m ∈ ms, ∃ t, languageMutator env lang t = some m) (hn : (ms.map (·.implements)).Nodup) (ast : Json) (h : Root lang ast)
    {m : Mutator R} (hm : m ∈ ms) {index : Nat} {pos : Pos} {node node' : Json} {rng rng' : R} {rep : MutatorResult} {comment : Option Json}
    (hp : (positionsWhere m.isMutable (fun _ => true) ast)[index]? = some pos) (hnode : nodeAt pos ast = some node)
    (hmut : m.mutate node rng = .ok (node', rep, comment, rng')) :
    ∃ mutant, GotComment lang (commentTarget lang rep node') comment (replaceAt pos node' ast) mutant ∧
      ∀ paths, paths = calculateNodePaths lang.ctx (functionPermissions []) ast →
        mutateAst (lang.delegate env) ms (functionPermissions []) paths ast m.implements index rng =
          .ok (mutant, { rep with index := some index }, rng') := by
  rw [← cand_all_aux lang.ctx m.isMutable ast false] at hp
  have hserved := (maker_served lang.ctx (functionPermissions []) m ast index rng).1 pos hp
  obtain ⟨n1, e1, -, e3⟩ := hserved
  rw [hnode] at e1; cases e1
  rw [hmut] at e3
  simp only at e3
  obtain ⟨-, hfail, -, -, hrng⟩ := e3
  obtain ⟨nd, nd', rep2, comment2, rng2, r1, -, r3, r4, r5, r6, r7⟩ := maker_result lang (functionPermissions []) m ast index rng pos hp hfail
  rw [hnode] at r1; cases r1
  rw [hmut] at r3; cases r3
  refine ⟨addComment (lang.delegate (R := R) env) (calculateNodePaths lang.ctx (functionPermissions []) ast) comment (commentTarget lang rep node')
    (replaceAt pos node' ast), ?_, ?_⟩
  · unfold addComment
    cases comment with
    | none => exact .leftOut
    | some c =>
      simp only
      split
      · rename_i path hpath
        exact insert_commented lang c _ path _ (C15_ends_with_self _ _ _ _ _ hpath)
      · exact .leftOut
  · intro paths hpaths
    apply checked lang env ms hms _ _ ast h
    unfold mutateAst
    rw [find_unique hn hm]
    have hctx : (lang.delegate (R := R) env).ctx = lang.ctx := rfl
    simp only [hctx, hfail, if_true]
    rw [r4, r5, r6, r7, hrng, hpaths]
    rfl

/-- The selection of one mutation. -/
theorem select_one {table : CountTable} {t : MutationType} {n : Nat} (hg : table.get? t = some n) (hn : 0 < n) (fuel : Nat) :
    ∃ d, ∀ ds, selectAlgorithms (fuel + 1) table 1 (⟨d :: ds⟩ : ListRand) = .ok ([t], ⟨ds⟩) := by
  have ht : t ∈ usableTypes table := (mem_usableTypes t).2 ⟨n, hn, mem_of_get? hg⟩
  obtain ⟨d, hd⟩ := choose_at ht
  refine ⟨d, fun ds => ?_⟩
  unfold selectAlgorithms
  simp only
  rw [selLoop.eq_def]
  simp only [Nat.one_ne_zero, if_false, hd ds, selMap_init, get?_selMapOf _ _ _ _ ht]
  simp only [tableCount, hg, List.count_nil, Option.getD_some, hn, if_true]
  rw [selLoop.eq_def]
  simp

end ReachRun

open ReachRun

/-- **C89**, a run: every mutation of every node can come up.  Take a run that is asked for one mutant without trying it, any of
the algorithms asked for, any node of the program that the algorithm can mutate, and anything that the algorithm can make of
that node.  There are draws with which the run ends well, and the file of the mutant holds the text printed for the program with
just that node mutated in just that way, but for the comment.  A run can number at most `2 ^ 64` nodes. -/
theorem C89_run (m : Machine S ListRand) (hsh : ∀ l, (m.shuffle l).Perm l) {content : String → S → Option String}
    (hw : ∀ f t s, (m.write f t s).1 = true ∧ content f (m.write f t s).2 = some t)
    (fuel : Nat) (p : Params ListRand) (s : S) (base : String) (hb : Path.fileName p.fileName = some base) (lang : Language) (ast : Json)
    (hr : (m.reading p s).1 = .ok (lang, ast)) (hroot : Root lang ast)
    (h1 : p.numberOfMutants = 1) (h2 : p.verify = false) (h3 : p.useStdout = false) (h4 : p.printOriginal = false)
    (h5 : p.saveConfig = false) (h6 : p.functions = [])
    (t : MutationType) (ht : t ∈ p.mutations) (mutator : Mutator ListRand) (hm : languageMutator m.env lang t = some mutator)
    (hsize : (positions ast).length ≤ 2 ^ 64)
    (pos : Pos) (node : Json) (hp : nodeAt pos ast = some node) (hmutable : mutator.isMutable node = true)
    (node' : Json) (hreach : Reachable mutator node node') :
    ∃ (draws : List Nat) (target : Nat) (comment : Option Json) (mutant : Json),
      GotComment lang target comment (replaceAt pos node' ast) mutant ∧
      ∀ text, m.print lang mutant = .ok text → ∃ s',
        m.generate (fuel + 1) { p with rng := ⟨draws⟩ } s = (.ok (), s') ∧
        content (Path.join p.outputDirectory (base ++ "_0." ++ suffixOf lang)) s' = some text := by
  obtain ⟨ds, rep, comment, rng', hmut⟩ := hreach
  have hmem : pos ∈ positionsWhere mutator.isMutable (fun _ => true) ast := by
    unfold positionsWhere
    rw [List.mem_filter]
    exact ⟨mem_positions.2 (by rw [hp]; rfl), by simp [hp, hmutable]⟩
  obtain ⟨index, hi, hget⟩ := List.mem_iff_getElem.1 hmem
  have hlen : (positionsWhere mutator.isMutable (fun _ => true) ast).length ≤ (positions ast).length := List.length_filter_le _ _
  have hget : (positionsWhere mutator.isMutable (fun _ => true) ast)[index]? = some pos := by rw [List.getElem?_eq_getElem hi, hget]
  have hti : mutator.implements = t := implements_of lang m.env hm
  let ms := m.shuffle (selectMutators (lang.delegate m.env) p.mutations)
  have hms : ∀ x ∈ ms, ∃ t, languageMutator m.env lang t = some x := fun x hx =>
    SyntaxTree.selected m.env lang p.mutations x ((hsh _).mem_iff.1 hx)
  have hnod : (ms.map (·.implements)).Nodup := ((hsh _).map _).nodup_iff.2 (selectMutators_nodup _ _)
  have hin : mutator ∈ ms := (hsh _).mem_iff.2 (selected_of m.env lang p.mutations ht hm)
  have hcount := get?_countMutableNodes lang.ctx (functionPermissions []) ms hnod mutator hin ast
  rw [cand_all_aux, hti, if_neg (by omega)] at hcount
  obtain ⟨mutant, hgot, hmake⟩ := mutant_of lang m.env ms hms hnod ast hroot hin hget hp hmut
  obtain ⟨d, hd⟩ := select_one hcount (by omega) fuel
  obtain ⟨pre, hpre⟩ := pickIndex_at hi (by omega)
  refine ⟨d :: (pre ++ ds), _, _, mutant, hgot, fun text htext => ?_⟩
  rw [generate_eq]
  rcases hrd : m.reading p s with ⟨o, s1⟩
  rw [hrd] at hr
  simp only at hr
  subst hr
  have hrd' : m.reading { p with rng := (⟨d :: (pre ++ ds)⟩ : ListRand) } s = (.ok (lang, ast), s1) := hrd
  rw [Act.bind_of_ok hrd']
  have htab : (countMutableNodes lang.ctx (functionPermissions []) ms ast).isEmpty = false := by
    cases hc : countMutableNodes lang.ctx (functionPermissions []) ms ast with
    | nil => rw [hc] at hcount; cases hcount
    | cons => rfl
  have hfile : mutantTarget lang.ext p.fileName p.outputDirectory 0 =
      some (Path.join p.outputDirectory (base ++ "_0." ++ suffixOf lang)) := by
    rw [mutantTarget_eq (ToolProps.plainExt lang) hb, show suffixOf lang = lang.ext by cases lang <;> rfl]
    congr 2
    rw [show toString 0 = "0" from by decide]
    simp only [String.append_assoc]
    rfl
  refine ⟨(m.write (Path.join p.outputDirectory (base ++ "_0." ++ suffixOf lang)) text s1).2, ?_, (hw _ _ _).2⟩
  have hput : m.putOut lang (some (Path.join p.outputDirectory (base ++ "_0." ++ suffixOf lang)))
      (.mutant mutant { rep with index := some index }) s1 =
      (.ok (), (m.write (Path.join p.outputDirectory (base ++ "_0." ++ suffixOf lang)) text s1).2) := by
    have ho := (hw (Path.join p.outputDirectory (base ++ "_0." ++ suffixOf lang)) text s1).1
    unfold Machine.putOut
    rw [show m.text lang (.mutant mutant { rep with index := some index }) = .ok text from htext]
    show m.deliver (some _) text s1 = _
    unfold Machine.deliver
    simp only
    rcases hwr : m.write (Path.join p.outputDirectory (base ++ "_0." ++ suffixOf lang)) text s1 with ⟨b, s'⟩
    rw [hwr] at ho
    simp only at ho
    subst ho
    have hcr : m.toSys.create (Path.join p.outputDirectory (base ++ "_0." ++ suffixOf lang)) text s1 = (.ok true, s') := by
      unfold Sys.create; rw [hwr]
    rw [Act.bind_of_ok hcr]
    rfl
  have hq : ∃ q : Params ListRand, q = { p with rng := (⟨d :: (pre ++ ds)⟩ : ListRand) } := ⟨_, rfl⟩
  obtain ⟨q, hq⟩ := hq
  have q0 : q.rng = ⟨d :: (pre ++ ds)⟩ := by rw [hq]
  have q1 : q.numberOfMutants = 1 := by rw [hq]; exact h1
  have q2 : q.verify = false := by rw [hq]; exact h2
  have q3 : q.useStdout = false := by rw [hq]; exact h3
  have q4 : q.printOriginal = false := by rw [hq]; exact h4
  have q5 : q.saveConfig = false := by rw [hq]; exact h5
  have q6 : q.functions = [] := by rw [hq]; exact h6
  have q7 : q.fileName = p.fileName := by rw [hq]
  have q8 : q.outputDirectory = p.outputDirectory := by rw [hq]
  have q9 : m.shuffle (selectMutators (lang.delegate m.env) q.mutations) = ms := by rw [hq]
  have hctx : (lang.delegate (R := ListRand) m.env).ctx = lang.ctx := rfl
  rw [← hq]
  clear hq
  unfold Machine.generateFrom
  simp only [q9, hctx, q6, htab, q0, q1, Bool.false_eq_true, if_false]
  have e1 : m.originalAct lang q ast s1 = (.ok (), s1) := by unfold Machine.originalAct; rw [q4]; rfl
  have e2 : m.configAct lang q s1 = (.ok (), s1) := by unfold Machine.configAct; rw [q5]; rfl
  rw [Act.bind_of_ok e1, Act.bind_of_ok e2,
    Act.bind_of_ok (show Act.lift (selectAlgorithms (fuel + 1) (countMutableNodes lang.ctx (functionPermissions []) ms ast) 1
      (⟨d :: (pre ++ ds)⟩ : ListRand)) s1 = (.ok ([t], ⟨pre ++ ds⟩), s1) by rw [hd]; rfl)]
  have hturn : ∀ j : Job ListRand, j.language = lang → j.params = q → j.mutators = ms →
      j.table = countMutableNodes lang.ctx (functionPermissions []) ms ast →
      j.paths = calculateNodePaths lang.ctx (functionPermissions []) ast → j.ast = ast →
      ∃ g', g'.todo = [] ∧ m.turn j { todo := [t], rng := (⟨pre ++ ds⟩ : ListRand) } s1 =
        (.ok (some g'), (m.write (Path.join p.outputDirectory (base ++ "_0." ++ suffixOf lang)) text s1).2) := by
    intro j j1 j2 j3 j4 j5 j6
    refine ⟨{ todo := [], written := 1, attempts := 0, observed := [{ rep with index := some index }], rng := rng' }, rfl, ?_⟩
    unfold Machine.turn
    simp only
    rw [if_pos (by decide)]
    rw [Act.bind_of_ok (show Act.unwrap (j.table.get? t) s1 = (.ok _, s1) by rw [j4, hcount]; rfl), hpre]
    have := hmake j.paths j5
    rw [hti] at this
    rw [Act.bind_of_ok (show Act.lift (mutateAst (j.language.delegate m.env) j.mutators (functionPermissions j.params.functions) j.paths
      j.ast t index (⟨ds⟩ : ListRand)) s1 = (.ok (mutant, { rep with index := some index }, rng'), s1) by
        rw [j1, j2, j3, j6, q6, this]; rfl)]
    show m.judge j _ [] mutant _ rng' s1 = _
    unfold Machine.judge
    rw [j2]
    simp only [q2, Bool.false_eq_true, if_false]
    unfold Machine.keep Machine.writeMutant
    rw [j2, j1]
    simp only [q3, Bool.false_eq_true, if_false]
    rw [q7, q8, hfile]
    have hput' : (Act.unwrap (some (Path.join p.outputDirectory (base ++ "_0." ++ suffixOf lang))) >>= fun f =>
        m.putOut lang (some f) (.mutant mutant { rep with index := some index })) s1 =
        (.ok (), (m.write (Path.join p.outputDirectory (base ++ "_0." ++ suffixOf lang)) text s1).2) := by
      rw [Act.bind_of_ok (show Act.unwrap (some _) s1 = (.ok _, s1) from rfl), hput]
    rw [Act.bind_of_ok hput']
    rfl
  obtain ⟨g', hg', hturn⟩ := hturn ⟨lang, q, ms, countMutableNodes lang.ctx (functionPermissions []) ms ast,
    calculateNodePaths lang.ctx (functionPermissions []) ast, ast⟩ rfl rfl rfl rfl rfl rfl
  show m.turns _ (51 + 1) _ s1 = _
  rw [Machine.turns]
  simp only
  rw [Act.bind_of_ok hturn]
  simp only
  show m.turns _ (50 + 1) g' _ = _
  rw [Machine.turns]
  unfold Machine.turn
  rw [hg']
  rfl

/-- The parameters of a run that is asked for one mutant. -/
def DemoMachine.single : Params ListRand :=
  { DemoMachine.params with numberOfMutants := 1, verify := false, printOriginal := false, saveConfig := false }

/-- Example: for each other operator of `a + b` there are draws with which the run ends well and leaves the text printed for a
program that is the program with just that operator changed, or such a program with a comment. -/
example (new : String) (hn : new ∈ operatorClass .arithmeticBinaryOp) (hne : new ≠ "+") :
    ∃ node', TextField "operator" node' new ∧ ∃ (draws : List Nat) (target : Nat) (comment : Option Json) (mutant : Json),
      GotComment .solidity target comment (replaceAt [2, 0, 6, 0, 0, 2, 0, 0] node' DemoMachine.tree) mutant ∧
      ∀ text, DemoMachine.machine.print .solidity mutant = .ok text → ∃ s',
        DemoMachine.machine.generate 1 { DemoMachine.single with rng := ⟨draws⟩ } DemoMachine.disk = (.ok (), s') ∧
        s'.lookup "out/b.sol_0.sol" = some text := by
  have hr : (DemoMachine.machine.reading DemoMachine.single DemoMachine.disk).1 = .ok (.solidity, DemoMachine.tree) := by
    decide +kernel
  have hp : nodeAt [2, 0, 6, 0, 0, 2, 0, 0] DemoMachine.tree =
      some (DemoMachine.sum 6 (DemoMachine.variable_ 7 "a") (DemoMachine.variable_ 8 "b")) := by decide +kernel
  have hm : ∃ m : Mutator ListRand, Solidity.mutatorFor DemoMachine.machine.env .arithmeticBinaryOp = some m := ⟨_, rfl⟩
  obtain ⟨m, hm⟩ := hm
  have hmut : m.isMutable (DemoMachine.sum 6 (DemoMachine.variable_ 7 "a") (DemoMachine.variable_ 8 "b")) = true := by
    cases hm; decide +kernel
  obtain ⟨node', h1, h2, -⟩ := C89_solidity_operator (by decide) (by unfold BinaryAlgorithm; decide) hm hmut
    (show TextField "operator" _ "+" by unfold TextField; decide +kernel) hn hne
  refine ⟨node', h2, ?_⟩
  have := C89_run DemoMachine.machine (fun _ => .refl _) (content := fun f d => d.lookup f)
    (fun f t s => ⟨rfl, DemoMachine.holds f t s⟩) 0 DemoMachine.single DemoMachine.disk "b.sol" (by decide) .solidity DemoMachine.tree hr
    (by unfold Root; decide +kernel) rfl rfl rfl rfl rfl rfl .arithmeticBinaryOp (by decide) m hm (by decide +kernel) _ _ hp hmut node' h1
  have hname : Path.join DemoMachine.single.outputDirectory ("b.sol" ++ "_0." ++ suffixOf .solidity) = "out/b.sol_0.sol" := by
    decide +kernel
  rw [hname] at this
  exact this

end Mutagenyx
