import Verif.Props.Loop
import Verif.Proofs.Path

/-!
# C07: output names

`PlainExt` holds for the extensions of the two languages (`plainExt_sol`, `plainExt_vy`).
-/

namespace Mutagenyx
variable {R : Type} [Rand R]

theorem plainExt_sol : PlainExt "sol" := ⟨by decide, 'l', by decide, by decide⟩
theorem plainExt_vy : PlainExt "vy" := ⟨by decide, 'y', by decide, by decide⟩

omit [Rand R] in
private theorem quiet (w : World R) (lang : Lang R) (p : Params R) (ast : Json) :
    mutantResults (originalEvents lang p ast ++ configEvents w lang p) = [] ∧
    mutantDests (originalEvents lang p ast ++ configEvents w lang p) = [] := by
  unfold originalEvents configEvents
  by_cases h1 : p.printOriginal = true <;> by_cases h2 : p.saveConfig = true <;>
    simp [h1, h2, mutantResults, mutantDests]

/-- **C07.** The mutants written for a file go to `base_0.ext`, `base_1.ext`, … in the output directory,
in this order, without gaps or repeats; `base` is the file name of the input. -/
theorem C07_names (w : World R) (hext : ∀ l, PlainExt (w.lang l).ext) (fuel : Nat) (p : Params R)
    (before new : List Ev) (o : Outcome Unit)
    (h : generateMutations w fuel p before = (o, before ++ new)) (hstd : p.useStdout = false)
    (base : String) (hb : Path.fileName p.fileName = some base) :
    ∃ ext, mutantDests new = (List.range (mutantResults new).length).map
        (fun n => some (Path.join p.outputDirectory (base ++ "_" ++ toString n ++ "." ++ ext))) ∧
      (mutantDests new ≠ [] → ∃ language ft,
        w.recognize before p.fileName p.preferences = .ok (language, ft) ∧ ext = (w.lang language).ext) := by
  rcases generate_decompose w fuel p before _ o h with ⟨-, pre, h1, h2⟩ | ⟨language, ft, ast, todo, rng, s, hl, hnew⟩
  · have hp : new = pre := List.append_cancel_left h1
    subst hp
    have hq : mutantResults new = [] ∧ mutantDests new = [] := by
      rcases h2 with rfl | ⟨language, ast, rfl | rfl⟩
      · exact ⟨rfl, rfl⟩
      · unfold originalEvents; split <;> exact ⟨rfl, rfl⟩
      · exact quiet w (w.lang language) p ast
    exact ⟨"", by rw [hq.1, hq.2]; rfl, fun hne => absurd hq.2 hne⟩
  · obtain ⟨rounds, lo, tail, hh, hlog, htail, -⟩ := loop_history _ _ _ _ _ _ hl.loop
    refine ⟨(w.lang language).ext, ?_, fun _ => ⟨language, ft, hl.recognized, rfl⟩⟩
    have hq : mutantResults (originalEvents (w.lang language) p ast ++ configEvents w (w.lang language) p) = [] ∧
        mutantDests (originalEvents (w.lang language) p ast ++ configEvents w (w.lang language) p) = [] := by
      exact quiet w (w.lang language) p ast
    have hnew' : new = (originalEvents (w.lang language) p ast ++ configEvents w (w.lang language) p) ++ s.log := by
      simp only [List.append_assoc] at hnew ⊢
      exact List.append_cancel_left hnew
    rw [hnew', mutantDests_append, mutantResults_append, hq.1, hq.2, hlog, mutantDests_append,
      mutantResults_append, htail.mutantDests, htail.mutantResults, mutantResults_logOf]
    simp only [List.nil_append, List.append_nil]
    refine mutantDests_logOf _ ?_ rounds hh.ok
    intro log n m res d hd
    unfold fileCtx loopCtx at hd
    simp only [hstd, Bool.false_eq_true, if_false] at hd
    rw [mutantTarget_eq (hext language) hb] at hd
    simp only at hd
    split at hd
    · injection hd with hd; exact hd.symm
    all_goals cases hd

/-- **C07.** Different numbers give different files, and none of them is the file of the printed
original nor (for an extension that does not end in `x`) the saved configuration. -/
theorem C07_distinct (ext fileName outDir base : String) (hext : PlainExt ext)
    (hb : Path.fileName fileName = some base) (m n : Nat) :
    (mutantTarget ext fileName outDir m = mutantTarget ext fileName outDir n → m = n) ∧
    mutantTarget ext fileName outDir n ≠ printTarget ext fileName outDir ∧
    (ext.toList.getLast? ≠ some 'x' → mutantTarget ext fileName outDir n ≠ configTarget fileName outDir) := by
  obtain ⟨hb0, hbs⟩ := Path.fileName_spec hb
  obtain ⟨hn0, hns⟩ := mutantFile_ok hext hbs n
  refine ⟨?_, ?_, ?_⟩
  · intro h
    rw [mutantTarget_eq hext hb, mutantTarget_eq hext hb] at h
    injection h with h
    obtain ⟨hm0, hms⟩ := mutantFile_ok hext hbs m
    exact (mutantFile_inj (Path.join_inj hm0 hms hn0 hns h)).2
  · rw [mutantTarget_eq hext hb]
    unfold printTarget
    rw [hb]
    simp only
    intro h
    injection h with h
    have hp0 : ∀ e : String, (base ++ e).toList ≠ [] := by intro e; simp; intro h; simp [h] at hb0
    split at h
    · have := Path.join_inj hn0 hns (hp0 "") (by simpa using hbs) h
      have := congrArg (fun s : String => s.toList.length) this
      simp [String.toList_append] at this
    · have hs : ∀ c ∈ (base ++ ("." ++ ext)).toList, c ≠ '/' := by
        intro c hc
        simp only [String.toList_append, List.mem_append] at hc
        rcases hc with hc | hc | hc
        · exact hbs c hc
        · rw [List.mem_singleton.1 hc]; decide
        · exact hext.noSlash c hc
      have := Path.join_inj hn0 hns (hp0 _) hs h
      have := congrArg String.toList this
      simp only [String.toList_append, List.append_assoc, List.append_cancel_left_eq] at this
      have e1 : ("_" : String).toList = ['_'] := rfl
      have e2 : ("." : String).toList = ['.'] := rfl
      rw [e1, e2] at this
      simp at this
  · intro hx
    rw [mutantTarget_eq hext hb]
    unfold configTarget
    rw [hb]
    simp only
    intro h
    injection h with h
    have hst : ∀ c ∈ (stripExtension base).toList, c ≠ '/' := by
      have key : ∀ (l a b : List Char), Path.splitLastDot l = some (a, b) → ∀ c ∈ a, c ∈ l := by
        intro l
        induction l with
        | nil => intro a b h; cases h
        | cons x l ih =>
          intro a b h c hc
          simp only [Path.splitLastDot] at h
          split at h
          · rename_i a' b' he
            cases h
            rcases List.mem_cons.1 hc with rfl | hc
            · simp
            · exact List.mem_cons_of_mem _ (ih _ _ he c hc)
          · split at h
            · cases h; simp at hc
            · cases h
      intro c hc
      unfold stripExtension at hc
      split at hc
      · rename_i a b he
        rw [String.toList_ofList] at hc
        exact hbs c (key _ _ _ he c hc)
      · exact hbs c hc
    have hs : ∀ c ∈ (stripExtension base ++ ".mgnx").toList, c ≠ '/' := by
      intro c hc
      rw [String.toList_append, List.mem_append] at hc
      rcases hc with hc | hc
      · exact hst c hc
      · intro e; subst e; revert hc; decide
    have := Path.join_inj hn0 hns (by simp) hs h
    have hl : (base ++ "_" ++ toString n ++ "." ++ ext).toList.getLast? =
        (stripExtension base ++ ".mgnx").toList.getLast? := by rw [this]
    obtain ⟨c, hc, -⟩ := hext.last
    rw [String.toList_append, getLast?_append_ne _ (by intro e; rw [e] at hc; cases hc),
      String.toList_append, getLast?_append_ne _ (by decide)] at hl
    exact hx hl

/-- **C07.** Mutants of files with different file names go to different files, if they go to the same
directory in the same language. -/
theorem C07_different_files_partial (ext f₁ f₂ outDir b₁ b₂ : String) (hext : PlainExt ext)
    (h₁ : Path.fileName f₁ = some b₁) (h₂ : Path.fileName f₂ = some b₂) (hne : b₁ ≠ b₂) (m n : Nat) :
    mutantTarget ext f₁ outDir m ≠ mutantTarget ext f₂ outDir n := by
  rw [mutantTarget_eq hext h₁, mutantTarget_eq hext h₂]
  intro h
  injection h with h
  obtain ⟨hm0, hms⟩ := mutantFile_ok hext (Path.fileName_spec h₁).2 m
  obtain ⟨hn0, hns⟩ := mutantFile_ok hext (Path.fileName_spec h₂).2 n
  exact hne (mutantFile_inj (Path.join_inj hm0 hms hn0 hns h)).1

/-- **C07**, exactly when outputs of two inputs of one language coincide in an output directory: two
mutants if and only if the file names (without directories) and the numbers are the same; a mutant of the
first and the printed original of the second if and only if the file name of the second is the name of
that mutant, with the extension or, if the input does not end in the extension, without it. -/
theorem C07_collisions (ext f₁ f₂ outDir b₁ b₂ : String) (hext : PlainExt ext)
    (h₁ : Path.fileName f₁ = some b₁) (h₂ : Path.fileName f₂ = some b₂) (m n : Nat) :
    (mutantTarget ext f₁ outDir m = mutantTarget ext f₂ outDir n ↔ b₁ = b₂ ∧ m = n) ∧
    (mutantTarget ext f₁ outDir m = printTarget ext f₂ outDir ↔
      if Path.endsWith f₂ ("." ++ ext) then b₂ = b₁ ++ "_" ++ toString m ++ "." ++ ext
      else b₂ = b₁ ++ "_" ++ toString m) := by
  obtain ⟨hm0, hms⟩ := mutantFile_ok hext (Path.fileName_spec h₁).2 m
  obtain ⟨hn0, hns⟩ := mutantFile_ok hext (Path.fileName_spec h₂).2 n
  refine ⟨?_, ?_⟩
  · rw [mutantTarget_eq hext h₁, mutantTarget_eq hext h₂]
    constructor
    · intro h
      injection h with h
      exact mutantFile_inj (Path.join_inj hm0 hms hn0 hns h)
    · rintro ⟨rfl, rfl⟩; rfl
  · rw [mutantTarget_eq hext h₁]
    unfold printTarget
    rw [h₂]
    simp only [Option.some.injEq]
    obtain ⟨hb0, hbs⟩ := Path.fileName_spec h₂
    split
    · rw [show b₂ ++ "" = b₂ by simp]
      constructor
      · intro h; exact (Path.join_inj hm0 hms hb0 hbs h).symm
      · intro h; rw [h]
    · have hs : ∀ c ∈ (b₂ ++ ("." ++ ext)).toList, c ≠ '/' := by
        intro c hc
        simp only [String.toList_append, List.mem_append] at hc
        rcases hc with hc | hc | hc
        · exact hbs c hc
        · rw [List.mem_singleton.1 hc]; decide
        · exact hext.noSlash c hc
      have h0 : (b₂ ++ ("." ++ ext)).toList ≠ [] := by simp
      constructor
      · intro h
        have := Path.join_inj hm0 hms h0 hs h
        have := congrArg String.toList this
        simp only [String.toList_append] at this
        apply String.toList_inj.1
        simp only [String.toList_append]
        rw [← List.append_assoc b₂.toList] at this
        exact (List.append_cancel_right (List.append_cancel_right this)).symm
      · intro h; rw [h]; congr 1; simp [String.append_assoc]

/-- **C07.** Mutants of programs in different languages (extensions without dots) never go to the same
file, whatever the inputs, directories and numbers. -/
theorem C07_languages (e₁ e₂ f₁ f₂ d₁ d₂ b₁ b₂ : String) (hx₁ : PlainExt e₁) (hx₂ : PlainExt e₂)
    (hd₁ : '.' ∉ e₁.toList) (hd₂ : '.' ∉ e₂.toList) (hne : e₁ ≠ e₂)
    (h₁ : Path.fileName f₁ = some b₁) (h₂ : Path.fileName f₂ = some b₂) (m n : Nat) :
    mutantTarget e₁ f₁ d₁ m ≠ mutantTarget e₂ f₂ d₂ n := by
  rw [mutantTarget_eq hx₁ h₁, mutantTarget_eq hx₂ h₂]
  intro h
  injection h with h
  obtain ⟨hm0, hms⟩ := mutantFile_ok hx₁ (Path.fileName_spec h₁).2 m
  obtain ⟨hn0, hns⟩ := mutantFile_ok hx₂ (Path.fileName_spec h₂).2 n
  have h := congrArg String.toList (Path.join_name hm0 hms hn0 hns h)
  rw [String.toList_append, String.toList_append (s := b₂ ++ "_" ++ toString n ++ "."),
    String.toList_append, String.toList_append (s := b₂ ++ "_" ++ toString n),
    show (".").toList = ['.'] from rfl] at h
  simp only [List.append_assoc, List.singleton_append] at h
  obtain ⟨-, h⟩ := split_last_unique (P := fun c : Char => c = '.') h rfl rfl
    (fun z hz e => hd₁ (e ▸ hz)) (fun z hz e => hd₂ (e ▸ hz))
  exact hne (String.toList_inj.1 h)

example : '.' ∉ ("sol" : String).toList ∧ '.' ∉ ("vy" : String).toList := by decide

/-- **C07 fails** for inputs with the same file name in different directories: their mutants overwrite
one another. -/
theorem C07_same_name_counterexample (ext outDir : String) (n : Nat) :
    mutantTarget ext "a/Token.sol" outDir n = mutantTarget ext "b/Token.sol" outDir n := by
  have h1 : Path.fileName "a/Token.sol" = some "Token.sol" := by decide
  have h2 : Path.fileName "b/Token.sol" = some "Token.sol" := by decide
  unfold mutantTarget mutantName
  rw [h1, h2]

/-- **C07 fails** as well between the mutants of one file and the printed original of another. -/
theorem C07_original_counterexample :
    mutantTarget "sol" "a/Token.sol" "out" 0 = printTarget "sol" "b/Token.sol_0.sol" "out" := by decide

example : mutantTarget "sol" "contracts/Token.sol" "out" 3 = some "out/Token.sol_3.sol" := by decide
example : mutantTarget "vy" "x.vy.json" "out/" 12 = some "out/x.vy.json_12.vy" := by decide
example : Path.fileName "contracts/Token.sol" = some "Token.sol" := by decide

end Mutagenyx
