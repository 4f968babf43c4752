import Verif.Model.System
import Verif.Spec.DemoSystem
import Verif.Props.OutputNames

/-!
# What becomes of input files (property C62)
-/

namespace Mutagenyx

variable {S : Type}

/-- The file lies in the directory for temporary files: its name begins with the name of that directory. -/
def InTemp (sys : Sys S) (file : String) : Prop := sys.tmp.toList <+: file.toList

/-- `content` says what files hold.  Writing and removing a file leave the others alone, and compilers only change
files in the directory for temporary files. -/
structure Contents (sys : Sys S) (content : String → S → Option String) : Prop where
  write : ∀ f t s g, g ≠ f → content g (sys.write f t s).2 = content g s
  remove : ∀ f s g, g ≠ f → content g (sys.remove f s) = content g s
  exec : ∀ program args s g, ¬ InTemp sys g → content g (sys.exec program args s).2 = content g s

namespace InputsKept

/-- The action does not change the file. -/
def Keeps {α : Type} (content : String → S → Option String) (g : String) (x : Act S α) : Prop :=
  ∀ s, content g (x s).2 = content g s

variable {content : String → S → Option String} {g : String} {α β : Type}

theorem Keeps.bind {x : Act S α} {f : α → Act S β} (h1 : Keeps content g x) (h2 : ∀ a, Keeps content g (f a)) :
    Keeps content g (Act.bind x f) := by
  intro s
  have := h1 s
  unfold Act.bind
  rcases h : x s with ⟨o, s1⟩
  rw [h] at this
  cases o with
  | ok a => exact (h2 a s1).trans this
  | err e => exact this
  | panic => exact this
  | outOfFuel => exact this

theorem Keeps.pure (a : α) : Keeps content g (pure a : Act S α) := fun _ => rfl

theorem Keeps.lift (o : Outcome α) : Keeps content g (Act.lift o : Act S α) := fun _ => rfl

theorem Keeps.unwrap (o : Option α) : Keeps content g (Act.unwrap o : Act S α) := fun _ => rfl

theorem Keeps.attempt {x : Act S α} (h : Keeps content g x) : Keeps content g (Act.attempt x) := by
  intro s
  have := h s
  unfold Act.attempt
  rcases hx : x s with ⟨o, s1⟩
  rw [hx] at this
  cases o <;> exact this

theorem Keeps.load (sys : Sys S) (f : String) : Keeps content g (sys.load f) := by
  intro s
  unfold Sys.load
  split <;> rfl

theorem Keeps.run {sys : Sys S} (hc : Contents sys content) (hg : ¬ InTemp sys g) (program : String) (args : List String) :
    Keeps content g (sys.run program args) := fun s => hc.exec program args s g hg

theorem Keeps.create {sys : Sys S} (hc : Contents sys content) {f : String} (hf : g ≠ f) (t : String) :
    Keeps content g (sys.create f t) := fun s => hc.write f t s g hf

theorem Keeps.ite {c : Prop} [Decidable c] {x y : Act S α} (h1 : Keeps content g x) (h2 : Keeps content g y) :
    Keeps content g (if c then x else y) := by split <;> assumption

/-- A name joined to the directory lies in it. -/
theorem inTemp_join (sys : Sys S) {base : String} (hne : base.toList ≠ []) (hb : ∀ c ∈ base.toList, c ≠ '/') :
    InTemp sys (Path.join sys.tmp base) := by
  unfold InTemp
  rw [Path.join_toList _ _ hne hb]
  unfold Path.joinPrefix
  cases h : sys.tmp.toList.getLast? with
  | none =>
    have : sys.tmp.toList = [] := by simpa using h
    rw [this]
    exact List.nil_prefix
  | some c =>
    simp only
    split
    · exact List.prefix_append _ _
    · rw [List.append_assoc]; exact List.prefix_append _ _

variable {sys : Sys S} {p : Prefs} {file : String} {lang : Language}

theorem Keeps.solidityAst (hc : Contents sys content) (hg : ¬ InTemp sys g) : Keeps content g (solidityAst sys file p) :=
  (Keeps.unwrap _).bind fun _ => (Keeps.run hc hg _ _).bind fun _ => Keeps.ite (Keeps.pure _) (Keeps.lift _)

theorem Keeps.vyperDashO (hc : Contents sys content) (hg : ¬ InTemp sys g) (c : String) : Keeps content g (vyperDashO sys c) := by
  refine (Keeps.run hc hg _ _).bind fun r => ?_
  split
  · exact Keeps.lift _
  · exact Keeps.lift _
  · split
    · exact Keeps.lift _
    · exact Keeps.ite (Keeps.lift _) (Keeps.lift _)

/-- Act on the name of the file, which is a name. -/
theorem Keeps.named {f : String → Act S α} (h : ∀ base, base.toList ≠ [] → (∀ c ∈ base.toList, c ≠ '/') → Keeps content g (f base)) :
    Keeps content g (Act.bind (Act.unwrap (Path.fileName file)) f) := by
  intro s
  cases hb : Path.fileName file with
  | none => rfl
  | some base =>
    obtain ⟨h1, h2⟩ := Path.fileName_spec hb
    exact h base (by simpa using h1) h2 s

theorem Keeps.vyperAst (hc : Contents sys content) (hg : ¬ InTemp sys g) : Keeps content g (vyperAst sys file p) := by
  refine Keeps.named fun base hne hb => (Keeps.vyperDashO hc hg _).bind fun d => (Keeps.run hc hg _ _).bind fun r => ?_
  have ht : InTemp sys (Path.join sys.tmp (base ++ ".json")) := by
    refine inTemp_join sys (by simp [hne]) ?_
    intro c hc
    rw [String.toList_append, List.mem_append] at hc
    rcases hc with hc | hc
    · exact hb c hc
    · intro e; subst e; revert hc; decide
  split
  · refine Keeps.ite (Keeps.pure _) ((Keeps.create hc (fun e => hg ?_) _).bind fun _ => Keeps.ite (Keeps.pure _) (Keeps.lift _))
    rw [e]; exact ht
  · exact Keeps.lift _

theorem Keeps.dockerAst (hc : Contents sys content) (hg : ¬ InTemp sys g) : Keeps content g (dockerAst sys file p) :=
  (Keeps.unwrap _).bind fun _ => (Keeps.run hc hg _ _).bind fun _ => Keeps.ite (Keeps.pure _) (Keeps.lift _)

theorem Keeps.asAst (j : Json) : Keeps content g (asAst lang j : Act S Json) := Keeps.lift _

theorem Keeps.loadAst (hc : Contents sys content) (hg : ¬ InTemp sys g) (ft : FileType) : Keeps content g (loadAst sys lang ft file p) := by
  cases ft with
  | source =>
    show Keeps content g (convertSource sys lang file p)
    cases lang with
    | solidity =>
      refine (Keeps.solidityAst hc hg).attempt.bind fun a => ?_
      cases a with
      | none => exact Keeps.lift _
      | some out => exact (Keeps.load sys out).bind fun j => Keeps.asAst j
    | vyper =>
      refine (Keeps.vyperAst hc hg).attempt.bind fun a => ?_
      cases a with
      | none =>
        refine (Keeps.dockerAst hc hg).attempt.bind fun a => ?_
        cases a with
        | none => exact Keeps.lift _
        | some out => exact (Keeps.load sys out).bind fun j => Keeps.asAst j
      | some out => exact (Keeps.load sys out).bind fun j => Keeps.asAst j
  | ast => exact (Keeps.load sys file).bind fun j => Keeps.asAst j
  | config => exact Keeps.lift _

theorem Keeps.isSource (hc : Contents sys content) (hg : ¬ InTemp sys g) : Keeps content g (isSource sys lang file p) := by
  cases lang with
  | solidity => exact (Keeps.solidityAst hc hg).attempt.bind fun _ => Keeps.pure _
  | vyper =>
    exact (Keeps.vyperAst hc hg).attempt.bind fun a => Keeps.ite (Keeps.pure _) ((Keeps.dockerAst hc hg).attempt.bind fun _ => Keeps.pure _)

theorem Keeps.isAst : Keeps content g (isAst sys lang file) := by
  refine (Keeps.load sys file).attempt.bind fun a => ?_
  cases a <;> exact Keeps.pure _

theorem Keeps.firstLanguage {check : Language → Act S Bool} (h : ∀ l, Keeps content g (check l)) :
    ∀ ls, Keeps content g (firstLanguage check ls)
  | [] => Keeps.pure _
  | l :: ls => (h l).bind fun _ => Keeps.ite (Keeps.pure _) (Keeps.firstLanguage h ls)

theorem Keeps.recognizeConfig : Keeps content g (recognizeConfig sys file) := by
  unfold Mutagenyx.recognizeConfig
  split
  · refine (Keeps.load sys file).attempt.bind fun a => ?_
    cases a with
    | none => exact Keeps.pure _
    | some j =>
      simp only
      split <;> exact Keeps.pure _
  · exact Keeps.pure _

theorem Keeps.recognizeFile (hc : Contents sys content) (hg : ¬ InTemp sys g) : Keeps content g (recognizeFile sys file p) := by
  refine Keeps.recognizeConfig.bind fun o => ?_
  cases o with
  | some l => exact Keeps.pure _
  | none =>
    refine (Keeps.firstLanguage (fun l => Keeps.isSource hc hg) _).bind fun o => ?_
    cases o with
    | some l => exact Keeps.pure _
    | none =>
      refine (Keeps.firstLanguage (fun l => Keeps.isAst) _).bind fun o => ?_
      cases o with
      | some l => exact Keeps.pure _
      | none => exact Keeps.lift _

theorem Keeps.fileCompiles (hc : Contents sys content) (hg : ¬ InTemp sys g) : Keeps content g (fileCompiles sys lang file p) := by
  cases lang <;>
    exact (Keeps.run hc hg _ _).bind fun _ => Keeps.ite (Keeps.pure _) ((Keeps.run hc hg _ _).bind fun _ => Keeps.pure _)

end InputsKept

open InputsKept

/-- **C62, reading.** Recognizing and reading an input changes no file outside the directory for temporary files.
Missing: files in that directory. -/
theorem C62_reading_partial (sys : Sys S) {content : String → S → Option String} (hc : Contents sys content) (g : String)
    (hg : ¬ InTemp sys g) (file : String) (p : Prefs) (lang : Language) (ft : FileType) (s : S) :
    content g (recognizeFile sys file p s).2 = content g s ∧ content g (loadAst sys lang ft file p s).2 = content g s :=
  ⟨Keeps.recognizeFile hc hg s, Keeps.loadAst hc hg ft s⟩

/-- **C62, validation.** Trying a mutant changes no file outside the directory for temporary files, and in particular
not the input.  Missing: inputs in that directory. -/
theorem C62_validation_partial (sys : Sys S) {content : String → S → Option String} (hc : Contents sys content) (g : String)
    (hg : ¬ InTemp sys g) (lang : Language) (input text : String) (p : Prefs) (s : S) :
    content g (mutantCompiles sys lang input text p s).2 = content g s := by
  refine Keeps.named (f := fun base => _) (fun base hne hb => ?_) s
  have hne' : g ≠ Path.join sys.tmp base := fun e => hg (e ▸ inTemp_join sys hne hb)
  refine (Keeps.create hc hne' _).bind fun ok => Keeps.ite ((Keeps.fileCompiles hc hg).bind fun b => ?_) (Keeps.pure _)
  exact fun s => hc.remove _ s g hne'

/-- **C62, printing.** Printing an input to a directory changes no file outside the directory for temporary files but
the file that is printed to.  Missing: the input may be that file. -/
theorem C62_printing_partial (sys : Sys S) {content : String → S → Option String} (hc : Contents sys content) (g : String)
    (hg : ¬ InTemp sys g) (print : Language → Json → Outcome String) (p : Prefs) (dir file : String)
    (ht : ∀ lang : Language, printTarget lang.ext file dir ≠ some g) (s : S) :
    content g (prettyPrintFile sys print p dir file s).2 = content g s := by
  refine Keeps.bind (x := readInput sys p file)
    ((Keeps.recognizeFile hc hg).bind fun r => (Keeps.loadAst hc hg r.2).bind fun _ => Keeps.pure _) (fun r => ?_) s
  obtain ⟨lang, ast⟩ := r
  show Keeps content g (Act.bind (Act.unwrap (printTarget lang.ext file dir)) _)
  intro s
  cases hp : printTarget lang.ext file dir with
  | none => rfl
  | some target =>
    have hne : g ≠ target := fun e => ht lang (hp.trans (by rw [e]))
    exact ((Keeps.lift (print lang ast)).bind fun t => (Keeps.create hc hne t).bind fun _ =>
      Keeps.ite (Keeps.pure _) (Keeps.lift _)) s

/-- **C62, mutants.** No mutant is written over the input. -/
theorem C62_mutants {R : Type} [Rand R] (w : World R) (hext : ∀ l, PlainExt (w.lang l).ext) (fuel : Nat) (p : Params R)
    (before new : List Ev) (o : Outcome Unit)
    (h : generateMutations w fuel p before = (o, before ++ new)) (hstd : p.useStdout = false)
    (base : String) (hb : Path.fileName p.fileName = some base) : some p.fileName ∉ mutantDests new := by
  intro hm
  obtain ⟨ext, h1, h2⟩ := C07_names w hext fuel p before new o h hstd base hb
  obtain ⟨language, ft, -, he⟩ := h2 (List.ne_nil_of_mem hm)
  rw [h1] at hm
  obtain ⟨n, -, hn⟩ := List.mem_map.1 hm
  injection hn with hn
  have hx := hext language
  rw [← he] at hx
  obtain ⟨m1, m2⟩ := mutantFile_ok hx (Path.fileName_spec hb).2 n
  have hus : '_' ∈ (base ++ "_" ++ toString n ++ "." ++ ext).toList := by simp
  have := Path.fileName_join p.outputDirectory (base ++ "_" ++ toString n ++ "." ++ ext) m1 m2
    (fun e => by rw [e] at hus; simp at hus) (fun e => by rw [e] at hus; simp at hus)
  rw [hn, hb] at this
  have := congrArg (fun o => (o.getD "").toList.length) this
  simp at this

/-- **C62, the printed original.** The original is printed over the input exactly if the input has the extension of its
language and lies in the output directory.  Missing: that it never is. -/
theorem C62_original_partial (ext fileName outDir base : String) (hext : PlainExt ext) (hb : Path.fileName fileName = some base) :
    printTarget ext fileName outDir = some fileName ↔
      Path.endsWith fileName ("." ++ ext) = true ∧ Path.join outDir base = fileName := by
  unfold printTarget
  rw [hb]
  simp only [Option.some.injEq]
  cases he : Path.endsWith fileName ("." ++ ext) with
  | true => simp
  | false =>
    simp only [Bool.false_eq_true, if_false, false_and, iff_false]
    intro h
    obtain ⟨h0, hs⟩ := Path.fileName_spec hb
    have hne : (base ++ ("." ++ ext)).toList ≠ [] := by simp
    have hsl : ∀ c ∈ (base ++ ("." ++ ext)).toList, c ≠ '/' := by
      intro c hc
      rw [String.toList_append, List.mem_append, String.toList_append, List.mem_append] at hc
      rcases hc with hc | hc | hc
      · exact hs c hc
      · rw [List.mem_singleton.1 hc]; decide
      · exact hext.noSlash c hc
    have h1 := Path.join_toList outDir (base ++ ("." ++ ext)) hne hsl
    rw [h] at h1
    rw [Path.endsWith, Bool.eq_false_iff] at he
    apply he
    rw [List.isSuffixOf_iff_suffix, h1, String.toList_append]
    exact ⟨Path.joinPrefix outDir ++ base.toList, by simp⟩

/-- **C62 counterexample, validation.** An input in the directory for temporary files is overwritten with the mutant,
and then removed, whatever the compiler says. -/
theorem C62_validation_counterexample :
    let disk : DemoSystem.Disk := [("/tmp/a.sol", DemoSystem.solProgram)]
    (mutantCompiles DemoSystem.sys .solidity "/tmp/a.sol" DemoSystem.solWrong Prefs.new disk).2.lookup "/tmp/a.sol" = none := by
  decide +kernel

/-- **C62 counterexample, printing.** An input in the output directory is overwritten with what is printed for it, which
has no comments, for instance. -/
theorem C62_printing_counterexample :
    (prettyPrintFile DemoSystem.sys (fun _ _ => .ok "printed") Prefs.new "/in" "/in/a.sol" DemoSystem.disk).2.lookup "/in/a.sol" =
      some "printed" := by
  decide +kernel

theorem DemoSystem.lookup_drop (f g : String) (h : g ≠ f) : ∀ d : Disk, (drop f d).lookup g = d.lookup g
  | [] => rfl
  | (k, t) :: d => by
    have ih := DemoSystem.lookup_drop f g h d
    simp only [drop, ne_eq, decide_not] at ih ⊢
    by_cases hk : k = f
    · subst hk
      have : (g == k) = false := by simpa using h
      simp [List.lookup_cons, this, ih]
    · simp only [List.filter_cons, hk, decide_false, Bool.not_false, if_true, List.lookup_cons]
      cases g == k with
      | true => rfl
      | false => exact ih

theorem DemoSystem.lookup_put (f t g : String) (h : g ≠ f) (d : Disk) : (put f t d).lookup g = d.lookup g := by
  have : (g == f) = false := by simpa using h
  rw [put, List.lookup_cons, this]
  exact DemoSystem.lookup_drop f g h d

/-- Example: the machine of the examples leaves other files alone. -/
theorem DemoSystem.contents : Contents DemoSystem.sys (fun f d => d.lookup f) where
  write f t s g h := DemoSystem.lookup_put f t g h s
  remove f s g h := DemoSystem.lookup_drop f g h s
  exec program args s g h := by
    show List.lookup g (DemoSystem.exec program args s).2 = _
    have hne : g ≠ "/tmp/a.sol_json.ast" := by
      rintro rfl
      exact h (by unfold InTemp; decide)
    unfold DemoSystem.exec
    repeat' split
    all_goals first | rfl | exact DemoSystem.lookup_put _ _ g hne s

example : ¬ InTemp DemoSystem.sys "/in/a.sol" ∧ InTemp DemoSystem.sys "/tmp/a.sol" := by
  unfold InTemp
  exact ⟨by decide, by decide⟩

end Mutagenyx
