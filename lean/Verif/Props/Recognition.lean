import Verif.Model.System
import Verif.Proofs.Extension
import Verif.Spec.DemoSystem

/-!
# Which files are recognized as what (property C53)
-/

namespace Mutagenyx

variable {S : Type}

/-- The file is a configuration file of the language: it has the extension `mgnx` and holds JSON that names it. -/
def ConfigOf (sys : Sys S) (file : String) (s : S) (l : Language) : Prop :=
  HasExtension file "mgnx" ∧ ∃ j, sys.readJson file s = some j ∧ j.getStrForKey "language" = some l.toStr

/-- The file holds the syntax tree of a program in the language. -/
def TreeOf (sys : Sys S) (file : String) (s : S) : Language → Prop
  | .solidity => ∃ j, sys.readJson file s = some j ∧ j.getStrForKey "nodeType" = some "SourceUnit"
  | .vyper => ∃ j, sys.readJson file s = some j ∧ (∃ v, Json.get? "contract_name" j = some v) ∧ ∃ v, Json.get? "ast" j = some v

namespace Recognition

theorem ofString_iff {t : String} {l : Language} : Language.ofString? t = some l ↔ t = l.toStr := by
  unfold Language.ofString?
  constructor
  · intro h
    split at h
    · cases h; assumption
    · split at h
      · cases h; assumption
      · cases h
  · rintro rfl
    cases l <;> decide

theorem config_state (sys : Sys S) (file : String) (s : S) :
    ∃ o, recognizeConfig sys file s = (.ok o, s) ∧ ∀ l, o = some l ↔ ConfigOf sys file s l := by
  have he := Path.extension_iff (p := file) (e := "mgnx") (by decide) (by decide)
  unfold recognizeConfig ConfigOf
  by_cases hx : Path.extension file = some "mgnx"
  · have hx' := he.1 hx
    rw [if_pos hx]
    simp only [bind, Act.bind, Act.attempt, Sys.load]
    cases hj : sys.readJson file s with
    | none => exact ⟨none, rfl, by simp⟩
    | some j =>
      simp only
      cases hl : j.getStrForKey "language" with
      | none => exact ⟨none, rfl, by simp [hl]⟩
      | some t =>
        refine ⟨Language.ofString? t, rfl, fun l => ?_⟩
        rw [ofString_iff]
        simp [hx', hl]
  · rw [if_neg hx]
    refine ⟨none, rfl, fun l => ?_⟩
    simp only [reduceCtorEq, false_iff]
    exact fun h => hx (he.2 h.1)

theorem tree_state (sys : Sys S) (l : Language) (file : String) (s : S) :
    ∃ b, isAst sys l file s = (.ok b, s) ∧ (b = true ↔ TreeOf sys file s l) := by
  unfold isAst
  simp only [bind, Act.bind, Act.attempt, Sys.load]
  cases hj : sys.readJson file s with
  | none => exact ⟨false, rfl, by cases l <;> simp [TreeOf, hj]⟩
  | some j =>
    refine ⟨isAstJson l j, rfl, ?_⟩
    cases l with
    | solidity => simp [TreeOf, hj, isAstJson]
    | vyper =>
      simp only [TreeOf, hj, isAstJson, Json.hasValueForKey, Bool.and_eq_true, Option.isSome_iff_exists, Option.some.injEq,
        exists_eq_left']

/-- The result of the checks for source in order. -/
inductive SourceOf (sys : Sys S) (file : String) (p : Prefs) (s : S) : Option Language → S → Prop
  | solidity {s1 : S} : isSource sys .solidity file p s = (.ok true, s1) → SourceOf sys file p s (some .solidity) s1
  | vyper {s1 s2 : S} : isSource sys .solidity file p s = (.ok false, s1) → isSource sys .vyper file p s1 = (.ok true, s2) →
    SourceOf sys file p s (some .vyper) s2
  | neither {s1 s2 : S} : isSource sys .solidity file p s = (.ok false, s1) → isSource sys .vyper file p s1 = (.ok false, s2) →
    SourceOf sys file p s none s2

theorem bind_apply {α β : Type} (x : Act S α) (f : α → Act S β) (s : S) : Act.bind x f s =
    match x s with
    | (.ok a, s') => f a s'
    | (.err e, s') => (.err e, s')
    | (.panic, s') => (.panic, s')
    | (.outOfFuel, s') => (.outOfFuel, s') := rfl

/-- An action that does not end with an error. -/
def NoErr {α : Type} (x : Act S α) : Prop := ∀ s e s', x s ≠ (.err e, s')

theorem NoErr.bind {α β : Type} {x : Act S α} {f : α → Act S β} (h1 : NoErr x) (h2 : ∀ a, NoErr (f a)) : NoErr (Act.bind x f) := by
  intro s e s'
  rw [bind_apply]
  rcases h : x s with ⟨o, s1⟩
  cases o with
  | ok a => exact h2 a s1 e s'
  | err e' => exact absurd h (h1 s e' s1)
  | panic => simp
  | outOfFuel => simp

theorem NoErr.pure {α : Type} (a : α) : NoErr (pure a : Act S α) := fun s e s' h => by cases h

theorem NoErr.attempt {α : Type} (x : Act S α) : NoErr (Act.attempt x) := by
  intro s e s'
  unfold Act.attempt
  split <;> simp

theorem NoErr.isSource (sys : Sys S) (l : Language) (file : String) (p : Prefs) : NoErr (isSource sys l file p) := by
  cases l with
  | solidity => exact (NoErr.attempt _).bind fun _ => NoErr.pure _
  | vyper =>
    refine (NoErr.attempt _).bind fun a => ?_
    cases a
    · exact (NoErr.attempt _).bind fun _ => NoErr.pure _
    · exact NoErr.pure _

theorem sources_iff (sys : Sys S) (file : String) (p : Prefs) (s : S) (o : Option Language) (s' : S) :
    firstLanguage (fun l => isSource sys l file p) allLanguages s = (.ok o, s') ↔ SourceOf sys file p s o s' := by
  simp only [allLanguages, firstLanguage, bind, Act.bind]
  constructor
  · intro h
    rcases h1 : isSource sys .solidity file p s with ⟨b, s1⟩
    rw [h1] at h
    cases b <;> simp only [Prod.mk.injEq, reduceCtorEq, false_and] at h
    rename_i b
    cases b
    · simp only [Bool.false_eq_true, if_false] at h
      rcases h2 : isSource sys .vyper file p s1 with ⟨b, s2⟩
      rw [bind_apply, h2] at h
      cases b <;> simp only [Prod.mk.injEq, reduceCtorEq, false_and] at h
      rename_i b
      cases b
      · cases h
        exact .neither h1 h2
      · cases h
        exact .vyper h1 h2
    · cases h
      exact .solidity h1
  · intro h
    cases h with
    | solidity h1 => rw [h1]; rfl
    | vyper h1 h2 => simp only [h1, Bool.false_eq_true, if_false, bind_apply, h2]; rfl
    | neither h1 h2 => simp only [h1, Bool.false_eq_true, if_false, bind_apply, h2]; rfl

theorem NoErr.firstLanguage {check : Language → Act S Bool} (h : ∀ l, NoErr (check l)) :
    ∀ ls, NoErr (firstLanguage check ls)
  | [] => NoErr.pure _
  | l :: ls => (h l).bind fun b => by
    cases b
    · exact NoErr.firstLanguage h ls
    · exact NoErr.pure _

/-- The first language whose syntax tree the file holds. -/
def FirstTree (sys : Sys S) (file : String) (s : S) : Option Language → Prop
  | some .solidity => TreeOf sys file s .solidity
  | some .vyper => ¬ TreeOf sys file s .solidity ∧ TreeOf sys file s .vyper
  | none => ¬ TreeOf sys file s .solidity ∧ ¬ TreeOf sys file s .vyper

theorem trees_state (sys : Sys S) (file : String) (s : S) :
    ∃ o, firstLanguage (fun l => isAst sys l file) allLanguages s = (.ok o, s) ∧ ∀ q, q = o ↔ FirstTree sys file s q := by
  obtain ⟨a, ha, ha'⟩ := tree_state sys .solidity file s
  obtain ⟨b, hb, hb'⟩ := tree_state sys .vyper file s
  simp only [allLanguages, firstLanguage, bind, Act.bind, ha]
  cases a
  · simp only [Bool.false_eq_true, if_false, bind_apply, hb]
    have n1 : ¬ TreeOf sys file s .solidity := fun h => by simpa using ha'.2 h
    cases b
    · have n2 : ¬ TreeOf sys file s .vyper := fun h => by simpa using hb'.2 h
      refine ⟨none, rfl, fun q => ?_⟩
      rcases q with _ | (_ | _) <;> simp [FirstTree, n1, n2]
    · have n2 := hb'.1 rfl
      refine ⟨some .vyper, rfl, fun q => ?_⟩
      rcases q with _ | (_ | _) <;> simp [FirstTree, n1, n2]
  · have n1 := ha'.1 rfl
    refine ⟨some .solidity, rfl, fun q => ?_⟩
    rcases q with _ | (_ | _) <;> simp [FirstTree, n1]

/-- What is recognized without a configuration file. -/
theorem no_config {sys : Sys S} {file : String} {s : S} (p : Prefs) (h : ∀ l, ¬ ConfigOf sys file s l) :
    recognizeFile sys file p s =
      (firstLanguage (fun l => isSource sys l file p) allLanguages >>= fun o => match o with
        | some l => pure (l, FileType.source)
        | none => firstLanguage (fun l => isAst sys l file) allLanguages >>= fun o => match o with
          | some l => pure (l, FileType.ast)
          | none => Act.lift (.err .languageNotRecognized)) s := by
  obtain ⟨o, h1, h2⟩ := config_state sys file s
  have : o = none := by
    cases o with
    | none => rfl
    | some l => exact absurd ((h2 l).1 rfl) (h l)
  subst this
  unfold recognizeFile
  show Act.bind (recognizeConfig sys file) _ s = _
  unfold Act.bind
  rw [h1]
  rfl

end Recognition

open Recognition

/-- **C53, configuration files.** A file is recognized as a configuration file of a language exactly if it has the
extension of configuration files and holds JSON that names the language; nothing is run to find out. -/
theorem C53_config (sys : Sys S) (file : String) (p : Prefs) (s s' : S) (l : Language) :
    recognizeFile sys file p s = (.ok (l, .config), s') ↔ ConfigOf sys file s l ∧ s' = s := by
  obtain ⟨o, h1, h2⟩ := config_state sys file s
  cases o with
  | some k =>
    have : recognizeFile sys file p s = (.ok (k, .config), s) := by
      unfold recognizeFile
      show Act.bind (recognizeConfig sys file) _ s = _
      unfold Act.bind
      rw [h1]
      rfl
    rw [this, ← h2]
    simp only [Prod.mk.injEq, Outcome.ok.injEq, and_true, Option.some.injEq]
    exact ⟨fun h => ⟨h.1, h.2.symm⟩, fun h => ⟨h.1, h.2.symm⟩⟩
  | none =>
    have hn : ∀ l, ¬ ConfigOf sys file s l := fun l h => by simpa using (h2 l).2 h
    constructor
    · intro h
      exfalso
      rw [no_config p hn] at h
      simp only [bind, Act.bind] at h
      rcases h3 : firstLanguage (fun l => isSource sys l file p) allLanguages s with ⟨q, s1⟩
      rw [h3] at h
      rcases q with (_ | l) | _ | _ | _ <;> simp only [pure, Prod.mk.injEq, Outcome.ok.injEq, reduceCtorEq, false_and, and_false] at h
      obtain ⟨o, h4, _⟩ := trees_state sys file s1
      rw [bind_apply, h4] at h
      rcases o with _ | l <;> simp [Act.lift] at h
    · exact fun h => absurd h.1 (hn l)

/-- **C53, sources.** A file that is not a configuration file is recognized as source of the first language, Solidity
before Vyper, whose compiler accepts it; the compiler for Vyper is only asked if that for Solidity does not. -/
theorem C53_source (sys : Sys S) (file : String) (p : Prefs) (s s' : S) (l : Language) :
    recognizeFile sys file p s = (.ok (l, .source), s') ↔
      (∀ k, ¬ ConfigOf sys file s k) ∧ SourceOf sys file p s (some l) s' := by
  constructor
  · intro h
    have hn : ∀ k, ¬ ConfigOf sys file s k := by
      intro k hk
      rw [(C53_config sys file p s s k).2 ⟨hk, rfl⟩] at h
      simp at h
    refine ⟨hn, ?_⟩
    rw [no_config p hn] at h
    simp only [bind, Act.bind] at h
    rcases h3 : firstLanguage (fun l => isSource sys l file p) allLanguages s with ⟨q, s1⟩
    rw [h3] at h
    rcases q with (_ | k) | _ | _ | _ <;> simp only [pure, Prod.mk.injEq, reduceCtorEq, false_and] at h
    · obtain ⟨o, h4, _⟩ := trees_state sys file s1
      rw [bind_apply, h4] at h
      rcases o with _ | l <;> simp [Act.lift] at h
    · rw [← sources_iff, h3]
      simp_all
  · rintro ⟨hn, h⟩
    rw [no_config p hn]
    simp only [bind, Act.bind, (sources_iff sys file p s (some l) s').2 h, pure]

/-- **C53, syntax trees.** A file that is neither is recognized as the first syntax tree, Solidity before Vyper, that
it holds once the compilers have been asked. -/
theorem C53_tree (sys : Sys S) (file : String) (p : Prefs) (s s' : S) (l : Language) :
    recognizeFile sys file p s = (.ok (l, .ast), s') ↔
      (∀ k, ¬ ConfigOf sys file s k) ∧ SourceOf sys file p s none s' ∧ FirstTree sys file s' (some l) := by
  constructor
  · intro h
    have hn : ∀ k, ¬ ConfigOf sys file s k := by
      intro k hk
      rw [(C53_config sys file p s s k).2 ⟨hk, rfl⟩] at h
      simp at h
    refine ⟨hn, ?_⟩
    rw [no_config p hn] at h
    simp only [bind, Act.bind] at h
    rcases h3 : firstLanguage (fun l => isSource sys l file p) allLanguages s with ⟨q, s1⟩
    rw [h3] at h
    rcases q with (_ | k) | _ | _ | _ <;> simp only [pure, Prod.mk.injEq, Outcome.ok.injEq, reduceCtorEq, false_and, and_false] at h
    obtain ⟨o, h4, h5⟩ := trees_state sys file s1
    rw [bind_apply, h4] at h
    rcases o with _ | k
    · simp [Act.lift] at h
    · simp only [Prod.mk.injEq, Outcome.ok.injEq, and_true] at h
      obtain ⟨rfl, rfl⟩ := h
      exact ⟨(sources_iff sys file p s none s1).1 h3, (h5 _).1 rfl⟩
  · rintro ⟨hn, h, ht⟩
    rw [no_config p hn]
    obtain ⟨o, h4, h5⟩ := trees_state sys file s'
    have := (h5 _).2 ht
    subst this
    simp only [bind, bind_apply, (sources_iff sys file p s none s').2 h, h4, pure]

/-- **C53, errors.** An input that is a configuration file of no language, source of none and a tree of none is an
error, and recognition fails for no other reason. -/
theorem C53_error (sys : Sys S) (file : String) (p : Prefs) (s s' : S) (e : Err) :
    recognizeFile sys file p s = (.err e, s') ↔
      e = .languageNotRecognized ∧ (∀ k, ¬ ConfigOf sys file s k) ∧ SourceOf sys file p s none s' ∧ FirstTree sys file s' none := by
  constructor
  · intro h
    have hn : ∀ k, ¬ ConfigOf sys file s k := by
      intro k hk
      rw [(C53_config sys file p s s k).2 ⟨hk, rfl⟩] at h
      simp at h
    rw [no_config p hn] at h
    simp only [bind, Act.bind] at h
    rcases h3 : firstLanguage (fun l => isSource sys l file p) allLanguages s with ⟨q, s1⟩
    rw [h3] at h
    rcases q with (_ | k) | _ | _ | _ <;> simp only [pure, Prod.mk.injEq, Outcome.err.injEq, reduceCtorEq, false_and] at h
    · obtain ⟨o, h4, h5⟩ := trees_state sys file s1
      rw [bind_apply, h4] at h
      rcases o with _ | k
      · simp only [Act.lift, Prod.mk.injEq, Outcome.err.injEq] at h
        obtain ⟨rfl, rfl⟩ := h
        exact ⟨rfl, hn, (sources_iff sys file p s none s1).1 h3, (h5 _).1 rfl⟩
      · simp at h
    · exact absurd h3 (NoErr.firstLanguage (fun l => NoErr.isSource sys l file p) _ _ _ _)
  · rintro ⟨rfl, hn, h, ht⟩
    rw [no_config p hn]
    obtain ⟨o, h4, h5⟩ := trees_state sys file s'
    have := (h5 _).2 ht
    subst this
    simp only [bind, bind_apply, (sources_iff sys file p s none s').2 h, h4, Act.lift]

/-- **C53, the check for Solidity.** The answer is that of one call of the configured compiler, and of nothing else. -/
theorem C53_solidity_check (sys : Sys S) (file : String) (p : Prefs) (s s' : S) (b : Bool) :
    isSource sys .solidity file p s = (.ok b, s') ↔
      (∃ base, Path.fileName file = some base) ∧ ∃ r, sys.exec (solidityCompiler p) (solidityAstArgs sys.tmp p file) s = (r, s') ∧
        (b = true ↔ ∃ out, r = some (true, out)) := by
  cases hf : Path.fileName file with
  | none =>
    have : isSource sys .solidity file p s = (.panic, s) := by
      simp only [isSource, solidityAst, hf]
      rfl
    simp [this]
  | some base =>
    rcases hr : sys.exec (solidityCompiler p) (solidityAstArgs sys.tmp p file) s with ⟨r, s1⟩
    have : isSource sys .solidity file p s = (.ok (succeeded r), s1) := by
      have : solidityAst sys file p s = (if succeeded r then (pure (sys.tmp ++ "/" ++ base ++ "_json.ast") : Act S String)
          else Act.lift (.err .sourceDoesNotCompile)) s1 := by
        simp only [solidityAst, hf, bind, Act.bind, Act.unwrap, Act.lift, Sys.run, hr]
      simp only [isSource, bind, Act.bind, Act.attempt, this]
      cases succeeded r <;> rfl
    rw [this]
    rcases r with _ | ⟨_ | _, out⟩ <;> cases b <;> simp [succeeded, and_assoc]

/-- **C53, extensions.** The extension that the tool looks at is what follows the last dot of the last component of
the path, if something stands before the dot. -/
theorem C53_extension (file : String) : Path.extension file = some "mgnx" ↔ HasExtension file "mgnx" :=
  Path.extension_iff (by decide) (by decide)

/-- Examples: a program in each language, a syntax tree, a configuration file, and two files that are nothing, one of
which has the text of a configuration file but no extension. -/
example : ((recognizeFile DemoSystem.sys "/in/a.sol" Prefs.new DemoSystem.disk).1 = .ok (.solidity, .source)) ∧
    (recognizeFile DemoSystem.sys "/in/x.vy" Prefs.new DemoSystem.disk).1 = .ok (.vyper, .source) ∧
    (recognizeFile DemoSystem.sys "/in/t.json" Prefs.new DemoSystem.disk).1 = .ok (.vyper, .ast) ∧
    (recognizeFile DemoSystem.sys "/in/c.mgnx" Prefs.new DemoSystem.disk).1 = .ok (.vyper, .config) ∧
    (recognizeFile DemoSystem.sys "/in/.mgnx" Prefs.new DemoSystem.disk).1 = .err .languageNotRecognized ∧
    (recognizeFile DemoSystem.sys "/in/readme" Prefs.new DemoSystem.disk).1 = .err .languageNotRecognized := by
  refine ⟨?_, ?_, ?_, ?_, ?_, ?_⟩ <;> decide +kernel

example : HasExtension "/in/c.mgnx" "mgnx" ∧ ¬ HasExtension "/in/.mgnx" "mgnx" :=
  ⟨(C53_extension _).1 (by decide +kernel), fun h => absurd ((C53_extension _).2 h) (by decide +kernel)⟩

end Mutagenyx
