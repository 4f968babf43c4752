import Verif.Model.System
import Verif.Spec.Solc
import Verif.Proofs.Prefs

/-!
# The command lines of compilers (property C54)
-/

namespace Mutagenyx

/-- The preferences hold these settings of the Solidity compiler. -/
def ConfiguredSolc (p : Prefs) (c : SolcSettings) : Prop :=
  ∃ q, compilerPrefs .solidity p = some q ∧ (q.getString "path").getD "solc" = c.compiler ∧ q.getString "base-path" = c.basePath ∧
    (q.getArray "include-paths").getD [] = c.includePaths.map Pref.str ∧
    (q.getArray "allow-paths").getD [] = c.allowPaths.map Pref.str ∧
    (q.getArray "remappings").getD [] = c.remappings.map Pref.str ∧ q.getString "stop-after" = c.stopAfter

/-- The preferences hold these settings of the Vyper compiler. -/
def ConfiguredVyper (p : Prefs) (c : VyperSettings) : Prop :=
  ∃ q, compilerPrefs .vyper p = some q ∧ (q.getString "path").getD "vyper" = c.compiler ∧ q.getString "root-path" = c.rootPath

namespace CompilerArgs

theorem strings_map (xs : List String) : strings (xs.map Pref.str) = xs := by
  induction xs with
  | nil => rfl
  | cons x xs ih => exact congrArg (x :: ·) ih

theorem getString_setOption (k k' : String) (x : Option String) (p : Prefs) :
    (setOption k x p).getString k' = if k = k' then x.or (p.getString k') else p.getString k' := by
  cases x with
  | none => simp [setOption]
  | some s =>
    simp only [setOption, Prefs.setString, Prefs.getString, Prefs.get?_set]
    by_cases h : k = k' <;> simp [h]

theorem getArray_setOption (k k' : String) (x : Option String) (p : Prefs) (h : k ≠ k') :
    (setOption k x p).getArray k' = p.getArray k' := by
  cases x with
  | none => simp [setOption]
  | some s => simp [setOption, Prefs.setString, Prefs.getArray, Prefs.get?_set, h]

theorem getString_setStrings (k k' : String) (xs : List String) (p : Prefs) (h : k ≠ k') :
    (setStrings k xs p).getString k' = p.getString k' := by
  unfold setStrings
  split
  · rfl
  · simp [Prefs.setArray, Prefs.getString, Prefs.get?_set, h]

theorem getArray_setStrings (k k' : String) (xs : List String) (p : Prefs) :
    (setStrings k xs p).getArray k' = if k = k' ∧ xs ≠ [] then some (xs.map Pref.str) else p.getArray k' := by
  unfold setStrings
  cases xs with
  | nil => simp
  | cons x xs =>
    simp only [List.isEmpty_cons, Bool.false_eq_true, if_false, Prefs.setArray, Prefs.getArray, Prefs.get?_set, ne_eq,
      reduceCtorEq, not_false_eq_true, and_true]
    by_cases h : k = k' <;> simp [h]

theorem getString_path (k c : String) : (Prefs.new.setString "path" c).getString k = if "path" = k then some c else none := by
  simp only [Prefs.setString, Prefs.getString, Prefs.get?_set]
  by_cases h : "path" = k <;> simp [h, Prefs.new, Prefs.get?]

theorem getArray_path (k c : String) : (Prefs.new.setString "path" c).getArray k = none := by
  simp only [Prefs.setString, Prefs.getArray, Prefs.get?_set]
  by_cases h : "path" = k <;> simp [h, Prefs.new, Prefs.get?]

end CompilerArgs

open CompilerArgs

/-- **C54, settings.** The preferences made from the settings hold them. -/
theorem C54_settings (c : SolcSettings) (v : VyperSettings) :
    ConfiguredSolc (settingsPreferences c v) c ∧ ConfiguredVyper (settingsPreferences c v) v := by
  constructor
  · refine ⟨c.toPreferences, ?_, ?_⟩
    · simp [compilerPrefs, settingsPreferences, Prefs.setPrefs, Prefs.getPrefs, Prefs.get?_set, Language.toStr]
    · simp [SolcSettings.toPreferences, getString_setOption, getArray_setOption, getString_setStrings, getArray_setStrings,
        getString_path, getArray_path]
      and_intros <;> split <;> simp_all
  · refine ⟨v.toPreferences, ?_, ?_⟩
    · simp [compilerPrefs, settingsPreferences, Prefs.setPrefs, Prefs.getPrefs, Prefs.get?_set, Language.toStr]
    · simp [VyperSettings.toPreferences, getString_setOption, getString_path]

namespace CompilerArgs

theorem read_single {a : String} (ha : a ∉ solcOptions) (rest : List String) :
    readSolc (a :: rest) = (readSolc rest).bind (SolcCall.single a) := by
  cases rest with
  | nil => simp [readSolc, ha]
  | cons v rest => rw [readSolc.eq_def]; simp only [ha, if_false]

theorem read_option {a : String} (ha : a ∈ solcOptions) (v : String) (rest : List String) :
    readSolc (a :: v :: rest) = (readSolc rest).bind (SolcCall.option a v) := by
  rw [readSolc.eq_def]; simp only [ha, if_true]

theorem not_option {a : String} (h : ¬ IsDashed a) : a ∉ solcOptions := by
  intro ha
  apply h
  simp only [solcOptions, List.mem_cons, List.not_mem_nil, or_false] at ha
  rcases ha with rfl | rfl | rfl | rfl | rfl <;> decide

/-- Positional arguments that are remappings. -/
theorem read_remappings {rest : List String} {c : SolcCall} (hc : readSolc rest = some c) : ∀ (ms : List String),
    (∀ m ∈ ms, ¬ IsDashed m ∧ '=' ∈ m.toList) → readSolc (ms ++ rest) = some { c with remappings := ms ++ c.remappings }
  | [], _ => hc
  | m :: ms, h => by
    rw [List.cons_append, read_single (not_option (h m List.mem_cons_self).1),
      read_remappings hc ms fun x hx => h x (List.mem_cons_of_mem _ hx)]
    simp [SolcCall.single, (h m List.mem_cons_self).1, (h m List.mem_cons_self).2]

theorem read_includes {rest : List String} {c : SolcCall} (hc : readSolc rest = some c) : ∀ (xs : List String),
    (∀ x ∈ xs, ¬ IsDashed x) →
      readSolc ((xs.flatMap fun x => ["--include-path", x]) ++ rest) = some { c with includes := xs ++ c.includes }
  | [], _ => hc
  | x :: xs, h => by
    show readSolc ("--include-path" :: x :: ((xs.flatMap fun x => ["--include-path", x]) ++ rest)) = _
    rw [read_option (by decide), read_includes hc xs fun y hy => h y (List.mem_cons_of_mem _ hy)]
    simp [SolcCall.option, h x List.mem_cons_self]

theorem allow_one (x : String) : allowLoop 1 0 [.str x] = [x] := by simp [allowLoop]

end CompilerArgs

/-- Settings that can be given on the command line of `solc`: no value begins with a dash, remappings contain an equals
sign. -/
structure Givable (c : SolcSettings) : Prop where
  base : ∀ b, c.basePath = some b → ¬ IsDashed b
  includes : ∀ x ∈ c.includePaths, ¬ IsDashed x
  allow : ∀ x ∈ c.allowPaths, ¬ IsDashed x
  remappings : ∀ m ∈ c.remappings, ¬ IsDashed m ∧ '=' ∈ m.toList
  stop : ∀ x, c.stopAfter = some x → ¬ IsDashed x

namespace CompilerArgs

/-- The flags before any further arguments. -/
theorem read_flags {p : Prefs} {c : SolcSettings} (hp : ConfiguredSolc p c) (hg : Givable c) (h1 : c.allowPaths.length ≤ 1)
    {rest : List String} {q : SolcCall} (hq : readSolc rest = some q) (hb : q.base = none) (ha : q.allow = none) (hs : ∀ x, c.stopAfter = some x → q.stop = none) :
    readSolc (solidityFlags p ++ rest) = some
      { q with base := c.basePath, includes := c.includePaths ++ q.includes, allow := c.allowPaths.head?,
               remappings := c.remappings ++ q.remappings, stop := c.stopAfter.or q.stop } := by
  obtain ⟨k, hk, -, e1, e2, e3, e4, e5⟩ := hp
  obtain ⟨qb, qi, qa, qr, qs, qo, qw, qn⟩ := q
  simp only at hb ha hs
  subst hb ha
  simp only [solidityFlags, hk, e1, e5, List.append_assoc]
  generalize hr1 : (match c.stopAfter with
      | some s => ["--stop-after", s]
      | none => []) ++ rest = r1
  have s1 : readSolc r1 = some ⟨none, qi, none, qr, c.stopAfter.or qs, qo, qw, qn⟩ := by
    subst hr1
    cases hx : c.stopAfter with
    | none => simpa using hq
    | some x =>
      have := hs x hx
      subst this
      show readSolc ("--stop-after" :: x :: rest) = _
      rw [read_option (by decide), hq]
      simp [SolcCall.option, hg.stop x hx]
  generalize hr2 : (match k.getArray "remappings" with
      | some xs => strings xs
      | none => []) ++ r1 = r2
  have s2 : readSolc r2 = some ⟨none, qi, none, c.remappings ++ qr, c.stopAfter.or qs, qo, qw, qn⟩ := by
    subst hr2
    have : (match k.getArray "remappings" with
      | some xs => strings xs
      | none => []) = c.remappings := by
      rw [← strings_map c.remappings, ← e4]
      cases k.getArray "remappings" <;> rfl
    rw [this]
    exact read_remappings s1 c.remappings hg.remappings
  generalize hr3 : (match k.getArray "allow-paths" with
      | some xs => if xs.isEmpty = true then [] else "--allow-paths" :: allowLoop xs.length 0 xs
      | none => []) ++ r2 = r3
  have s3 : readSolc r3 = some ⟨none, qi, c.allowPaths.head?, c.remappings ++ qr, c.stopAfter.or qs, qo, qw, qn⟩ := by
    subst hr3
    have hga := hg.allow
    match hc : c.allowPaths, h1, hga with
    | [], _, _ =>
      have : (match k.getArray "allow-paths" with
        | some xs => if xs.isEmpty = true then [] else "--allow-paths" :: allowLoop xs.length 0 xs
        | none => []) = [] := by
        rw [hc] at e3
        cases h : k.getArray "allow-paths" with
        | none => rfl
        | some xs => rw [h] at e3; simp only [Option.getD_some, List.map_nil] at e3; subst e3; rfl
      rw [this]
      exact s2
    | [x], _, hx =>
      have : (match k.getArray "allow-paths" with
        | some xs => if xs.isEmpty = true then [] else "--allow-paths" :: allowLoop xs.length 0 xs
        | none => []) = ["--allow-paths", x] := by
        rw [hc] at e3
        cases h : k.getArray "allow-paths" with
        | none => rw [h] at e3; simp at e3
        | some xs => rw [h] at e3; simp only [Option.getD_some, List.map_cons, List.map_nil] at e3; subst e3; simp [allow_one]
      rw [this]
      show readSolc ("--allow-paths" :: x :: r2) = _
      rw [read_option (by decide), s2]
      simp [SolcCall.option, hx x List.mem_cons_self]
  generalize hr4 : (match k.getArray "include-paths" with
      | some xs => (strings xs).flatMap fun x => ["--include-path", x]
      | none => []) ++ r3 = r4
  have s4 : readSolc r4 = some ⟨none, c.includePaths ++ qi, c.allowPaths.head?, c.remappings ++ qr, c.stopAfter.or qs, qo, qw, qn⟩ := by
    subst hr4
    have : (match k.getArray "include-paths" with
      | some xs => (strings xs).flatMap fun x => ["--include-path", x]
      | none => []) = c.includePaths.flatMap fun x => ["--include-path", x] := by
      rw [← strings_map c.includePaths, ← e2]
      cases k.getArray "include-paths" <;> rfl
    rw [this]
    exact read_includes s3 c.includePaths hg.includes
  cases hb : c.basePath with
  | none => exact s4
  | some b =>
    show readSolc ("--base-path" :: b :: r4) = _
    rw [read_option (by decide), s4]
    simp [SolcCall.option, hg.base b hb]

theorem read_file {file : String} (hf : ¬ IsDashed file) (he : '=' ∉ file.toList) : readSolc [file] = some { inputs := [file] } := by
  rw [read_single (not_option hf)]
  simp [readSolc, SolcCall.single, hf, he]

theorem read_out {file tmp : String} (hf : ¬ IsDashed file) (he : '=' ∉ file.toList) (ht : ¬ IsDashed tmp) :
    readSolc ["--overwrite", "-o", tmp, file] = some { out := some tmp, switches := ["--overwrite"], inputs := [file] } := by
  rw [read_single (by decide), read_option (by decide), read_file hf he]
  show (SolcCall.option "-o" tmp { inputs := [file] }).bind _ = _
  rw [SolcCall.option, if_neg ht]
  rfl

end CompilerArgs

/-- **C54, Solidity, making a syntax tree.** The command line with which the compiler makes a syntax tree is read as
the settings say: the base path, the include paths in order, the allowed path, the remappings in order, the stage to
stop after, and the file as the only input.  Missing: more than one allowed path. -/
theorem C54_solidity_ast_partial {p : Prefs} {c : SolcSettings} (hp : ConfiguredSolc p c) (hg : Givable c)
    (h1 : c.allowPaths.length ≤ 1) {file tmp : String} (hf : ¬ IsDashed file) (he : '=' ∉ file.toList) (ht : ¬ IsDashed tmp) :
    solidityCompiler p = c.compiler ∧ readSolc (solidityAstArgs tmp p file) = some
      { base := c.basePath, includes := c.includePaths, allow := c.allowPaths.head?, remappings := c.remappings,
        stop := c.stopAfter, out := some tmp, switches := ["--ast-compact-json", "--overwrite"], inputs := [file] } := by
  constructor
  · obtain ⟨k, hk, e, -⟩ := hp
    simp only [solidityCompiler, compilerPath, hk, e]
  · have h := read_out hf he ht
    have h' : readSolc ["--ast-compact-json", "--overwrite", "-o", tmp, file] =
        some { out := some tmp, switches := ["--ast-compact-json", "--overwrite"], inputs := [file] } := by
      rw [read_single (by decide), h]
      rfl
    rw [solidityAstArgs, read_flags hp hg h1 h' rfl rfl fun _ _ => rfl]
    simp

/-- **C54, Solidity, trying a program.** The same for the command line with which mutants are tried.  Missing: more than
one allowed path. -/
theorem C54_solidity_try_partial {p : Prefs} {c : SolcSettings} (hp : ConfiguredSolc p c) (hg : Givable c)
    (h1 : c.allowPaths.length ≤ 1) {file tmp : String} (hf : ¬ IsDashed file) (he : '=' ∉ file.toList) (ht : ¬ IsDashed tmp) :
    readSolc (solidityTryArgs tmp p file) = some
      { base := c.basePath, includes := c.includePaths, allow := c.allowPaths.head?, remappings := c.remappings,
        stop := c.stopAfter, out := some tmp, switches := ["--overwrite"], inputs := [file] } := by
  rw [solidityTryArgs, read_flags hp hg h1 (read_out hf he ht) rfl rfl fun _ _ => rfl]
  simp

/-- **C54, Solidity, the second attempt.** If no stage to stop after is configured, the second attempt differs from the
first in that the compiler stops after parsing.  Missing: settings with a stage. -/
theorem C54_solidity_retry_partial {p : Prefs} {c : SolcSettings} (hp : ConfiguredSolc p c) (hg : Givable c)
    (h1 : c.allowPaths.length ≤ 1) (h2 : c.stopAfter = none) {file tmp : String} (hf : ¬ IsDashed file) (he : '=' ∉ file.toList)
    (ht : ¬ IsDashed tmp) :
    readSolc (solidityRetryArgs tmp p file) = some
      { base := c.basePath, includes := c.includePaths, allow := c.allowPaths.head?, remappings := c.remappings,
        stop := some "parsing", out := some tmp, switches := ["--overwrite"], inputs := [file] } := by
  have h : readSolc ["--overwrite", "-o", tmp, file, "--stop-after", "parsing"] =
      some { stop := some "parsing", out := some tmp, switches := ["--overwrite"], inputs := [file] } := by
    rw [read_single (by decide), read_option (by decide), read_single (not_option hf)]
    show (((SolcCall.single file { stop := some "parsing" }).bind (SolcCall.option "-o" tmp)).bind _) = _
    rw [SolcCall.single, if_neg hf, if_neg he]
    show (SolcCall.option "-o" tmp { stop := some "parsing", inputs := [file] }).bind _ = _
    rw [SolcCall.option, if_neg ht]
    rfl
  rw [solidityRetryArgs, solidityTryArgs, List.append_assoc, List.cons_append, List.cons_append, List.cons_append, List.cons_append,
    List.nil_append, read_flags hp hg h1 h rfl rfl (by simp [h2])]
  simp [h2]

/-- **C54, Vyper.** The command line of the Vyper compiler is read as the settings say. -/
theorem C54_vyper {p : Prefs} {c : VyperSettings} (hp : ConfiguredVyper p c) (hr : ∀ r, c.rootPath = some r → ¬ IsDashed r)
    {file out : String} (hf : ¬ IsDashed file) (ho : ¬ IsDashed out) (dashO : Bool) :
    vyperCompiler p = c.compiler ∧
    readVyper (vyperAstArgs dashO out p file) = some
      { root := c.rootPath, format := some "ast", out := if dashO then some out else none, inputs := [file] } ∧
    readVyper (vyperFlags p ++ [file]) = some { root := c.rootPath, inputs := [file] } := by
  obtain ⟨k, hk, e1, e2⟩ := hp
  refine ⟨by simp only [vyperCompiler, compilerPath, hk, e1], ?_⟩
  have hd : ∀ a ∈ ["-p", "-f", "-o"], IsDashed a := by decide
  have ha : ¬ IsDashed "ast" := by decide
  have hm : file ∉ ["-p", "-f", "-o"] := fun h => hf (hd _ h)
  simp only [vyperAstArgs, vyperFlags, hk, e2]
  cases hc : c.rootPath with
  | none => cases dashO <;> simp_all [readVyper, VyperCall.option]
  | some r =>
    have := hr r hc
    cases dashO <;> simp_all [readVyper, VyperCall.option]

/-- **C54 counterexample, allowed paths.** Of two allowed paths the first is given to the option with a comma at its
end, and the second is read as a program to compile. -/
theorem C54_allow_counterexample :
    readSolc (solidityTryArgs "/tmp" (settingsPreferences { allowPaths := ["/a", "/b"] } {}) "c.sol") = some
      { allow := some "/a,", out := some "/tmp", switches := ["--overwrite"], inputs := ["/b", "c.sol"] } := by decide +kernel

/-- **C54 counterexample, stage.** If a stage is configured, the second attempt gives it twice, which is not understood. -/
theorem C54_stage_counterexample :
    readSolc (solidityRetryArgs "/tmp" (settingsPreferences { stopAfter := some "parsing" } {}) "c.sol") = none := by
  decide +kernel

/-- Examples: settings of every kind. -/
def C54_demo : SolcSettings where
  compiler := "solc-0.8"
  basePath := some "/src"
  includePaths := ["/lib", "/vendor"]
  allowPaths := ["/src,/lib"]
  remappings := ["@a=/a", "@b=/b"]
  stopAfter := some "parsing"

example : ConfiguredSolc (settingsPreferences C54_demo {}) C54_demo ∧ Givable C54_demo ∧ C54_demo.allowPaths.length ≤ 1 :=
  ⟨(C54_settings _ _).1, ⟨by decide, by decide, by decide, by decide, by decide⟩, by decide⟩

example : readSolc (solidityAstArgs "/tmp" (settingsPreferences C54_demo {}) "c.sol") = some
    { base := some "/src", includes := ["/lib", "/vendor"], allow := some "/src,/lib", remappings := ["@a=/a", "@b=/b"],
      stop := some "parsing", out := some "/tmp", switches := ["--ast-compact-json", "--overwrite"], inputs := ["c.sol"] } := by
  decide +kernel

example : readVyper (vyperAstArgs true "/tmp/x.json" (settingsPreferences {} { rootPath := some "/src" }) "x.vy") = some
    { root := some "/src", format := some "ast", out := some "/tmp/x.json", inputs := ["x.vy"] } := by decide +kernel

end Mutagenyx
