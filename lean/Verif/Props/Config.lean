import Verif.Model.Config
import Verif.Props.Preferences

/-!
# C20: configuration files
-/

namespace Mutagenyx
open Json

private theorem isObj_setOpt {k : String} (hk : PlainKey k) (o : Option Json) {j : Json} (hj : IsObj j) :
    IsObj (Config.setOpt k o j) := by
  cases o with
  | none => exact hj
  | some v => exact setNodeForKey_isObj hk v hj

private theorem get?_setOpt {k k' : String} (hk : PlainKey k) (hk' : PlainKey k') (o : Option Json) {j : Json}
    (hj : IsObj j) : get? k' (Config.setOpt k o j) = if k = k' ∧ o.isSome then o else get? k' j := by
  cases o with
  | none => simp [Config.setOpt]
  | some v => simp [Config.setOpt, get?_setNodeForKey hk hk' v hj]

/-- What a configuration file stores for each key. -/
private def stored (c : Config) (k : String) : Option Json :=
  if k = "language" then c.language.map fun l => .str l.toStr
  else if k = "filenames" then some (Config.strArr c.filenames)
  else if k = "num-mutants" then some (.num (.int c.numberOfMutants))
  else if k = "seed" then c.seed.map fun (s : Nat) => .num (.int s)
  else if k = "mutations" then
    (if c.mutations.isEmpty then none else some (Config.strArr (c.mutations.map MutationType.toStr)))
  else if k = "all-mutations" then (if c.allMutations then some (.bool c.allMutations) else none)
  else if k = "compiler-details" then c.compilerDetails.map Prefs.toJson
  else if k = "functions" then (if c.functions.isEmpty then none else some (Config.strArr c.functions))
  else if k = "validate-mutants" then some (.bool c.verifyMutants)
  else if k = "output-directory" then c.outputDirectory.map .str
  else if k = "print-original" then some (.bool c.printOriginal)
  else none

private theorem get?_toJson (c : Config) :
    IsObj c.toJson ∧ ∀ k, PlainKey k → get? k c.toJson = stored c k := by
  have p1 : PlainKey "language" := by decide
  have p2 : PlainKey "filenames" := by decide
  have p3 : PlainKey "num-mutants" := by decide
  have p4 : PlainKey "seed" := by decide
  have p5 : PlainKey "mutations" := by decide
  have p6 : PlainKey "all-mutations" := by decide
  have p7 : PlainKey "compiler-details" := by decide
  have p8 : PlainKey "functions" := by decide
  have p9 : PlainKey "validate-mutants" := by decide
  have p10 : PlainKey "output-directory" := by decide
  have p11 : PlainKey "print-original" := by decide
  have h0 : IsObj (.obj []) := trivial
  unfold Config.toJson
  simp only
  have h1 := isObj_setOpt p1 (c.language.map fun l => .str l.toStr) h0
  have h2 := setNodeForKey_isObj p2 (Config.strArr c.filenames) h1
  have h3 := setNodeForKey_isObj p3 (.num (.int c.numberOfMutants)) h2
  have h4 := isObj_setOpt p4 (c.seed.map fun (s : Nat) => .num (.int s)) h3
  have h5 := isObj_setOpt p5 (if c.mutations.isEmpty then none
    else some (Config.strArr (c.mutations.map MutationType.toStr))) h4
  have h6 := isObj_setOpt p6 (if c.allMutations then some (.bool c.allMutations) else none) h5
  have h7 := isObj_setOpt p7 (c.compilerDetails.map Prefs.toJson) h6
  have h8 := isObj_setOpt p8 (if c.functions.isEmpty then none else some (Config.strArr c.functions)) h7
  have h9 := setNodeForKey_isObj p9 (.bool c.verifyMutants) h8
  have h10 := isObj_setOpt p10 (c.outputDirectory.map .str) h9
  refine ⟨setNodeForKey_isObj p11 (.bool c.printOriginal) h10, ?_⟩
  intro k hk
  rw [get?_setNodeForKey p11 hk _ h10, get?_setOpt p10 hk _ h9, get?_setNodeForKey p9 hk _ h8,
    get?_setOpt p8 hk _ h7, get?_setOpt p7 hk _ h6, get?_setOpt p6 hk _ h5, get?_setOpt p5 hk _ h4,
    get?_setOpt p4 hk _ h3, get?_setNodeForKey p3 hk _ h2, get?_setNodeForKey p2 hk _ h1,
    get?_setOpt p1 hk _ h0]
  have hnil : get? k (.obj []) = none := by rw [get?_obj hk]; rfl
  rw [hnil]
  unfold stored
  by_cases e1 : k = "language"
  · subst e1; cases c.language <;> simp
  by_cases e2 : k = "filenames"
  · subst e2; simp
  by_cases e3 : k = "num-mutants"
  · subst e3; simp
  by_cases e4 : k = "seed"
  · subst e4; cases c.seed <;> simp
  by_cases e5 : k = "mutations"
  · subst e5; cases c.mutations.isEmpty <;> simp
  by_cases e6 : k = "all-mutations"
  · subst e6; cases c.allMutations <;> simp
  by_cases e7 : k = "compiler-details"
  · subst e7; cases c.compilerDetails <;> simp
  by_cases e8 : k = "functions"
  · subst e8; cases c.functions.isEmpty <;> simp
  by_cases e9 : k = "validate-mutants"
  · subst e9; simp
  by_cases e10 : k = "output-directory"
  · subst e10; cases c.outputDirectory <;> simp
  by_cases e11 : k = "print-original"
  · subst e11; simp
  simp [e1, e2, e3, e4, e5, e6, e7, e8, e9, e10, e11, Ne.symm e1, Ne.symm e2, Ne.symm e3, Ne.symm e4,
    Ne.symm e5, Ne.symm e6, Ne.symm e7, Ne.symm e8, Ne.symm e9, Ne.symm e10, Ne.symm e11]

private theorem strings_strArr (xs : List String) : Config.strings (xs.map .str) = xs := by
  induction xs with
  | nil => rfl
  | cons x xs ih =>
    have : Config.strings (Json.str x :: xs.map .str) = x :: Config.strings (xs.map .str) := rfl
    rw [List.map_cons, this, ih]

private theorem ofString_toStr (ts : List MutationType) :
    (ts.map MutationType.toStr).filterMap MutationType.ofString? = ts := by
  induction ts with
  | nil => rfl
  | cons t ts ih =>
    have : MutationType.ofString? t.toStr = some t := by cases t <;> rfl
    rw [List.map_cons, List.filterMap_cons_some this, ih]

private theorem lang_round (l : Language) : Language.ofString? l.toStr = some l := by cases l <;> rfl

private theorem asI64_small {i : Int} (h : -(2 ^ 63 : Int) ≤ i ∧ i < 2 ^ 63) :
    Json.asI64 (.num (.int i)) = some i := by
  simp only [Json.asI64]
  rw [if_pos ⟨h.2, h.1⟩]

private theorem asI64_big {i : Int} (h : (2 ^ 63 : Int) ≤ i) : Json.asI64 (.num (.int i)) = none := by
  simp only [Json.asI64]
  rw [if_neg (fun hc => by omega)]

private theorem i64AsU64_nat (s : Nat) (h : s < 2 ^ 63) : i64AsU64 (s : Int) = s := by
  unfold i64AsU64
  omega

private theorem seed_read (o : Option Nat) :
    ((o.map fun s : Nat => Json.num (.int s)).bind Json.asI64).map i64AsU64 =
      o.filter (fun s => decide (s < 2 ^ 63)) := by
  cases o with
  | none => rfl
  | some s =>
    by_cases hlt : s < 2 ^ 63
    · have h : -(2 ^ 63 : Int) ≤ (s : Int) ∧ (s : Int) < 2 ^ 63 := by constructor <;> omega
      rw [Option.map_some, Option.bind_some, asI64_small h, Option.map_some, i64AsU64_nat s hlt,
        Option.filter_some, if_pos (by rw [decide_eq_true_eq]; exact hlt)]
    · have h : (2 ^ 63 : Int) ≤ (s : Int) := by omega
      rw [Option.map_some, Option.bind_some, asI64_big h, Option.map_none,
        Option.filter_some, if_neg (by rw [decide_eq_true_eq]; exact hlt)]

/-- A configuration that has a language, a count that fits `i64`, and compiler details as the tool builds
them (no `/` or `~` in keys). -/
structure Config.Writable (c : Config) : Prop where
  language : c.language.isSome
  count : -(2 ^ 63 : Int) ≤ c.numberOfMutants ∧ c.numberOfMutants < 2 ^ 63
  details : ∀ p, c.compilerDetails = some p → Pref.Plain (.map p)

/-- Two configurations agree up to the (unobservable) order of map entries in the compiler details. -/
structure Config.Same (c d : Config) : Prop where
  language : c.language = d.language
  filenames : c.filenames = d.filenames
  count : c.numberOfMutants = d.numberOfMutants
  seed : c.seed = d.seed
  mutations : c.mutations = d.mutations
  allMutations : c.allMutations = d.allMutations
  details : c.compilerDetails.map (fun p => Pref.canon (.map p)) =
    d.compilerDetails.map (fun p => Pref.canon (.map p))
  functions : c.functions = d.functions
  verify : c.verifyMutants = d.verifyMutants
  output : c.outputDirectory = d.outputDirectory
  printOriginal : c.printOriginal = d.printOriginal

/-- What reading back a written configuration gives: everything except seeds of 2^63 and above, which are
dropped. -/
theorem C20_read_back (c : Config) (hc : c.Writable) (file : String)
    (hf : Path.extension file = some "mgnx") :
    ∃ d, Config.newFromFile file (some c.toJson) = .ok d ∧
      d.Same { c with seed := c.seed.filter (fun s => s < 2 ^ 63) } := by
  obtain ⟨hobj, hget⟩ := get?_toJson c
  have hfield : ∀ k, PlainKey k → Json.field? k c.toJson = stored c k := by
    intro k hk
    rw [← hget k hk]
    obtain ⟨kvs, h⟩ := isObj_iff.1 hobj
    rw [h, get?_obj hk]; rfl
  have hcontains : ∀ k, PlainKey k → Json.containsKey k c.toJson = (stored c k).isSome := by
    intro k hk
    rw [← hfield k hk]
    obtain ⟨kvs, h⟩ := isObj_iff.1 hobj
    rw [h]; rfl
  obtain ⟨l, hl⟩ := Option.isSome_iff_exists.1 hc.language
  have hlang : Json.getStrForKey "language" c.toJson = some l.toStr := by
    unfold Json.getStrForKey
    rw [hget "language" (by decide)]
    simp [stored, hl, Json.asStr]
  have hmiss1 : Json.containsKey "language" c.toJson = true := by
    rw [hcontains _ (by decide)]; simp [stored, hl]
  have hmiss2 : Json.containsKey "filenames" c.toJson = true := by
    rw [hcontains _ (by decide)]; simp [stored]
  have hdet : Json.field? "compiler-details" c.toJson = c.compilerDetails.map Prefs.toJson := by
    rw [hfield _ (by decide)]; simp [stored]
  have hbody : ∀ det : Option Prefs, det.map (fun p => Pref.canon (.map p)) =
      c.compilerDetails.map (fun p => Pref.canon (.map p)) →
      (Config.ofJsonBody l c.toJson det).Same { c with seed := c.seed.filter (fun s => s < 2 ^ 63) } := by
    intro det hd
    constructor
    · simp [Config.ofJsonBody, hl]
    · simp only [Config.ofJsonBody, Json.getArrayForKey]
      rw [hget "filenames" (by decide)]
      simp [stored, Config.strArr, Json.asArray, strings_strArr]
    · simp only [Config.ofJsonBody, Json.getIntForKey]
      rw [hget "num-mutants" (by decide)]
      have := asI64_small hc.count
      simp [stored, this]
    · simp only [Config.ofJsonBody, Json.getIntForKey]
      rw [hget "seed" (by decide)]
      have : stored c "seed" = c.seed.map fun s : Nat => Json.num (.int s) := by simp [stored]
      rw [this]
      exact seed_read c.seed
    · simp only [Config.ofJsonBody, Json.getArrayForKey]
      rw [hget "mutations" (by decide)]
      simp only [stored]
      cases hm : c.mutations with
      | nil => simp
      | cons t ts =>
        simp [Config.strArr, Json.asArray]
        have := ofString_toStr (t :: ts)
        have h2 := strings_strArr ((t :: ts).map MutationType.toStr)
        simp only [List.map_cons, List.map_map] at this h2 ⊢
        rw [h2]
        exact this
    · simp only [Config.ofJsonBody, Json.getBoolForKey]
      rw [hget "all-mutations" (by decide)]
      simp only [stored]
      cases c.allMutations <;> simp [Json.asBool]
    · exact hd
    · simp only [Config.ofJsonBody, Json.getArrayForKey]
      rw [hget "functions" (by decide)]
      simp only [stored]
      cases hm : c.functions with
      | nil => simp
      | cons t ts =>
        have h2 := strings_strArr (t :: ts)
        simp only [List.map_cons] at h2
        simp [Config.strArr, Json.asArray, h2]
    · simp only [Config.ofJsonBody, Json.getBoolForKey]
      rw [hget "validate-mutants" (by decide)]
      simp [stored, Json.asBool]
    · simp only [Config.ofJsonBody, Json.getStrForKey]
      rw [hget "output-directory" (by decide)]
      simp only [stored]
      cases c.outputDirectory <;> simp [Json.asStr]
    · simp only [Config.ofJsonBody, Json.getBoolForKey]
      rw [hget "print-original" (by decide)]
      simp [stored, Json.asBool]
  unfold Config.newFromFile
  rw [hf]
  simp only [ne_eq, not_true_eq_false, if_false, hmiss1, hmiss2, if_true, List.append_nil, hlang,
    lang_round, hdet]
  have hcd' := hc.details
  revert hbody hcd'
  generalize hcd : c.compilerDetails = cd
  intro hbody hcd'
  cases cd with
  | none => exact ⟨_, rfl, hbody none rfl⟩
  | some p =>
    obtain ⟨q, hq1, hq2⟩ := C51_prefs_round_trip_partial p (hcd' p rfl)
    simp only [Option.map_some, hq1]
    exact ⟨_, rfl, hbody (some q) (by simp [hq2])⟩

/-- **C20, partial.** A configuration whose seed is below 2^63 survives writing and reading.  Missing from
the full statement: larger seeds (see the counterexample) and compiler details with `/` or `~` in keys. -/
theorem C20_round_trip_partial (c : Config) (hc : c.Writable) (hs : ∀ s, c.seed = some s → s < 2 ^ 63)
    (file : String) (hf : Path.extension file = some "mgnx") :
    ∃ d, Config.newFromFile file (some c.toJson) = .ok d ∧ d.Same c := by
  obtain ⟨d, h1, h2⟩ := C20_read_back c hc file hf
  refine ⟨d, h1, ?_⟩
  have : c.seed.filter (fun s => s < 2 ^ 63) = c.seed := by
    cases h : c.seed with
    | none => rfl
    | some s => simpa [Option.filter] using hs s h
  rw [this] at h2
  exact h2

/-- **C20 is false for seeds of 2^63 and above**: the seed is lost on reading. -/
theorem C20_seed_counterexample (c : Config) (hc : c.Writable) (s : Nat) (hs : c.seed = some s)
    (hbig : 2 ^ 63 ≤ s) (file : String) (hf : Path.extension file = some "mgnx") :
    ∃ d, Config.newFromFile file (some c.toJson) = .ok d ∧ d.seed = none := by
  obtain ⟨d, h1, h2⟩ := C20_read_back c hc file hf
  refine ⟨d, h1, ?_⟩
  rw [h2.seed]
  simp only [hs, Option.filter]
  have : ¬ s < 2 ^ 63 := by omega
  simp [this]

/-- **C20**: a setting that the file does not give has its default value: five mutants, no seed, no algorithms, no
functions, no output directory, no compiler details, and all switches off. -/
theorem C20_defaults (file : String) (j : Json) (c : Config) (h : Config.newFromFile file (some j) = .ok c) :
    (get? "num-mutants" j = none → c.numberOfMutants = 5) ∧ (get? "seed" j = none → c.seed = none) ∧
    (get? "mutations" j = none → c.mutations = []) ∧ (get? "all-mutations" j = none → c.allMutations = false) ∧
    (get? "functions" j = none → c.functions = []) ∧ (get? "validate-mutants" j = none → c.verifyMutants = false) ∧
    (get? "output-directory" j = none → c.outputDirectory = none) ∧
    (get? "print-original" j = none → c.printOriginal = false) ∧
    (Json.field? "compiler-details" j = none → c.compilerDetails = none) := by
  have key : ∃ l d, c = Config.ofJsonBody l j d ∧ (Json.field? "compiler-details" j = none → d = none) := by
    unfold Config.newFromFile at h
    simp only at h
    repeat' split at h
    all_goals first
      | (cases h; done)
      | (cases h; exact ⟨_, _, rfl, fun _ => rfl⟩)
      | (rename_i hd _ _ _
         cases h
         exact ⟨_, _, rfl, fun hn => by rw [hd] at hn; cases hn⟩)
  obtain ⟨l, d, rfl, hd⟩ := key
  refine ⟨?_, ?_, ?_, ?_, ?_, ?_, ?_, ?_, hd⟩ <;> intro hn <;>
    simp [Config.ofJsonBody, Json.getIntForKey, Json.getArrayForKey, Json.getBoolForKey, Json.getStrForKey, hn]

example : ∃ c, Config.newFromFile "a.mgnx" (some (.obj [("language", .str "Vyper"), ("filenames", .arr [])])) = .ok c ∧
    c.numberOfMutants = 5 := ⟨_, rfl, rfl⟩

/-- **C20**: reading decides its errors in a fixed order: extension, readable JSON, required keys,
language. -/
theorem C20_errors (file : String) :
    (Path.extension file ≠ some "mgnx" → ∀ j, Config.newFromFile file j = .err .configFileBadExtension) ∧
    (Path.extension file = some "mgnx" → Config.newFromFile file none = .err .configFileNotSupported) ∧
    (Path.extension file = some "mgnx" → ∀ j, (¬ j.containsKey "language" ∨ ¬ j.containsKey "filenames") →
      ∃ ks, ks ≠ [] ∧ (∀ k ∈ ks, ¬ j.containsKey k) ∧
        Config.newFromFile file (some j) = .err (.configFileMissingRequiredKey ks)) := by
  refine ⟨?_, ?_, ?_⟩
  · intro h j
    unfold Config.newFromFile
    cases he : Path.extension file with
    | none => rfl
    | some e =>
      have : e ≠ "mgnx" := by rintro rfl; exact h he
      simp [this]
  · intro h; unfold Config.newFromFile; simp [h]
  · intro h j hj
    unfold Config.newFromFile
    simp only [h, ne_eq, not_true_eq_false, if_false]
    by_cases h1 : j.containsKey "language" <;> by_cases h2 : j.containsKey "filenames"
    · simp [h1, h2] at hj
    · exact ⟨["filenames"], by simp, by simpa using h2, by simp [h1, h2]⟩
    · exact ⟨["language"], by simp, by simpa using h1, by simp [h1, h2]⟩
    · exact ⟨["language", "filenames"], by simp, by simp [h1, h2], by simp [h1, h2]⟩

/-- A configuration with every field set meets the hypotheses. -/
example : Config.Writable { language := some .vyper, filenames := ["a/b.vy"], numberOfMutants := 7, seed := some 3, mutations := [.swapLines, .integer], compilerDetails := some [("path", .str "vyper")], functions := ["f"], verifyMutants := true, outputDirectory := some "out", printOriginal := true } :=
  ⟨rfl, by decide, by
    intro p h
    simp only [Option.some.injEq] at h
    subst h
    simp only [Pref.Plain, Pref.PlainFields]
    decide⟩

example : Path.extension "some/dir/x.sol.mgnx" = some "mgnx" := by decide

end Mutagenyx
