import Verif.Props.CompilerArgs
import Verif.Props.Runs
import Verif.Model.Tool
import Verif.Proofs.Path

/-!
# C82: the compiler of a saved configuration; C83: the compiler in a container
-/

namespace Mutagenyx
namespace SavedCompiler
open MutationType Pref

theorem get?_of_perm : ∀ {p q : Prefs}, p.Perm q → (p.map Prod.fst).Nodup → ∀ k, Prefs.get? k p = Prefs.get? k q := by
  intro p q h
  induction h with
  | nil => intro _ _; rfl
  | cons x _ ih =>
    intro hn k
    simp only [List.map_cons, List.nodup_cons] at hn
    simp only [Prefs.get?]
    rw [ih hn.2 k]
  | swap x y l =>
    intro hn k
    simp only [List.map_cons, List.nodup_cons, List.mem_cons, not_or] at hn
    simp only [Prefs.get?]
    by_cases h1 : y.1 = k
    · by_cases h2 : x.1 = k
      · exact absurd (h1.trans h2.symm) hn.1.1
      · simp [h1, h2]
    · simp [h1]
  | trans h1 _ ih1 ih2 => intro hn k; exact (ih1 hn k).trans (ih2 ((h1.map _).nodup hn) k)

theorem get?_canonFields (k : String) : ∀ p : Prefs, Prefs.get? k (canonFields p) = (Prefs.get? k p).map canon := by
  intro p
  induction p with
  | nil => rfl
  | cons e p ih =>
    obtain ⟨l, v⟩ := e
    simp only [canonFields, Prefs.get?]
    split
    · rfl
    · exact ih

theorem keys_canonFields (p : Prefs) : (canonFields p).map Prod.fst = p.map Prod.fst := by
  rw [canonFields_eq, List.map_map]; rfl

/-- Maps that are the same up to the order of entries hold the same values up to that. -/
theorem get?_of_canon {p q : Prefs} (h : canon (.map p) = canon (.map q)) (hn : (q.map Prod.fst).Nodup) (k : String) :
    (Prefs.get? k p).map canon = (Prefs.get? k q).map canon := by
  simp only [canon, Pref.map.injEq] at h
  have hp : (canonFields p).Perm (canonFields q) := (sortBy_perm Prod.fst _).symm.trans (h ▸ sortBy_perm Prod.fst _)
  rw [← get?_canonFields, ← get?_canonFields]
  exact (get?_of_perm hp.symm (by rw [keys_canonFields]; exact hn) k).symm

theorem canon_str {v : Pref} {s : String} (h : canon v = .str s) : v = .str s := by
  cases v <;> simp_all [canon]

theorem canonList_strs : ∀ {xs : List Pref} {l : List String}, canonList xs = l.map Pref.str → xs = l.map Pref.str := by
  intro xs
  induction xs with
  | nil => intro l h; cases l <;> simp_all [canonList]
  | cons x xs ih =>
    intro l h
    cases l with
    | nil => simp [canonList] at h
    | cons s l =>
      simp only [canonList, List.map_cons, List.cons.injEq] at h
      rw [canon_str h.1, ih h.2]; rfl

theorem canonList_map_str (l : List String) : canonList (l.map Pref.str) = l.map Pref.str := by
  induction l with
  | nil => rfl
  | cons s l ih => simp [canonList, canon, ih]

theorem getString_of_canon {p q : Prefs} (h : canon (.map p) = canon (.map q)) (hn : (q.map Prod.fst).Nodup) (k : String) :
    p.getString k = q.getString k := by
  have h := get?_of_canon h hn k
  unfold Prefs.getString
  cases hp : p.get? k with
  | none => cases hq : q.get? k with
    | none => rfl
    | some w => rw [hp, hq] at h; simp at h
  | some v => cases hq : q.get? k with
    | none => rw [hp, hq] at h; simp at h
    | some w =>
      rw [hp, hq] at h
      simp only [Option.map_some, Option.some.injEq] at h
      cases v <;> cases w <;> simp_all [canon]

theorem getArray_of_canon {p q : Prefs} (h : canon (.map p) = canon (.map q)) (hn : (q.map Prod.fst).Nodup) (k : String)
    {l : List String} (hq : (q.getArray k).getD [] = l.map Pref.str) : (p.getArray k).getD [] = l.map Pref.str := by
  have h := get?_of_canon h hn k
  unfold Prefs.getArray at *
  cases hp : p.get? k with
  | none => cases hq' : q.get? k with
    | none => rw [hq'] at hq; exact hq
    | some w => rw [hp, hq'] at h; simp at h
  | some v => cases hq' : q.get? k with
    | none => rw [hp, hq'] at h; simp at h
    | some w =>
      rw [hp, hq'] at h
      rw [hq'] at hq
      simp only [Option.map_some, Option.some.injEq] at h
      cases v <;> cases w <;> simp_all [canon]
      rename_i a b
      rw [canonList_map_str] at h
      exact canonList_strs h

/-- The settings in a configuration file win over those of the command line. -/
theorem compilerPrefs_override (lang : Language) (d lp a : Prefs) (ha : a.getPrefs lang.toStr = some lp) :
    compilerPrefs lang (overridePrefs lang (some d) a) = some d := by
  simp only [overridePrefs, ha]
  simp [compilerPrefs, Prefs.setPrefs, Prefs.getPrefs, Prefs.get?_set]

theorem count_fits (n : Nat) : -(2 ^ 63 : Int) ≤ u64AsI64 n ∧ u64AsI64 n < 2 ^ 63 := by
  unfold u64AsI64
  simp only
  split <;> omega

/-- What is read back from a saved configuration as settings of the compiler. -/
theorem read_details {R : Type} (lang : Language) (P : Params R) {d : Prefs}
    (hs : (savedConfig defaultCompiler lang P).compilerDetails = some d) (hd : Plain (.map d)) {file : String}
    (hf : Path.extension file = some "mgnx") :
    ∃ c d', Config.newFromFile file (some (savedConfig defaultCompiler lang P).toJson) = .ok c ∧
      c.compilerDetails = some d' ∧ canon (.map d') = canon (.map d) := by
  have hw : (savedConfig defaultCompiler lang P).Writable := by
    refine ⟨rfl, ?_, ?_⟩
    · simp only [savedConfig]; exact count_fits _
    · intro p hp; rw [hs] at hp; cases hp; exact hd
  obtain ⟨c, h1, h2⟩ := C20_read_back _ hw file hf
  have h := h2.details
  rw [hs] at h
  cases hc : c.compilerDetails with
  | none => rw [hc] at h; simp at h
  | some d' => rw [hc] at h; exact ⟨c, d', h1, hc, by simpa using h⟩

theorem details_of {R : Type} (lang : Language) (P : Params R) (hn : P.preferences.getPrefs "compiler-details" = none) {q : Prefs}
    (hq : compilerPrefs lang P.preferences = some q) : (savedConfig defaultCompiler lang P).compilerDetails = some q := by
  simp only [savedConfig, hn]
  unfold compilerPrefs at hq
  cases h : P.preferences.getPrefs lang.toStr with
  | none => rw [h] at hq; simp at hq
  | some lp => rw [h] at hq; exact hq

theorem details_default {R : Type} (lang : Language) (P : Params R) (hn : P.preferences.getPrefs "compiler-details" = none)
    (hl : P.preferences.getPrefs lang.toStr = none) :
    (savedConfig defaultCompiler lang P).compilerDetails = some (defaultCompiler lang) := by
  simp only [savedConfig, hn, hl]

theorem keys_set (p : Prefs) (k : String) (v : Pref) :
    (p.set k v).map Prod.fst = if k ∈ p.map Prod.fst then p.map Prod.fst else p.map Prod.fst ++ [k] := by
  induction p with
  | nil => rfl
  | cons e p ih =>
    obtain ⟨l, w⟩ := e
    simp only [Prefs.set]
    by_cases h : l = k
    · simp [h]
    · have : k ≠ l := fun e => h e.symm
      simp only [h, if_false, List.map_cons, ih, List.mem_cons, this, false_or]
      split <;> simp

theorem mem_set {p : Prefs} {k : String} {v : Pref} {e : String × Pref} (h : e ∈ p.set k v) : e = (k, v) ∨ e ∈ p := by
  induction p with
  | nil => exact .inl (by simpa [Prefs.set] using h)
  | cons f p ih =>
    obtain ⟨l, w⟩ := f
    simp only [Prefs.set] at h
    split at h
    · rcases List.mem_cons.1 h with h | h
      · exact .inl h
      · exact .inr (List.mem_cons_of_mem _ h)
    · rcases List.mem_cons.1 h with h | h
      · exact .inr (h ▸ List.mem_cons_self)
      · rcases ih h with h | h
        · exact .inl h
        · exact .inr (List.mem_cons_of_mem _ h)

theorem plain_set {p : Prefs} (hp : Plain (.map p)) {k : String} (hk : Json.PlainKey k) {v : Pref} (hv : Plain v) :
    Plain (.map (p.set k v)) := by
  simp only [Plain, plainFields_iff] at *
  refine ⟨?_, ?_⟩
  · rw [keys_set]
    split
    · exact hp.1
    · next h =>
      rw [List.nodup_append]
      refine ⟨hp.1, by simp, ?_⟩
      intro a ha b hb e
      rw [List.mem_singleton] at hb
      exact h (hb ▸ e ▸ ha)
  · intro kv hkv
    rcases mem_set hkv with rfl | h
    · exact ⟨hk, hv⟩
    · exact hp.2 kv h

theorem plain_setOption {p : Prefs} (hp : Plain (.map p)) {k : String} (hk : Json.PlainKey k) (x : Option String) :
    Plain (.map (setOption k x p)) := by
  cases x with
  | none => exact hp
  | some s => exact plain_set hp hk trivial

theorem plain_setStrings {p : Prefs} (hp : Plain (.map p)) {k : String} (hk : Json.PlainKey k) (xs : List String) :
    Plain (.map (setStrings k xs p)) := by
  unfold setStrings
  split
  · exact hp
  · refine plain_set hp hk ?_
    simp only [Plain, plainList_iff, List.mem_map]
    rintro x ⟨s, -, rfl⟩
    trivial

theorem plain_path (s : String) : Plain (.map (Prefs.new.setString "path" s)) :=
  plain_set (by simp [Plain, Prefs.new, PlainFields]) (by decide) trivial

end SavedCompiler

open SavedCompiler

/-- **C82, Solidity.** The settings of the Solidity compiler that are in force in a run are those in force when its saved
configuration is run, whatever settings the command line then gives. -/
theorem C82_solidity {R : Type} (P : Params R) (c : SolcSettings) (hc : ConfiguredSolc P.preferences c)
    (hn : P.preferences.getPrefs "compiler-details" = none)
    (hp : ∀ q, compilerPrefs .solidity P.preferences = some q → Pref.Plain (.map q))
    {file : String} (hf : Path.extension file = some "mgnx") (c' : SolcSettings) (v' : VyperSettings) :
    ∃ k, Config.newFromFile file (some (savedConfig defaultCompiler .solidity P).toJson) = .ok k ∧
      ConfiguredSolc (overridePrefs .solidity k.compilerDetails (settingsPreferences c' v')) c := by
  obtain ⟨q, hq, e1, e2, e3, e4, e5, e6⟩ := hc
  obtain ⟨k, d, h1, h2, h3⟩ := read_details .solidity P (details_of _ P hn hq) (hp q hq) hf
  have hnd : (q.map Prod.fst).Nodup := by have := hp q hq; simp only [Pref.Plain] at this; exact this.1
  refine ⟨k, h1, d, ?_, ?_, ?_, ?_, ?_, ?_, ?_⟩
  · rw [h2]
    exact compilerPrefs_override _ _ (Prefs.new.setPrefs "compiler" c'.toPreferences) _
      (by simp [settingsPreferences, Prefs.setPrefs, Prefs.getPrefs, Prefs.get?_set, Language.toStr])
  · rw [getString_of_canon h3 hnd]; exact e1
  · rw [getString_of_canon h3 hnd]; exact e2
  · exact getArray_of_canon h3 hnd _ e3
  · exact getArray_of_canon h3 hnd _ e4
  · exact getArray_of_canon h3 hnd _ e5
  · rw [getString_of_canon h3 hnd]; exact e6

/-- **C82, Vyper.** The same for the Vyper compiler. -/
theorem C82_vyper {R : Type} (P : Params R) (c : VyperSettings) (hc : ConfiguredVyper P.preferences c)
    (hn : P.preferences.getPrefs "compiler-details" = none)
    (hp : ∀ q, compilerPrefs .vyper P.preferences = some q → Pref.Plain (.map q))
    {file : String} (hf : Path.extension file = some "mgnx") (c' : SolcSettings) (v' : VyperSettings) :
    ∃ k, Config.newFromFile file (some (savedConfig defaultCompiler .vyper P).toJson) = .ok k ∧
      ConfiguredVyper (overridePrefs .vyper k.compilerDetails (settingsPreferences c' v')) c := by
  obtain ⟨q, hq, e1, e2⟩ := hc
  obtain ⟨k, d, h1, h2, h3⟩ := read_details .vyper P (details_of _ P hn hq) (hp q hq) hf
  have hnd : (q.map Prod.fst).Nodup := by have := hp q hq; simp only [Pref.Plain] at this; exact this.1
  refine ⟨k, h1, d, ?_, ?_, ?_⟩
  · rw [h2]
    exact compilerPrefs_override _ _ (Prefs.new.setPrefs "compiler" v'.toPreferences) _
      (by simp [settingsPreferences, Prefs.setPrefs, Prefs.getPrefs, Prefs.get?_set, Language.toStr])
  · rw [getString_of_canon h3 hnd]; exact e1
  · rw [getString_of_canon h3 hnd]; exact e2

/-- **C82, no settings.** If the preferences say nothing about the language, the compilers run without settings are the
ones found under their usual names; running the saved configuration then uses the same. -/
theorem C82_default {R : Type} (P : Params R) (hn : P.preferences.getPrefs "compiler-details" = none)
    {file : String} (hf : Path.extension file = some "mgnx") (c' : SolcSettings) (v' : VyperSettings) :
    (P.preferences.getPrefs "Solidity" = none →
      solidityCompiler P.preferences = "solc" ∧ solidityFlags P.preferences = [] ∧
      ∃ k, Config.newFromFile file (some (savedConfig defaultCompiler .solidity P).toJson) = .ok k ∧
        ConfiguredSolc (overridePrefs .solidity k.compilerDetails (settingsPreferences c' v')) { compiler := "solc" }) ∧
    (P.preferences.getPrefs "Vyper" = none →
      vyperCompiler P.preferences = "vyper" ∧ vyperFlags P.preferences = [] ∧
      ∃ k, Config.newFromFile file (some (savedConfig defaultCompiler .vyper P).toJson) = .ok k ∧
        ConfiguredVyper (overridePrefs .vyper k.compilerDetails (settingsPreferences c' v')) { compiler := "vyper" }) := by
  constructor
  · intro hl
    have hl : P.preferences.getPrefs Language.solidity.toStr = none := hl
    have hk : compilerPrefs .solidity P.preferences = none := by simp only [compilerPrefs, hl]
    refine ⟨by simp only [solidityCompiler, compilerPath, hk], by simp only [solidityFlags, hk], ?_⟩
    obtain ⟨k, d, h1, h2, h3⟩ := read_details .solidity P (details_default _ P hn hl)
      (by simp [defaultCompiler, Prefs.setString, Prefs.new, Prefs.set, Pref.Plain, Pref.PlainFields]; decide) hf
    have hnd : ((defaultCompiler .solidity).map Prod.fst).Nodup := by decide
    refine ⟨k, h1, d, ?_, ?_, ?_, ?_, ?_, ?_, ?_⟩
    · rw [h2]
      exact compilerPrefs_override _ _ (Prefs.new.setPrefs "compiler" c'.toPreferences) _
        (by simp [settingsPreferences, Prefs.setPrefs, Prefs.getPrefs, Prefs.get?_set, Language.toStr])
    · rw [getString_of_canon h3 hnd]; rfl
    · rw [getString_of_canon h3 hnd]; rfl
    · exact getArray_of_canon h3 hnd _ rfl
    · exact getArray_of_canon h3 hnd _ rfl
    · exact getArray_of_canon h3 hnd _ rfl
    · rw [getString_of_canon h3 hnd]; rfl
  · intro hl
    have hl : P.preferences.getPrefs Language.vyper.toStr = none := hl
    have hk : compilerPrefs .vyper P.preferences = none := by simp only [compilerPrefs, hl]
    refine ⟨by simp only [vyperCompiler, compilerPath, hk], by simp only [vyperFlags, hk], ?_⟩
    obtain ⟨k, d, h1, h2, h3⟩ := read_details .vyper P (details_default _ P hn hl)
      (by simp [defaultCompiler, Prefs.setString, Prefs.new, Prefs.set, Pref.Plain, Pref.PlainFields]; decide) hf
    have hnd : ((defaultCompiler .vyper).map Prod.fst).Nodup := by decide
    refine ⟨k, h1, d, ?_, ?_, ?_⟩
    · rw [h2]
      exact compilerPrefs_override _ _ (Prefs.new.setPrefs "compiler" v'.toPreferences) _
        (by simp [settingsPreferences, Prefs.setPrefs, Prefs.getPrefs, Prefs.get?_set, Language.toStr])
    · rw [getString_of_canon h3 hnd]; rfl
    · rw [getString_of_canon h3 hnd]; rfl

/-- Preferences made from settings of the command line meet the conditions of C82. -/
theorem C82_settings (c : SolcSettings) (v : VyperSettings) :
    (settingsPreferences c v).getPrefs "compiler-details" = none ∧
    (∀ q, compilerPrefs .solidity (settingsPreferences c v) = some q → Pref.Plain (.map q)) ∧
    (∀ q, compilerPrefs .vyper (settingsPreferences c v) = some q → Pref.Plain (.map q)) := by
  refine ⟨?_, ?_, ?_⟩
  · simp [settingsPreferences, Prefs.setPrefs, Prefs.getPrefs, Prefs.get?_set, Language.toStr, Prefs.new, Prefs.get?]
  · intro q hq
    have : q = c.toPreferences := by
      simpa [compilerPrefs, settingsPreferences, Prefs.setPrefs, Prefs.getPrefs, Prefs.get?_set, Language.toStr] using hq.symm
    subst this
    exact plain_setOption (plain_setStrings (plain_setStrings (plain_setStrings (plain_setOption (plain_path _) (by decide) _)
      (by decide) _) (by decide) _) (by decide) _) (by decide) _
  · intro q hq
    have : q = v.toPreferences := by
      simpa [compilerPrefs, settingsPreferences, Prefs.setPrefs, Prefs.getPrefs, Prefs.get?_set, Language.toStr] using hq.symm
    subst this
    exact plain_setOption (plain_path _) (by decide) _

/-- Example: a run with settings of every kind. -/
example (P : Params (List Nat)) (h : P.preferences = settingsPreferences C54_demo {}) :
    ∃ k, Config.newFromFile "a.mgnx" (some (savedConfig defaultCompiler .solidity P).toJson) = .ok k ∧
      ConfiguredSolc (overridePrefs .solidity k.compilerDetails (settingsPreferences {} {})) C54_demo :=
  C82_solidity P C54_demo (h ▸ (C54_settings _ _).1) (h ▸ (C82_settings _ _).1) (h ▸ (C82_settings _ _).2.1) (by decide +kernel) _ _

/-! ### C83: the compiler in a container -/

namespace SavedCompiler

theorem glue_concat : ∀ (cs : List (List Char)) (c : List Char), cs ≠ [] → Path.glue (cs ++ [c]) = c ++ '/' :: Path.glue cs
  | [], _, h => absurd rfl h
  | [d], c, _ => rfl
  | d :: e :: cs, c, _ => by
    have := glue_concat (e :: cs) c (by simp)
    simp only [List.cons_append] at this ⊢
    show Path.glue (e :: (cs ++ [c])) ++ '/' :: d = c ++ '/' :: (Path.glue (e :: cs) ++ '/' :: d)
    rw [this]; simp

/-- Gluing together what a path was split into. -/
theorem glue_splitSlash (l : List Char) : Path.glue (Json.splitSlash l).reverse = l := by
  induction l with
  | nil => rfl
  | cons c l ih =>
    simp only [Json.splitSlash]
    split
    · next h =>
      rw [List.reverse_cons, glue_concat _ _ (by simpa using Path.splitSlash_ne_nil l), ih, h]; rfl
    · cases hs : Json.splitSlash l with
      | nil => exact absurd hs (Path.splitSlash_ne_nil l)
      | cons t ts =>
        rw [hs] at ih
        simp only [List.reverse_cons] at ih ⊢
        cases hr : ts.reverse with
        | nil => rw [hr] at ih; simp only [List.nil_append, Path.glue] at ih ⊢; rw [ih]
        | cons d ds =>
          rw [hr] at ih
          rw [glue_concat _ _ (by simp)] at ih ⊢
          rw [← ih]; rfl

end SavedCompiler

/-- A directory that is written with a name at its end, like `/tmp` or `/home/me/src`. -/
def NamedDirectory (dir : String) : Prop := ∃ l c, dir.toList = l ++ '/' :: c ∧ c ≠ [] ∧ c ≠ ['.'] ∧ '/' ∉ c

/-- The name of a file in a directory. -/
def NameOfFile (base : String) : Prop := base ≠ "" ∧ base ≠ "." ∧ '/' ∉ base.toList

namespace SavedCompiler

theorem parent_eq {dir base : String} (hd : NamedDirectory dir) (hb : NameOfFile base) :
    Path.parent (dir ++ "/" ++ base) = dir := by
  obtain ⟨l, c, e, h1, h2, h3⟩ := hd
  obtain ⟨b1, b2, b3⟩ := hb
  have b1 : base.toList ≠ [] := fun h => b1 (String.toList_inj.1 (h.trans rfl))
  have b2 : base.toList ≠ ['.'] := fun h => b2 (String.toList_inj.1 (h.trans rfl))
  have es : (dir ++ "/" ++ base).toList = dir.toList ++ '/' :: base.toList := by simp
  have s1 : Json.splitSlash (dir ++ "/" ++ base).toList = Json.splitSlash dir.toList ++ [base.toList] := by
    rw [es, Path.splitSlash_append _ _ (fun x hx e => b3 (e ▸ hx))]
  have s2 : Json.splitSlash dir.toList = Json.splitSlash l ++ [c] := by
    rw [e, Path.splitSlash_append _ _ (fun x hx e => h3 (e ▸ hx))]
  have t1 : Path.trim (Json.splitSlash (dir ++ "/" ++ base).toList).reverse =
      base.toList :: (Json.splitSlash dir.toList).reverse := by
    rw [s1, List.reverse_append, List.reverse_singleton, List.singleton_append, Path.trim, if_neg]
    rintro (h | h)
    · exact b1 h
    · exact b2 h.1
  have t2 : Path.trim (Json.splitSlash dir.toList).reverse = (Json.splitSlash dir.toList).reverse := by
    rw [s2, List.reverse_append, List.reverse_singleton, List.singleton_append, Path.trim, if_neg]
    rintro (h | h)
    · exact h1 h
    · exact h2 h.1
  have t3 : (Json.splitSlash dir.toList).reverse ≠ [] := by simpa using Path.splitSlash_ne_nil dir.toList
  simp only [Path.parent, t1, List.tail_cons, t2, t3, false_and, if_false, glue_splitSlash, String.ofList_toList]

theorem read_mount (dir image : String) (args : List String) (h : ':' ∉ dir.toList) :
    readDocker ("run" :: "-v" :: (dir ++ ":/code") :: image :: args) = some ⟨dir, "/code", image, args⟩ := by
  have e : (dir ++ ":/code").toList = dir.toList ++ ':' :: ['/', 'c', 'o', 'd', 'e'] := by simp
  have e0 : dir.toList.count ':' = 0 := List.count_eq_zero.2 h
  have hp : ∀ x ∈ dir.toList, decide (x ≠ ':') = true := fun x hx => decide_eq_true (fun e => h (e ▸ hx))
  simp only [readDocker, e]
  rw [if_pos (by simp [List.count_append, e0])]
  rw [List.takeWhile_append_of_pos hp, List.dropWhile_append_of_pos hp]
  simp

end SavedCompiler

open SavedCompiler

/-- **C83, partial.** When the Vyper compiler is run in a container, the directory of the file is mounted there as `/code`,
and the command line of the compiler is read as the settings say.  Missing: that the compiler finds the file under the
path given to it, which is only so for files in the directory `/code`. -/
theorem C83_call_partial {p : Prefs} {c : VyperSettings} (hp : ConfiguredVyper p c)
    (hr : ∀ r, c.rootPath = some r → ¬ IsDashed r) {dir base out : String} (hd : NamedDirectory dir) (hb : NameOfFile base)
    (hcol : ':' ∉ dir.toList) (hf : ¬ IsDashed dir) (ho : ¬ IsDashed out) :
    (∃ call, readDocker (dockerTryArgs p (dir ++ "/" ++ base)) = some call ∧
      call.host = dir ∧ call.guest = "/code" ∧ call.image = "vyperlang/vyper" ∧
      readVyper call.args = some { root := c.rootPath, inputs := [dir ++ "/" ++ base] } ∧
      (dir = "/code" → call.finds (dir ++ "/" ++ base) = some (dir ++ "/" ++ base))) ∧
    ∃ call, readDocker (dockerAstArgs out p (dir ++ "/" ++ base)) = some call ∧
      call.host = dir ∧ call.guest = "/code" ∧ call.image = "vyperlang/vyper" ∧
      readVyper call.args = some { root := c.rootPath, format := some "ast", out := some out, inputs := [dir ++ "/" ++ base] } ∧
      (dir = "/code" → call.finds (dir ++ "/" ++ base) = some (dir ++ "/" ++ base)) := by
  have hfile : ¬ IsDashed (dir ++ "/" ++ base) := by
    obtain ⟨l, x, e, -⟩ := hd
    unfold IsDashed at hf ⊢
    rw [e] at hf
    rw [String.toList_append, String.toList_append, e]
    cases l <;> simpa using hf
  have hfind : ∀ args, dir = "/code" →
      (DockerCall.mk dir "/code" "vyperlang/vyper" args).finds (dir ++ "/" ++ base) = some (dir ++ "/" ++ base) := by
    rintro args rfl
    simp only [DockerCall.finds]
    rw [if_pos (by rw [List.isPrefixOf_iff_prefix]; exact ⟨base.toList, by simp⟩)]
    refine congrArg some (String.toList_inj.1 ?_)
    simp
  obtain ⟨k, hk, e1, e2⟩ := hp
  have hdash : ∀ a ∈ ["-p", "-f", "-o"], IsDashed a := by decide
  have ha : ¬ IsDashed "ast" := by decide
  have hm : dir ++ "/" ++ base ∉ ["-p", "-f", "-o"] := fun h => hfile (hdash _ h)
  constructor
  · refine ⟨⟨dir, "/code", "vyperlang/vyper", vyperFlags p ++ [dir ++ "/" ++ base]⟩, ?_, rfl, rfl, rfl, ?_, hfind _⟩
    · unfold dockerTryArgs
      rw [parent_eq hd hb]
      exact read_mount dir _ _ hcol
    · generalize dir ++ "/" ++ base = file at *
      simp only [vyperFlags, hk, e2]
      cases hc : c.rootPath with
      | none => simp_all [readVyper, VyperCall.option]
      | some r => have := hr r hc; simp_all [readVyper, VyperCall.option]
  · refine ⟨⟨dir, "/code", "vyperlang/vyper", ["-f", "ast"] ++ vyperFlags p ++ [dir ++ "/" ++ base, "-o", out]⟩, ?_, rfl, rfl, rfl, ?_,
      hfind _⟩
    · unfold dockerAstArgs
      rw [parent_eq hd hb]
      exact read_mount dir _ _ hcol
    · generalize dir ++ "/" ++ base = file at *
      simp only [vyperFlags, hk, e2]
      cases hc : c.rootPath with
      | none => simp_all [readVyper, VyperCall.option]
      | some r => have := hr r hc; simp_all [readVyper, VyperCall.option]

/-- **C83 (root).** Of a file in the root directory, the root directory is mounted. -/
theorem C83_root (p : Prefs) {base out : String} (hb : NameOfFile base) :
    (∃ args, readDocker (dockerTryArgs p ("/" ++ base)) = some ⟨"/", "/code", "vyperlang/vyper", args⟩) ∧
    ∃ args, readDocker (dockerAstArgs out p ("/" ++ base)) = some ⟨"/", "/code", "vyperlang/vyper", args⟩ := by
  have hp : Path.parent ("/" ++ base) = "/" := by
    obtain ⟨b1, b2, b3⟩ := hb
    have b1 : base.toList ≠ [] := fun h => b1 (String.toList_inj.1 (h.trans rfl))
    have b2 : base.toList ≠ ['.'] := fun h => b2 (String.toList_inj.1 (h.trans rfl))
    have es : ("/" ++ base).toList = [] ++ '/' :: base.toList := by simp
    have s1 : Json.splitSlash ("/" ++ base).toList = [[], base.toList] := by
      rw [es, Path.splitSlash_append _ _ (fun x hx e => b3 (e ▸ hx))]; rfl
    have t1 : Path.trim (Json.splitSlash ("/" ++ base).toList).reverse = [base.toList, []] := by
      rw [s1]
      show Path.trim [base.toList, []] = _
      rw [Path.trim, if_neg]
      rintro (h | h)
      · exact b1 h
      · exact b2 h.1
    have t2 : Path.trim [[]] = [] := by decide
    have t3 : ("/" ++ base).toList.head? = some '/' := by rw [es]; rfl
    simp only [Path.parent, t1, List.tail_cons, t2, t3, and_self, if_true]
  unfold dockerTryArgs dockerAstArgs
  rw [hp]
  exact ⟨⟨_, read_mount "/" _ _ (by decide)⟩, ⟨_, read_mount "/" _ _ (by decide)⟩⟩

example : NameOfFile "a.vy" := ⟨by decide, by decide, by decide⟩

/-- **C83 counterexample.** Of a file in any directory outside `/code`, the compiler in the container does not find the
file: nothing is there under the path given to it. -/
theorem C83_counterexample (p : Prefs) {dir base out : String} (hd : NamedDirectory dir) (hb : NameOfFile base)
    (hcol : ':' ∉ dir.toList) (hout : ¬ "/code".toList <+: dir.toList) :
    (∃ call, readDocker (dockerTryArgs p (dir ++ "/" ++ base)) = some call ∧ call.finds (dir ++ "/" ++ base) = none) ∧
    ∃ call, readDocker (dockerAstArgs out p (dir ++ "/" ++ base)) = some call ∧ call.finds (dir ++ "/" ++ base) = none := by
  have hfind : ∀ args, (DockerCall.mk dir "/code" "vyperlang/vyper" args).finds (dir ++ "/" ++ base) = none := by
    intro args
    simp only [DockerCall.finds]
    rw [if_neg]
    rw [List.isPrefixOf_iff_prefix]
    intro h
    have h1 : (dir ++ "/" ++ base).toList = dir.toList ++ '/' :: base.toList := by simp
    rw [h1] at h
    by_cases hl : 5 ≤ dir.toList.length
    · exact hout (List.prefix_of_prefix_length_le ((List.prefix_append _ _).trans h) (List.prefix_append _ _) hl)
    · have h2 : dir.toList ++ ['/'] <+: "/code".toList ++ ['/'] :=
        List.prefix_of_prefix_length_le ⟨base.toList, by simp⟩ h (by simp; omega)
      obtain ⟨l, x, e, -⟩ := hd
      obtain ⟨t, ht⟩ := h2
      rw [e] at ht hl
      match l, ht with
      | [], ht => match x, ht with
        | [], ht => simp at ht
        | [_], ht => simp at ht
        | [_, _], ht => simp at ht
        | [_, _, _], ht => simp at ht
        | _ :: _ :: _ :: _ :: _, _ => exact hl (by simp only [List.length_append, List.length_cons]; omega)
      | [_], ht => simp at ht
      | [_, _], ht => simp at ht
      | [_, _, _], ht => simp at ht
      | _ :: _ :: _ :: _ :: _, _ => exact hl (by simp only [List.length_append, List.length_cons]; omega)
  exact ⟨⟨_, by unfold dockerTryArgs; rw [parent_eq hd hb]; exact read_mount dir _ _ hcol, hfind _⟩,
    ⟨_, by unfold dockerAstArgs; rw [parent_eq hd hb]; exact read_mount dir _ _ hcol, hfind _⟩⟩

/-- Example: a mutant in the directory for temporary files. -/
example : NamedDirectory "/tmp" ∧ NameOfFile "a.vy" ∧ ':' ∉ "/tmp".toList ∧ ¬ "/code".toList <+: "/tmp".toList :=
  ⟨⟨[], ['t', 'm', 'p'], by decide, by decide, by decide, by decide⟩, ⟨by decide, by decide, by decide⟩, by decide, by decide⟩

example : (readDocker (dockerTryArgs (settingsPreferences {} { rootPath := some "/src" }) "/tmp/a.vy")).map
    (fun c => (c, c.finds "/tmp/a.vy", c.finds "/code/a.vy")) =
    some (⟨"/tmp", "/code", "vyperlang/vyper", ["-p", "/src", "/tmp/a.vy"]⟩, none, some "/tmp/a.vy") := by decide +kernel

end Mutagenyx
