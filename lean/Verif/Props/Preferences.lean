import Verif.Proofs.Prefs

/-!
# C51: preferences
-/

namespace Mutagenyx
open MutationType

/-- **C51**: reading a key after setting it gives the value set, other keys are unaffected. -/
theorem C51_get_after_set (p : Prefs) (k k' : String) (v : Pref) :
    (p.set k v).get? k = some v ∧ (k' ≠ k → (p.set k v).get? k' = p.get? k') :=
  ⟨by simp [Prefs.get?_set], fun h => by simp [Prefs.get?_set, Ne.symm h]⟩

/-- **C51**: the typed setters and getters agree, and a getter of one type never returns a value stored
with another. -/
theorem C51_typed (p : Prefs) (k : String) :
    (∀ i, (p.setInt k i).getInt k = some i) ∧ (∀ f, (p.setFloat k f).getFloat k = some f) ∧
    (∀ s, (p.setString k s).getString k = some s) ∧ (∀ b, (p.setBool k b).getBool k = some b) ∧
    (∀ m, (p.setPrefs k m).getPrefs k = some m) ∧ (∀ a, (p.setArray k a).getArray k = some a) ∧
    (∀ i, (p.setInt k i).getFloat k = none ∧ (p.setInt k i).getString k = none ∧
      (p.setInt k i).getBool k = none ∧ (p.setInt k i).getPrefs k = none ∧ (p.setInt k i).getArray k = none) ∧
    (∀ s, (p.setString k s).getInt k = none ∧ (p.setString k s).getFloat k = none ∧
      (p.setString k s).getBool k = none ∧ (p.setString k s).getPrefs k = none ∧
      (p.setString k s).getArray k = none) := by
  refine ⟨?_, ?_, ?_, ?_, ?_, ?_, ?_, ?_⟩ <;>
    simp [Prefs.getInt, Prefs.getFloat, Prefs.getString, Prefs.getBool, Prefs.getPrefs, Prefs.getArray,
      Prefs.setInt, Prefs.setFloat, Prefs.setString, Prefs.setBool, Prefs.setPrefs, Prefs.setArray,
      Prefs.get?_set]

/-- **C51**: a key is present exactly after it was set, and setting a present key does not add an entry. -/
theorem C51_contains (p : Prefs) (k k' : String) (v : Pref) :
    ((p.set k v).containsKey k' = (decide (k = k') || p.containsKey k')) ∧
    ((p.set k v).len = if p.containsKey k then p.len else p.len + 1) := by
  constructor
  · unfold Prefs.containsKey
    rw [Prefs.get?_set]
    by_cases h : k = k' <;> simp [h]
  · unfold Prefs.containsKey Prefs.len
    induction p with
    | nil => simp [Prefs.set, Prefs.get?]
    | cons e p ih =>
      obtain ⟨l, w⟩ := e
      simp only [Prefs.set, Prefs.get?]
      by_cases h : l = k
      · simp [h]
      · simp only [h, if_false, List.length_cons, ih]
        split <;> rfl

/-- **C51, first round trip.** A JSON object read as preferences and written again is the same object,
whatever order the preference maps were iterated in.  Missing from the full statement: keys with `/` or
`~`, and integers above `i64::MAX` (see the counterexamples). -/
theorem C51_json_round_trip_partial (j : Json) (hw : Json.WF j) (hp : Json.PlainJson j) (p : Prefs)
    (h : Prefs.ofJson j = .ok p) : Prefs.toJson p = j := by
  cases j with
  | obj kvs =>
    simp only [Prefs.ofJson, Outcome.ok.injEq] at h
    subst h
    have := Pref.toJson_ofJson (.obj kvs) hw hp
    simpa only [Pref.ofJson, Pref.toJson, Prefs.toJson] using this
  | _ => simp [Prefs.ofJson] at h

/-- **C51**: the JSON written does not depend on the iteration order of the (nested) maps. -/
theorem C51_order_irrelevant_partial (p q : Prefs) (hp : Pref.Plain (.map p)) (hq : Pref.Plain (.map q))
    (h : Pref.canon (.map p) = Pref.canon (.map q)) : Prefs.toJson p = Prefs.toJson q := by
  have key : ∀ p : Pref, Pref.Plain p → Pref.toJson p = Pref.toJson (Pref.canon p) := by
    intro p
    refine Pref.inductP (P := fun p => Pref.Plain p → Pref.toJson p = Pref.toJson (Pref.canon p))
      ?_ ?_ ?_ ?_ ?_ ?_ ?_ p
    · intro _ _; rfl
    · intro _ _; rfl
    · intro _ _; rfl
    · intro _ _; rfl
    · intro _; rfl
    · intro kvs ih h
      simp only [Pref.Plain] at h
      rw [Pref.plainFields_iff] at h
      simp only [Pref.canon, Pref.toJson]
      have hn : ((Pref.canonFields kvs).map Prod.fst).Nodup := by
        rw [Pref.canonFields_eq, List.map_map]; exact h.1
      have hperm := sortBy_perm Prod.fst (Pref.canonFields kvs)
      rw [Pref.toJson_map kvs h.1 (fun kv hkv => (h.2 kv hkv).1)]
      rw [Pref.toJson_map _ ((hperm.symm.map Prod.fst).nodup hn)]
      · congr 1
        rw [Pref.sortBy_map, Pref.canonFields_eq, List.map_map]
        have : kvs.map ((fun kv : String × Pref => (kv.1, Pref.toJson kv.2)) ∘ fun kv => (kv.1, kv.2.canon)) =
            kvs.map (fun kv => (kv.1, Pref.toJson kv.2)) := by
          apply List.map_congr_left
          intro kv hkv
          simp [Function.comp, ← ih kv hkv (h.2 kv hkv).2]
        rw [this]
        have hn' : ((kvs.map (fun kv : String × Pref => (kv.1, Pref.toJson kv.2))).map Prod.fst).Nodup := by
          rw [List.map_map]; exact h.1
        exact (Pref.sortBy_of_sorted _ (Pref.sortBy_sorted_keys _ hn')).symm
      · intro kv hkv
        have := hperm.mem_iff.1 hkv
        rw [Pref.canonFields_eq] at this
        obtain ⟨kv', h', rfl⟩ := List.mem_map.1 this
        exact (h.2 kv' h').1
    · intro xs ih h
      simp only [Pref.Plain, Pref.plainList_iff] at h
      simp only [Pref.canon, Pref.toJson, Pref.canonList_eq, Pref.toJsonList_eq, List.map_map]
      congr 1
      apply List.map_congr_left
      intro x hx
      exact ih x hx (h x hx)
  have h1 := key _ hp
  have h2 := key _ hq
  rw [h] at h1
  have := h1.trans h2.symm
  simpa only [Pref.toJson, Prefs.toJson] using this

/-- **C51, second round trip.** Preferences written as JSON and read back are the same preferences (up to
the order of map entries, which is not observable). -/
theorem C51_prefs_round_trip_partial (p : Prefs) (hp : Pref.Plain (.map p)) :
    ∃ q, Prefs.ofJson (Prefs.toJson p) = .ok q ∧ Pref.canon (.map q) = Pref.canon (.map p) := by
  have h := Pref.ofJson_toJson (.map p) hp
  simp only [Pref.toJson, Pref.canon] at h
  simp only [Pref.Plain] at hp
  rw [Pref.plainFields_iff] at hp
  have ht := Pref.toJson_map p hp.1 (fun kv hkv => (hp.2 kv hkv).1)
  unfold Prefs.toJson
  rw [ht] at h ⊢
  simp only [Pref.ofJson, Pref.map.injEq] at h
  refine ⟨_, rfl, ?_⟩
  rw [h]
  -- canonical forms are fixed by `canon`
  have idem : ∀ p : Pref, Pref.Plain p → Pref.canon (Pref.canon p) = Pref.canon p := by
    intro p
    refine Pref.inductP (P := fun p => Pref.Plain p → Pref.canon (Pref.canon p) = Pref.canon p)
      ?_ ?_ ?_ ?_ ?_ ?_ ?_ p
    · intro _ _; rfl
    · intro _ _; rfl
    · intro _ _; rfl
    · intro _ _; rfl
    · intro _; rfl
    · intro kvs ih h
      simp only [Pref.Plain] at h
      rw [Pref.plainFields_iff] at h
      simp only [Pref.canon, Pref.canonFields_eq]
      rw [Pref.sortBy_map, List.map_map]
      have : kvs.map ((fun kv : String × Pref => (kv.1, kv.2.canon)) ∘ fun kv => (kv.1, kv.2.canon)) =
          kvs.map (fun kv => (kv.1, kv.2.canon)) := by
        apply List.map_congr_left
        intro kv hkv
        simp [Function.comp, ih kv hkv (h.2 kv hkv).2]
      rw [this, Pref.sortBy_of_sorted]
      apply Pref.sortBy_sorted_keys
      rw [List.map_map]; exact h.1
    · intro xs ih h
      simp only [Pref.Plain, Pref.plainList_iff] at h
      simp only [Pref.canon, Pref.canonList_eq, List.map_map]
      congr 1
      apply List.map_congr_left
      intro x hx
      exact ih x hx (h x hx)
  have := idem (.map p) (by simp only [Pref.Plain]; rw [Pref.plainFields_iff]; exact hp)
  simpa only [Pref.canon] using this

/-- **C51 fails for keys with a slash**: such a key is read as a path, and since no such path exists the
entry is lost or lands elsewhere. -/
theorem C51_slash_counterexample :
    let p : Prefs := [("a", .map [("b", .int 1)]), ("a/b", .int 2)]
    Prefs.toJson p = .obj [("a", .obj [("b", .num (.int 2))])] := by
  decide

/-- **C51 fails for large integers**: an integer above `i64::MAX` is read as a float. -/
theorem C51_u64_counterexample :
    Prefs.ofJson (.obj [("n", .num (.int (2 ^ 63)))]) = .ok [("n", .flt (u64AsF64 (2 ^ 63)))] := by
  rfl

/-- The hypotheses of the round trips hold for preferences as the tool builds them, in any order. -/
example : Pref.Plain (.map [("Vyper", .map [("compiler", .map [("path", .str "vyper")])]),
    ("Solidity", .map [("compiler", .map [("path", .str "solc"), ("include paths", .arr [.str "a/b"])])])]) := by
  simp only [Pref.Plain, Pref.PlainFields, Pref.PlainList]
  decide

example : Prefs.toJson [("b", .int 1), ("a", .arr [.null, .map [("y", .bool true), ("x", .str "/")]])] =
    .obj [("a", .arr [.null, .obj [("x", .str "/"), ("y", .bool true)]]), ("b", .num (.int 1))] := by
  decide

end Mutagenyx
