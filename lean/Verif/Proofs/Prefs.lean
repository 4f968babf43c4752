import Verif.Spec.PrefSpec
import Verif.Proofs.Json
import Verif.Proofs.Sort

/-! Helper lemmas about preferences. -/

namespace Mutagenyx
open MutationType

theorem Prefs.get?_set (k k' : String) (v : Pref) (p : Prefs) :
    (p.set k v).get? k' = if k = k' then some v else p.get? k' := by
  induction p with
  | nil => simp [Prefs.set, Prefs.get?]
  | cons e p ih =>
    obtain ⟨l, w⟩ := e
    simp only [Prefs.set]
    by_cases hl : l = k
    · subst hl
      simp only [if_true, Prefs.get?]
      by_cases h : l = k' <;> simp [h]
    · simp only [hl, if_false, Prefs.get?, ih]
      by_cases h : l = k'
      · have : ¬ k = k' := fun e => hl (h.trans e.symm)
        simp [h, this]
      · simp [h]

namespace Pref

theorem insertBy_sorted_keys {β : Type} (a : String × β) (l : List (String × β))
    (h : l.Pairwise (fun x y => x.1 < y.1)) (hnot : a.1 ∉ l.map Prod.fst) :
    (insertBy Prod.fst a l).Pairwise (fun x y => x.1 < y.1) := by
  induction l with
  | nil => simp [insertBy]
  | cons b bs ih =>
    obtain ⟨h1, h2⟩ := List.pairwise_cons.1 h
    simp only [List.map_cons, List.mem_cons, not_or] at hnot
    simp only [insertBy]
    split
    · rename_i hlt
      refine List.pairwise_cons.2 ⟨?_, ih h2 hnot.2⟩
      intro c hc
      rcases List.mem_cons.1 ((insertBy_perm Prod.fst a bs).mem_iff.1 hc) with rfl | hc
      · exact hlt
      · exact h1 c hc
    · rename_i hlt
      have : a.1 < b.1 := by
        rcases Std.lt_trichotomy a.1 b.1 with h' | h' | h'
        · exact h'
        · exact absurd h' hnot.1
        · exact absurd h' hlt
      refine List.pairwise_cons.2 ⟨?_, h⟩
      intro c hc
      rcases List.mem_cons.1 hc with rfl | hc
      · exact this
      · exact String.lt_trans this (h1 c hc)

theorem sortBy_sorted_keys {β : Type} (l : List (String × β)) (h : (l.map Prod.fst).Nodup) :
    (sortBy Prod.fst l).Pairwise (fun x y => x.1 < y.1) := by
  induction l with
  | nil => simp [sortBy]
  | cons a as ih =>
    simp only [List.map_cons, List.nodup_cons] at h
    apply insertBy_sorted_keys a _ (ih h.2)
    intro hm
    apply h.1
    rw [List.mem_map] at hm ⊢
    obtain ⟨b, hb, he⟩ := hm
    exact ⟨b, (sortBy_perm Prod.fst as).mem_iff.1 hb, he⟩

theorem sortBy_of_sorted {β : Type} (l : List (String × β)) (h : l.Pairwise (fun x y => x.1 < y.1)) :
    sortBy Prod.fst l = l := by
  have hn : (l.map Prod.fst).Nodup := by
    rw [List.nodup_iff_pairwise_ne, List.pairwise_map]
    exact h.imp (fun hlt e => by rw [e] at hlt; exact String.lt_irrefl _ hlt)
  exact sorted_unique Prod.fst (fun x => String.lt_irrefl x) (fun _ _ _ => String.lt_trans) _ _
    (sortBy_sorted_keys l hn) h (fun a => (sortBy_perm Prod.fst l).mem_iff)

theorem sortBy_keys_perm {β : Type} {l₁ l₂ : List (String × β)} (h : (l₁.map Prod.fst).Nodup)
    (hp : l₁.Perm l₂) : sortBy Prod.fst l₁ = sortBy Prod.fst l₂ :=
  sorted_unique Prod.fst (fun x => String.lt_irrefl x) (fun _ _ _ => String.lt_trans) _ _
    (sortBy_sorted_keys l₁ h) (sortBy_sorted_keys l₂ ((hp.map Prod.fst).nodup h))
    (fun a => ((sortBy_perm _ l₁).mem_iff).trans (hp.mem_iff.trans (sortBy_perm _ l₂).mem_iff.symm))

/-- Inserting a new key is sorted insertion. -/
theorem objInsert_eq_insertBy (k : String) (v : Json) (l : List (String × Json))
    (hnot : k ∉ l.map Prod.fst) : Json.objInsert k v l = insertBy Prod.fst (k, v) l := by
  induction l with
  | nil => rfl
  | cons b bs ih =>
    obtain ⟨l, w⟩ := b
    simp only [List.map_cons, List.mem_cons, not_or] at hnot
    have h1 : ¬ l = k := fun e => hnot.1 e.symm
    simp only [Json.objInsert, insertBy, h1, if_false]
    rcases Std.lt_trichotomy k l with h | h | h
    · have : ¬ l < k := fun h' => String.lt_irrefl _ (String.lt_trans h h')
      simp [h, this]
    · exact absurd h hnot.1
    · have : ¬ k < l := fun h' => String.lt_irrefl _ (String.lt_trans h h')
      simp [h, this, ih hnot.2]

/-- Setting keys one after the other on an object gives the sorted object. -/
def jsonFields : List (String × Pref) → List (String × Json)
  | [] => []
  | (k, x) :: xs => (k, toJson x) :: jsonFields xs

theorem jsonFields_eq (kvs : List (String × Pref)) : jsonFields kvs = kvs.map (fun kv => (kv.1, toJson kv.2)) := by
  induction kvs with
  | nil => rfl
  | cons e kvs ih => obtain ⟨k, x⟩ := e; simp [jsonFields, ih]

theorem plainFields_iff (kvs : List (String × Pref)) :
    PlainFields kvs ↔ ∀ kv ∈ kvs, Json.PlainKey kv.1 ∧ Plain kv.2 := by
  induction kvs with
  | nil => simp [PlainFields]
  | cons e kvs ih => obtain ⟨k, x⟩ := e; simp [PlainFields, ih, and_assoc]

theorem plainList_iff (xs : List Pref) : PlainList xs ↔ ∀ x ∈ xs, Plain x := by
  induction xs with
  | nil => simp [PlainList]
  | cons e kvs ih => simp [PlainList, ih]

theorem canonFields_eq (kvs : List (String × Pref)) : canonFields kvs = kvs.map (fun kv => (kv.1, canon kv.2)) := by
  induction kvs with
  | nil => rfl
  | cons e kvs ih => obtain ⟨k, x⟩ := e; simp [canonFields, ih]

theorem canonList_eq (xs : List Pref) : canonList xs = xs.map canon := by
  induction xs with
  | nil => rfl
  | cons e kvs ih => simp [canonList, ih]

theorem toJsonList_eq (xs : List Pref) : toJsonList xs = xs.map toJson := by
  induction xs with
  | nil => rfl
  | cons e kvs ih => simp [toJsonList, ih]

theorem ofJsonList_eq (xs : List Json) : ofJsonList xs = xs.map ofJson := by
  induction xs with
  | nil => rfl
  | cons e kvs ih => simp [ofJsonList, ih]

theorem ofJsonFields_eq (kvs : List (String × Json)) : ofJsonFields kvs = kvs.map (fun kv => (kv.1, ofJson kv.2)) := by
  induction kvs with
  | nil => rfl
  | cons e kvs ih => obtain ⟨k, x⟩ := e; simp [ofJsonFields, ih]

theorem toJsonFields_eq (kvs : List (String × Pref)) : ∀ (acc : List (String × Json)),
    Json.SortedKeys acc → (kvs.map Prod.fst).Nodup → (∀ kv ∈ kvs, kv.1 ∉ acc.map Prod.fst) →
    (∀ kv ∈ kvs, Json.PlainKey kv.1) →
    ∃ l, toJsonFields kvs (.obj acc) = .obj l ∧ Json.SortedKeys l ∧ l.Perm (jsonFields kvs ++ acc) := by
  induction kvs with
  | nil => intro acc hs _ _ _; exact ⟨acc, rfl, hs, by simp [jsonFields]⟩
  | cons e kvs ih =>
    obtain ⟨k, x⟩ := e
    intro acc hs hn hnot hp
    simp only [List.map_cons, List.nodup_cons] at hn
    have hk : Json.PlainKey k := hp (k, x) (by simp)
    have hka : k ∉ acc.map Prod.fst := hnot (k, x) (by simp)
    have hins := objInsert_eq_insertBy k (toJson x) acc hka
    have hperm : (Json.objInsert k (toJson x) acc).Perm ((k, toJson x) :: acc) := by
      rw [hins]; exact insertBy_perm _ _ _
    obtain ⟨l, h1, h2, h3⟩ := ih (Json.objInsert k (toJson x) acc)
      (Json.sortedKeys_objInsert k (toJson x) acc hs) hn.2
      (by
        intro kv hkv hm
        have : kv.1 ∈ ((k, toJson x) :: acc).map Prod.fst := (hperm.map Prod.fst).mem_iff.1 hm
        rcases List.mem_cons.1 this with h | h
        · apply hn.1
          simp only at h
          rw [← h]
          exact List.mem_map.2 ⟨kv, hkv, rfl⟩
        · exact hnot kv (by simp [hkv]) h)
      (fun kv hkv => hp kv (by simp [hkv]))
    refine ⟨l, ?_, h2, ?_⟩
    · simp only [toJsonFields]
      rw [Json.setNodeForKey_obj hk _ hs]
      exact h1
    · simp only [jsonFields]
      refine h3.trans ?_
      refine ((List.Perm.refl _).append hperm).trans ?_
      exact List.perm_middle

theorem toJson_map (kvs : List (String × Pref)) (hn : (kvs.map Prod.fst).Nodup)
    (hp : ∀ kv ∈ kvs, Json.PlainKey kv.1) :
    toJsonFields kvs (.obj []) = .obj (sortBy Prod.fst (kvs.map (fun kv => (kv.1, toJson kv.2)))) := by
  obtain ⟨l, h1, h2, h3⟩ := toJsonFields_eq kvs [] (by simp [Json.SortedKeys]) hn (by simp) hp
  rw [h1]
  congr 1
  have hl : l.Pairwise (fun x y => x.1 < y.1) := by
    simpa [Json.SortedKeys, List.pairwise_map] using h2
  rw [List.append_nil, jsonFields_eq] at h3
  have hn' : ((kvs.map (fun kv => (kv.1, toJson kv.2))).map Prod.fst).Nodup := by
    rw [List.map_map]; exact hn
  rw [← sortBy_keys_perm ((h3.symm.map Prod.fst).nodup hn') h3]
  exact (sortBy_of_sorted l hl).symm

/-- Sorting commutes with changing the values. -/
theorem insertBy_map {β γ : Type} (f : β → γ) (a : String × β) (l : List (String × β)) :
    (insertBy Prod.fst a l).map (fun kv => (kv.1, f kv.2)) =
      insertBy Prod.fst (a.1, f a.2) (l.map (fun kv => (kv.1, f kv.2))) := by
  induction l with
  | nil => rfl
  | cons b bs ih =>
    simp only [insertBy, List.map_cons]
    by_cases h : b.1 < a.1
    · rw [if_pos h, if_pos h, List.map_cons, ih]
    · rw [if_neg h, if_neg h, List.map_cons, List.map_cons]

theorem sortBy_map {β γ : Type} (f : β → γ) (l : List (String × β)) :
    (sortBy Prod.fst l).map (fun kv => (kv.1, f kv.2)) =
      sortBy Prod.fst (l.map (fun kv => (kv.1, f kv.2))) := by
  induction l with
  | nil => rfl
  | cons a as ih => simp only [sortBy, insertBy_map, ih, List.map_cons]

mutual
theorem inductP {P : Pref → Prop} (hi : ∀ i, P (.int i)) (hf : ∀ r, P (.flt r)) (hs : ∀ s, P (.str s))
    (hb : ∀ b, P (.bool b)) (hn : P .null) (hm : ∀ kvs, (∀ kv ∈ kvs, P kv.2) → P (.map kvs))
    (ha : ∀ xs, (∀ x ∈ xs, P x) → P (.arr xs)) : ∀ p, P p
  | .int i => hi i
  | .flt r => hf r
  | .str s => hs s
  | .bool b => hb b
  | .null => hn
  | .map kvs => hm kvs (inductPFields hi hf hs hb hn hm ha kvs)
  | .arr xs => ha xs (inductPList hi hf hs hb hn hm ha xs)
theorem inductPList {P : Pref → Prop} (hi : ∀ i, P (.int i)) (hf : ∀ r, P (.flt r)) (hs : ∀ s, P (.str s))
    (hb : ∀ b, P (.bool b)) (hn : P .null) (hm : ∀ kvs, (∀ kv ∈ kvs, P kv.2) → P (.map kvs))
    (ha : ∀ xs, (∀ x ∈ xs, P x) → P (.arr xs)) : ∀ xs : List Pref, ∀ x ∈ xs, P x
  | [], x, hx => by cases hx
  | y :: ys, x, hx => by
      rcases List.mem_cons.1 hx with e | hx
      · exact e ▸ inductP hi hf hs hb hn hm ha y
      · exact inductPList hi hf hs hb hn hm ha ys x hx
theorem inductPFields {P : Pref → Prop} (hi : ∀ i, P (.int i)) (hf : ∀ r, P (.flt r)) (hs : ∀ s, P (.str s))
    (hb : ∀ b, P (.bool b)) (hn : P .null) (hm : ∀ kvs, (∀ kv ∈ kvs, P kv.2) → P (.map kvs))
    (ha : ∀ xs, (∀ x ∈ xs, P x) → P (.arr xs)) : ∀ xs : List (String × Pref), ∀ x ∈ xs, P x.2
  | [], x, hx => by cases hx
  | (k, y) :: ys, x, hx => by
      rcases List.mem_cons.1 hx with e | hx
      · exact e ▸ inductP hi hf hs hb hn hm ha y
      · exact inductPFields hi hf hs hb hn hm ha ys x hx
end

/-- Reading a plain preference value back from its JSON gives its canonical form. -/
theorem ofJson_toJson (p : Pref) : Plain p → ofJson (toJson p) = canon p := by
  refine inductP (P := fun p => Plain p → ofJson (toJson p) = canon p) ?_ ?_ ?_ ?_ ?_ ?_ ?_ p
  · intro i h; simp only [Plain] at h; simp only [toJson, ofJson, canon, h]; simp
  · intro r _; rfl
  · intro s _; rfl
  · intro b _; rfl
  · intro _; rfl
  · intro kvs ih h
    simp only [Plain] at h
    rw [plainFields_iff] at h
    simp only [toJson, canon]
    rw [toJson_map kvs h.1 (fun kv hkv => (h.2 kv hkv).1)]
    simp only [ofJson, ofJsonFields_eq, canonFields_eq]
    rw [sortBy_map ofJson, List.map_map]
    congr 2
    apply List.map_congr_left
    intro kv hkv
    simp [Function.comp, ih kv hkv (h.2 kv hkv).2]
  · intro xs ih h
    simp only [Plain, plainList_iff] at h
    simp only [toJson, ofJson, canon, toJsonList_eq, ofJsonList_eq, canonList_eq, List.map_map]
    congr 1
    apply List.map_congr_left
    intro x hx
    exact ih x hx (h x hx)

theorem toJson_ofJson_list (xs : List Json) (ih : ∀ x ∈ xs, toJson (ofJson x) = x) :
    (xs.map ofJson).map toJson = xs := by
  rw [List.map_map]
  calc xs.map (toJson ∘ ofJson) = xs.map id := List.map_congr_left (fun x hx => ih x hx)
    _ = xs := List.map_id xs

theorem plainJsonFields_iff (kvs : List (String × Json)) :
    Json.PlainJsonFields kvs ↔ ∀ kv ∈ kvs, Json.PlainKey kv.1 ∧ Json.PlainJson kv.2 := by
  induction kvs with
  | nil => simp [Json.PlainJsonFields]
  | cons e kvs ih => obtain ⟨k, x⟩ := e; simp [Json.PlainJsonFields, ih, and_assoc]

theorem plainJsonList_iff (xs : List Json) : Json.PlainJsonList xs ↔ ∀ x ∈ xs, Json.PlainJson x := by
  induction xs with
  | nil => simp [Json.PlainJsonList]
  | cons e kvs ih => simp [Json.PlainJsonList, ih]

theorem nodup_of_sorted {β : Type} {l : List (String × β)} (h : (l.map Prod.fst).Pairwise (· < ·)) :
    (l.map Prod.fst).Nodup := by
  rw [List.nodup_iff_pairwise_ne]
  exact h.imp (fun hlt e => by rw [e] at hlt; exact String.lt_irrefl _ hlt)

theorem toJson_ofJson (j : Json) : Json.WF j → Json.PlainJson j → toJson (ofJson j) = j := by
  induction j using Json.induct with
  | h j ih =>
    intro hw hp
    cases j with
    | null => rfl
    | bool b => rfl
    | str s => rfl
    | num n =>
      cases n with
      | flt r => rfl
      | int i => simp only [Json.PlainJson] at hp; simp only [ofJson, hp]; simp [toJson]
    | arr xs =>
      simp only [Json.WF, Json.wfList_iff] at hw
      simp only [Json.PlainJson, plainJsonList_iff] at hp
      simp only [ofJson, toJson, ofJsonList_eq, toJsonList_eq]
      rw [toJson_ofJson_list xs (fun x hx => ih x (by simpa [Json.children] using hx) (hw x hx) (hp x hx))]
    | obj kvs =>
      simp only [Json.WF, Json.wfFields_iff] at hw
      simp only [Json.PlainJson, plainJsonFields_iff] at hp
      simp only [ofJson, toJson, ofJsonFields_eq]
      rw [toJson_map]
      · simp only [List.map_map]
        have : kvs.map ((fun kv : String × Pref => (kv.1, toJson kv.2)) ∘ fun kv => (kv.1, ofJson kv.2)) =
            kvs := by
          calc _ = kvs.map id := by
                  apply List.map_congr_left
                  intro kv hkv
                  obtain ⟨k, v⟩ := kv
                  simp only [Function.comp, id]
                  rw [ih v (by simp only [Json.children, List.mem_map]; exact ⟨_, hkv, rfl⟩)
                    (hw.2 _ hkv) (hp _ hkv).2]
            _ = kvs := List.map_id kvs
        rw [this, sortBy_of_sorted]
        have := hw.1
        simpa [Json.SortedKeys, List.pairwise_map] using this
      · rw [List.map_map]; exact nodup_of_sorted hw.1
      · intro kv hkv
        obtain ⟨kv', h', rfl⟩ := List.mem_map.1 hkv
        exact (hp kv' h').1

end Pref
end Mutagenyx
