import Verif.Proofs.Sort

/-!
# C26: algorithm names
-/

namespace Mutagenyx
open MutationType

/-- **C26**, round trip: every algorithm's printed name parses back to it. -/
theorem C26_round_trip (t : MutationType) : ofString? t.toStr = some t := by cases t <;> decide

/-- **C26**: distinct algorithms have distinct names. -/
theorem C26_names_distinct (a b : MutationType) (h : a.toStr = b.toStr) : a = b := toStr_inj a b h

private theorem Option.ite_some_or {c : Prop} [Decidable c] {a t : MutationType} {o : Option MutationType}
    (h : (if c then some a else o) = some t) : (c ∧ a = t) ∨ o = some t := by
  by_cases hc : c
  · rw [if_pos hc] at h; exact Or.inl ⟨hc, Option.some.inj h⟩
  · rw [if_neg hc] at h; exact Or.inr h

/-- **C26**: a string is accepted only if it is the printed name of the algorithm it is read as. -/
theorem C26_only_printed_names (s : String) (t : MutationType) (h : ofString? s = some t) :
    s = t.toStr := by
  unfold ofString? at h
  iterate 17
    rcases Option.ite_some_or h with ⟨hs, rfl⟩ | h
    · exact hs
  cases h

/-- **C26**: selecting by name keeps exactly the recognised names, in order: a name list made of printed
names interleaved with other strings selects those algorithms. -/
theorem C26_selection (names : List String) :
    (fromStrings names).map toStr = names.filter (fun s => (ofString? s).isSome) := by
  unfold fromStrings
  induction names with
  | nil => rfl
  | cons s names ih =>
    rw [List.filterMap_cons, List.filter_cons]
    cases h : ofString? s with
    | none => simpa using ih
    | some t =>
      simp only [List.map_cons, Option.isSome_some, if_true, ih]
      rw [← C26_only_printed_names s t h]

/-- **C26**: whatever the iteration order of the table of descriptions, the list of all algorithms is the
same: every algorithm exactly once, by name. -/
theorem C26_all_algorithms (order : List MutationType) (h : order.Perm described) :
    getAll order = getAll described ∧ (getAll order).Nodup ∧ (∀ t, t ∈ getAll order) ∧
      (getAll order).Pairwise (fun a b => a.toStr < b.toStr) := by
  have hd : described.Nodup := by decide
  have hn : order.Nodup := h.nodup_iff.2 hd
  have he : getAll order = getAll described := sortStr_eq_of_perm hn h
  refine ⟨he, (sortBy_perm toStr order).nodup_iff.2 hn, ?_, ?_⟩
  · intro t
    rw [getAll, (sortBy_perm toStr order).mem_iff, h.mem_iff]
    cases t <;> decide
  · rw [he]; decide

example : fromStrings ["Integer", "nonsense", "Require", "Integer"] = [integer, require, integer] := by
  decide

end Mutagenyx
