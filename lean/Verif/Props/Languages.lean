import Verif.Model.Languages
import Verif.Spec.DemoNodes

/-!
# Selecting the mutators of a language (C27)
-/

namespace Mutagenyx
variable {R : Type}

/-- The algorithms a language knows. -/
def Supports (l : Language) (t : MutationType) : Prop :=
  l = .vyper → t ≠ .require ∧ t ≠ .uncheckedBlock ∧ t ≠ .elimDelegateCall

theorem mutatorFor_implements [Rand R] {env : MutEnv} {l : Language} {t : MutationType} {m : Mutator R}
    (h : languageMutator env l t = some m) : m.implements = t := by
  cases l <;> cases t <;> cases h <;> rfl

theorem mutatorFor_supports [Rand R] (env : MutEnv) (l : Language) (t : MutationType) :
    (∃ m : Mutator R, languageMutator env l t = some m) ↔ Supports l t := by
  constructor
  · rintro ⟨m, h⟩ rfl
    cases t <;> cases h <;> exact ⟨by decide, by decide, by decide⟩
  · intro h
    cases l
    · cases t <;> exact ⟨_, rfl⟩
    · have := h rfl
      cases t
      case require => exact absurd rfl this.1
      case uncheckedBlock => exact absurd rfl this.2.1
      case elimDelegateCall => exact absurd rfl this.2.2
      all_goals exact ⟨_, rfl⟩

theorem insertMutator_implements (m : Mutator R) (tbl : List (Mutator R)) :
    (insertMutator m tbl).map (·.implements) =
      if m.implements ∈ tbl.map (·.implements) then tbl.map (·.implements)
      else tbl.map (·.implements) ++ [m.implements] := by
  induction tbl with
  | nil => rfl
  | cons x xs ih =>
    unfold insertMutator
    by_cases hx : x.implements = m.implements
    · simp [hx]
    · simp only [hx, if_false, List.map_cons, ih]
      have : m.implements ∈ x.implements :: xs.map (·.implements) ↔ m.implements ∈ xs.map (·.implements) := by
        simp [Ne.symm hx]
      by_cases hm : m.implements ∈ xs.map (·.implements)
      · rw [if_pos hm, if_pos (this.2 hm)]
      · rw [if_neg hm, if_neg (fun h => hm (this.1 h))]; rfl

theorem mem_insertMutator {m x : Mutator R} {tbl : List (Mutator R)} (h : x ∈ insertMutator m tbl) :
    x = m ∨ x ∈ tbl := by
  induction tbl with
  | nil => simpa [insertMutator] using h
  | cons y ys ih =>
    unfold insertMutator at h
    split at h
    · rcases List.mem_cons.1 h with h | h
      · exact Or.inl h
      · exact Or.inr (List.mem_cons_of_mem _ h)
    · rcases List.mem_cons.1 h with h | h
      · exact Or.inr (by rw [h]; exact List.mem_cons_self)
      · rcases ih h with h | h
        · exact Or.inl h
        · exact Or.inr (List.mem_cons_of_mem _ h)

theorem foldl_insert (ms tbl : List (Mutator R)) (hn : (tbl.map (·.implements)).Nodup) :
    ((ms.foldl (fun tbl m => insertMutator m tbl) tbl).map (·.implements)).Nodup ∧
    (∀ t, t ∈ (ms.foldl (fun tbl m => insertMutator m tbl) tbl).map (·.implements) ↔
      t ∈ tbl.map (·.implements) ∨ t ∈ ms.map (·.implements)) ∧
    ∀ x ∈ ms.foldl (fun tbl m => insertMutator m tbl) tbl, x ∈ tbl ∨ x ∈ ms := by
  induction ms generalizing tbl with
  | nil => exact ⟨hn, by simp, by simp⟩
  | cons m ms ih =>
    simp only [List.foldl_cons]
    have hi := insertMutator_implements m tbl
    have hn' : ((insertMutator m tbl).map (·.implements)).Nodup := by
      rw [hi]
      split
      · exact hn
      · rename_i h
        rw [List.nodup_append]
        refine ⟨hn, by simp, ?_⟩
        intro a ha b hb
        simp only [List.mem_singleton] at hb
        rintro rfl
        exact h (hb ▸ ha)
    obtain ⟨h1, h2, h3⟩ := ih _ hn'
    refine ⟨h1, fun t => ?_, fun x hx => ?_⟩
    · rw [h2, hi]
      simp only [List.map_cons, List.mem_cons]
      split
      · rename_i h
        constructor
        · rintro (h' | h')
          · exact Or.inl h'
          · exact Or.inr (Or.inr h')
        · rintro (h' | rfl | h')
          · exact Or.inl h'
          · exact Or.inl h
          · exact Or.inr h'
      · simp only [List.mem_append, List.mem_singleton]
        constructor
        · rintro ((h' | h') | h')
          · exact Or.inl h'
          · exact Or.inr (Or.inl h')
          · exact Or.inr (Or.inr h')
        · rintro (h' | h' | h')
          · exact Or.inl (Or.inl h')
          · exact Or.inl (Or.inr h')
          · exact Or.inr h'
    · rcases h3 x hx with h | h
      · rcases mem_insertMutator h with h | h
        · exact Or.inr (by rw [h]; exact List.mem_cons_self)
        · exact Or.inl h
      · exact Or.inr (List.mem_cons_of_mem _ h)

/-- **C27.** Of any list of requested algorithms, each one that the language supports has exactly one mutator
in the table, no other algorithm has one, and each entry is the language's mutator of the algorithm it
reports. -/
theorem C27_one_mutator_per_supported_algorithm [Rand R] (env : MutEnv) (l : Lang R) (lang : Language)
    (hl : l.mutatorFor = languageMutator env lang) (types : List MutationType) :
    (∀ t, t ∈ types → Supports lang t →
      ∃ m, languageMutator env lang t = some m ∧ (selectMutators l types).filter (·.implements = t) = [m]) ∧
    (∀ m ∈ selectMutators l types, m.implements ∈ types ∧ Supports lang m.implements ∧
      languageMutator env lang m.implements = some m) ∧
    (∀ t, t ∉ types ∨ ¬ Supports lang t → (selectMutators l types).filter (·.implements = t) = []) := by
  obtain ⟨h1, h2, h3⟩ := foldl_insert (types.filterMap l.mutatorFor) [] (by simp)
  have hentry : ∀ m ∈ selectMutators l types, m.implements ∈ types ∧ Supports lang m.implements ∧
      languageMutator env lang m.implements = some m := by
    intro m hm
    rcases h3 m hm with h | h
    · cases h
    · obtain ⟨t, ht, hmt⟩ := List.mem_filterMap.1 h
      rw [hl] at hmt
      have := mutatorFor_implements hmt
      rw [this]
      exact ⟨ht, (mutatorFor_supports env lang t).1 ⟨m, hmt⟩, hmt⟩
  refine ⟨fun t ht hs => ?_, hentry, fun t ht => ?_⟩
  · obtain ⟨m, hm⟩ := (mutatorFor_supports (R := R) env lang t).2 hs
    refine ⟨m, hm, ?_⟩
    have hmem : t ∈ (selectMutators l types).map (·.implements) := by
      unfold selectMutators
      rw [h2]
      right
      rw [List.mem_map]
      exact ⟨m, List.mem_filterMap.2 ⟨t, ht, by rw [hl]; exact hm⟩, mutatorFor_implements hm⟩
    obtain ⟨x, hx, hxt⟩ := List.mem_map.1 hmem
    have hxm : x = m := by
      have := (hentry x hx).2.2
      rw [hxt, hm] at this
      exact (Option.some.inj this).symm
    have hall : ∀ y ∈ (selectMutators l types).filter (·.implements = t), y = m := by
      intro y hy
      obtain ⟨hy1, hy2⟩ := List.mem_filter.1 hy
      have hyt : y.implements = t := by simpa using hy2
      have := (hentry y hy1).2.2
      rw [hyt, hm] at this
      exact (Option.some.inj this).symm
    have hlen : ((selectMutators l types).filter (·.implements = t)).length = 1 := by
      have hc : ((selectMutators l types).map (·.implements)).count t = 1 :=
        List.Nodup.count h1 |>.trans (if_pos hmem)
      rw [List.count, List.countP_map, List.countP_eq_length_filter] at hc
      rw [← hc]
      congr 1
    obtain ⟨y, hy⟩ := List.length_eq_one_iff.1 hlen
    rw [hy, hall y (by rw [hy]; simp)]
  · rw [List.filter_eq_nil_iff]
    intro m hm hmt
    have hmt' : m.implements = t := by simpa using hmt
    obtain ⟨ha, hb, _⟩ := hentry m hm
    rw [hmt'] at ha hb
    rcases ht with h | h
    · exact h ha
    · exact h hb

/-- A request with a duplicate and an algorithm Vyper does not have. -/
example : (selectMutators (⟨.vyper, vyperCtx, languageMutator DemoNodes.env .vyper, fun j _ _ => j, fun _ => true, "vy"⟩ :
    Lang ListRand) [.integer, .require, .unaryOp, .integer]).map (·.implements) = [.integer, .unaryOp] := by
  decide +kernel
example : (selectMutators (⟨.solidity, solidityCtx, languageMutator DemoNodes.env .solidity, fun j _ _ => j, fun _ => true, "sol"⟩ :
    Lang ListRand) [.integer, .require, .unaryOp, .integer]).map (·.implements) =
    [.integer, .require, .unaryOp] := by decide +kernel

end Mutagenyx
