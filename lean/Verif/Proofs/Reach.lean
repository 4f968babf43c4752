import Verif.Model.Driver
import Verif.Proofs.Mutators
import Verif.Proofs.MutatorNodes
import Verif.Spec.Reach

/-!
# Draws that lead to a given choice
-/

namespace Mutagenyx

theorem below_cons (n d : Nat) (ds : List Nat) : Rand.below n (⟨d :: ds⟩ : ListRand) = (d % n, ⟨ds⟩) := rfl

theorem nextU64_cons {d : Nat} (h : d < 2 ^ 64) (ds : List Nat) : nextU64 (⟨d :: ds⟩ : ListRand) = (d, ⟨ds⟩) := by
  unfold nextU64
  rw [below_cons, Nat.mod_eq_of_lt h]

theorem choose_at {α : Type} {xs : List α} {x : α} (h : x ∈ xs) :
    ∃ d, ∀ ds, choose xs (⟨d :: ds⟩ : ListRand) = (some x, ⟨ds⟩) := by
  obtain ⟨i, hi, rfl⟩ := List.mem_iff_getElem.mp h
  refine ⟨i, fun ds => ?_⟩
  unfold choose
  have he : xs.isEmpty = false := by
    cases xs with
    | nil => simp at hi
    | cons => rfl
  simp [he, below_cons, Nat.mod_eq_of_lt hi, List.getElem?_eq_getElem hi]

theorem chooseOther_at {ops : List String} {old new : String} (h : new ∈ ops) (hne : new ≠ old) {fuel : Nat} (hf : 0 < fuel) :
    ∃ d, ∀ ds, chooseOther ops old fuel (⟨d :: ds⟩ : ListRand) = .ok (new, ⟨ds⟩) := by
  obtain ⟨d, hd⟩ := choose_at h
  obtain ⟨f, rfl⟩ : ∃ f, fuel = f + 1 := ⟨fuel - 1, by omega⟩
  exact ⟨d, fun ds => by simp [chooseOther, hd ds, hne]⟩

theorem drawIndex_at {len i : Nat} (hi : i < len) (hl : i < 2 ^ 64) (ds : List Nat) :
    drawIndex len (⟨i :: ds⟩ : ListRand) = .ok (i, ⟨ds⟩) := by
  rw [drawIndex_isOk (by omega), nextU64_cons hl, Nat.mod_eq_of_lt hi]

theorem drawUntil_at {good : Nat → Bool} {len i fuel : Nat} (hi : i < len) (hl : i < 2 ^ 64) (hg : good i = true)
    (hf : 0 < fuel) (ds : List Nat) : drawUntil good len fuel (⟨i :: ds⟩ : ListRand) = .ok (i, ⟨ds⟩) := by
  obtain ⟨f, rfl⟩ : ∃ f, fuel = f + 1 := ⟨fuel - 1, by omega⟩
  unfold drawUntil
  rw [drawIndex_at hi hl]
  simp [hg]

theorem genRange_at {lo hi v : Int} (h1 : lo ≤ v) (h2 : v < hi) (ds : List Nat) :
    genRange lo hi (⟨(v - lo).toNat :: ds⟩ : ListRand) = .ok (v, ⟨ds⟩) := by
  unfold genRange
  rw [if_pos (by omega), below_cons, Nat.mod_eq_of_lt (by omega)]
  have : lo + ((v - lo).toNat : Int) = v := by omega
  simp only [this]

theorem pickIndex_at {n i : Nat} (hi : i < n) (hl : i < 2 ^ 64) : ∃ pre, ∀ ds, pickIndex n (⟨pre ++ ds⟩ : ListRand) = (i, ⟨ds⟩) := by
  unfold pickIndex
  by_cases h : n > 1
  · refine ⟨[i], fun ds => ?_⟩
    rw [if_pos h]
    show ((nextU64 (⟨i :: ds⟩ : ListRand)).1 % n, (nextU64 (⟨i :: ds⟩ : ListRand)).2) = _
    rw [nextU64_cons hl, Nat.mod_eq_of_lt hi]
  · refine ⟨[], fun ds => ?_⟩
    rw [if_neg h]
    have : i = 0 := by omega
    simp [this]

/-- The node that the mutation yields. -/
def nodeOf {R : Type} : Outcome (Json × MutatorResult × Option Json × R) → Option Json
  | .ok (j, _) => some j
  | _ => none

theorem reachable_of {m : Mutator ListRand} {j j' : Json} (draws : List Nat) (h : nodeOf (m.mutate j ⟨draws⟩) = some j') :
    Reachable m j j' := by
  cases ho : m.mutate j ⟨draws⟩ with
  | ok p =>
    obtain ⟨a, res, c, r'⟩ := p
    rw [ho] at h
    simp only [nodeOf, Option.some.injEq] at h
    subst h
    exact ⟨draws, res, c, r', ho⟩
  | err e => rw [ho] at h; cases h
  | panic => rw [ho] at h; cases h
  | outOfFuel => rw [ho] at h; cases h

/-! ### Groups of arguments -/

theorem groupFor_mono {s : String} {x : Nat × Json} (args : List Json) (n : Nat) (acc : List (String × List (Nat × Json)))
    (h : x ∈ groupFor s acc) : x ∈ groupFor s (Solidity.groupArguments args n acc) := by
  induction args generalizing n acc with
  | nil => exact h
  | cons a rest ih =>
    rw [Solidity.groupArguments]
    apply ih
    cases Solidity.argumentType a with
    | none => exact h
    | some t =>
      simp only [groupFor_add]
      split
      · exact List.mem_append_left _ h
      · exact h

theorem mem_groupFor {s : String} {a : Json} (hs : Solidity.argumentType a = some s) (args : List Json) (n m : Nat)
    (acc : List (String × List (Nat × Json))) (h : args[m]? = some a) :
    (n + m, a) ∈ groupFor s (Solidity.groupArguments args n acc) := by
  induction args generalizing n m acc with
  | nil => simp at h
  | cons x rest ih =>
    rw [Solidity.groupArguments]
    cases m with
    | zero =>
      simp only [List.getElem?_cons_zero, Option.some.injEq] at h
      subst h
      apply groupFor_mono
      simp only [hs, groupFor_add, if_true]
      simp
    | succ m =>
      have := ih (n + 1) m (match Solidity.argumentType x with
        | some s => Solidity.addToGroup s (n, x) acc
        | none => acc) (by simpa using h)
      rw [show n + (m + 1) = n + 1 + m by omega]
      exact this

theorem addToGroup_length (s : String) (x : Nat × Json) (acc : List (String × List (Nat × Json))) :
    (Solidity.addToGroup s x acc).length ≤ acc.length + 1 := by
  induction acc with
  | nil => simp [Solidity.addToGroup]
  | cons y rest ih =>
    obtain ⟨k, xs⟩ := y
    rw [Solidity.addToGroup]
    split
    · simp
    · simp only [List.length_cons]; omega

theorem groupArguments_length (args : List Json) (n : Nat) (acc : List (String × List (Nat × Json))) :
    (Solidity.groupArguments args n acc).length ≤ acc.length + args.length := by
  induction args generalizing n acc with
  | nil => simp [Solidity.groupArguments]
  | cons a rest ih =>
    rw [Solidity.groupArguments]
    refine Nat.le_trans (ih _ _) ?_
    cases Solidity.argumentType a with
    | none => simp only [List.length_cons]; omega
    | some t =>
      have := addToGroup_length t (n, a) acc
      simp only [List.length_cons]
      omega

/-- The first two members of the group of a type. -/
theorem group_first_two {args : List Json} {i k : Nat} (hik : i < k) {a b : Json} {s : String}
    (ha : args[i]? = some a) (hb : args[k]? = some b) (hta : Solidity.argumentType a = some s)
    (htb : Solidity.argumentType b = some s)
    (hfirst : ∀ n x, args[n]? = some x → Solidity.argumentType x = some s → n < k → n = i) :
    ∃ more, (s, (i, a) :: (k, b) :: more) ∈ Solidity.groupArguments args 0 [] := by
  have m1 := mem_groupFor hta args 0 i [] ha
  have m2 := mem_groupFor htb args 0 k [] hb
  have hmem := mem_of_groupFor (List.length_pos_of_mem m1)
  have hok := groupArguments_ok [] args [] (fun g hg => by simp at hg) _ hmem
  simp only [Nat.zero_add] at m1 m2
  generalize hg : groupFor s (Solidity.groupArguments args 0 []) = g at m1 m2 hmem
  have hok : (∀ p ∈ g, p.1 < args.length ∧ args[p.1]? = some p.2 ∧ Solidity.argumentType p.2 = some s) ∧
      g.Pairwise (fun p q => p.1 < q.1) := by
    simpa [hg] using hok
  obtain ⟨hall, hpw⟩ := hok
  cases g with
  | nil => cases m1
  | cons p rest =>
    have hp := hall p (by simp)
    rw [List.pairwise_cons] at hpw
    have hp1 : p.1 = i := by
      rcases List.mem_cons.1 m1 with h | h
      · rw [← h]
      · have := hpw.1 _ h
        exact hfirst _ _ hp.2.1 hp.2.2 (by simp at this; omega)
    have hp2 : p = (i, a) := by
      have h := hp.2.1
      rw [hp1, ha] at h
      exact Prod.ext hp1 (Option.some.inj h).symm
    have mk : (k, b) ∈ rest := by
      rcases List.mem_cons.1 m2 with h | h
      · exfalso
        rw [← h] at hp1
        simp only at hp1
        omega
      · exact h
    cases rest with
    | nil => cases mk
    | cons q more =>
      have hq := hall q (by simp)
      have hpq := hpw.1 q (by simp)
      have hq1 : q.1 = k := by
        rcases List.mem_cons.1 mk with h | h
        · rw [← h]
        · have := (List.pairwise_cons.1 hpw.2).1 _ h
          have := hfirst _ _ hq.2.1 hq.2.2 (by simpa using this)
          omega
      have hq2 : q = (k, b) := by
        have h := hq.2.1
        rw [hq1, hb] at h
        exact Prod.ext hq1 (Option.some.inj h).symm
      exact ⟨more, by rw [← hp2, ← hq2]; exact hmem⟩

theorem addToGroup_keys (s : String) (x : Nat × Json) (acc : List (String × List (Nat × Json))) (k : String) :
    k ∈ (Solidity.addToGroup s x acc).map Prod.fst ↔ k = s ∨ k ∈ acc.map Prod.fst := by
  induction acc with
  | nil => simp [Solidity.addToGroup]
  | cons y rest ih =>
    obtain ⟨l, xs⟩ := y
    rw [Solidity.addToGroup]
    split
    · rename_i h
      subst h
      simp
    · simp only [List.map_cons, List.mem_cons, ih]
      constructor
      · rintro (h | h | h) <;> simp [h]
      · rintro (h | h | h) <;> simp [h]

theorem addToGroup_nodup (s : String) (x : Nat × Json) (acc : List (String × List (Nat × Json)))
    (h : (acc.map Prod.fst).Nodup) : ((Solidity.addToGroup s x acc).map Prod.fst).Nodup := by
  induction acc with
  | nil => simp [Solidity.addToGroup]
  | cons y rest ih =>
    obtain ⟨l, xs⟩ := y
    rw [Solidity.addToGroup]
    simp only [List.map_cons, List.nodup_cons] at h
    split
    · simpa using h
    · rename_i hne
      simp only [List.map_cons, List.nodup_cons, addToGroup_keys]
      exact ⟨fun hc => hc.elim hne h.1, ih h.2⟩

theorem groupArguments_nodup (args : List Json) (n : Nat) (acc : List (String × List (Nat × Json)))
    (h : (acc.map Prod.fst).Nodup) : ((Solidity.groupArguments args n acc).map Prod.fst).Nodup := by
  induction args generalizing n acc with
  | nil => exact h
  | cons a rest ih =>
    rw [Solidity.groupArguments]
    apply ih
    cases Solidity.argumentType a with
    | none => exact h
    | some t => exact addToGroup_nodup t (n, a) acc h

theorem groupFor_of_mem {s : String} {l : List (Nat × Json)} (acc : List (String × List (Nat × Json)))
    (h : (acc.map Prod.fst).Nodup) (hm : (s, l) ∈ acc) : groupFor s acc = l := by
  induction acc with
  | nil => cases hm
  | cons y rest ih =>
    obtain ⟨k, xs⟩ := y
    simp only [List.map_cons, List.nodup_cons] at h
    rcases List.mem_cons.1 hm with he | he
    · injection he with h1 h2
      subst h1 h2
      simp [groupFor, List.lookup]
    · have hne : s ≠ k := by
        rintro rfl
        exact h.1 (List.mem_map.2 ⟨_, he, rfl⟩)
      have := ih h.2 he
      simpa [groupFor, List.lookup, beq_false_of_ne hne] using this

/-- A group begins with the first two arguments of its type. -/
theorem group_begins {args : List Json} {s : String} {p q : Nat × Json} {more : List (Nat × Json)}
    (h : (s, p :: q :: more) ∈ Solidity.groupArguments args 0 []) {n : Nat} {x : Json} (hx : args[n]? = some x)
    (hs : Solidity.argumentType x = some s) (hn : n < q.1) : n = p.1 := by
  have hg := groupFor_of_mem _ (groupArguments_nodup args 0 [] (by simp)) h
  have hm := mem_groupFor hs args 0 n [] hx
  rw [hg, Nat.zero_add] at hm
  have hok := groupArguments_ok [] args [] (fun g hg => by simp at hg) _ h
  have hpw := hok.2
  simp only [List.pairwise_cons] at hpw
  rcases List.mem_cons.1 hm with he | he
  · rw [← he]
  · rcases List.mem_cons.1 he with he | he
    · rw [← he] at hn
      exact absurd hn (Nat.lt_irrefl _)
    · have := hpw.2.1 _ he
      simp only at this
      omega

end Mutagenyx
