import Verif.Spec.Ends
import Verif.Proofs.MutatorNodes

/-! # Loops that draw again end under a fair random source -/

namespace Mutagenyx
open Json
variable {R : Type}

theorem EndsIf.const {α : Type} {F : Prop} {f : Nat → Outcome α} {a : α} (h : ∀ n, f n = .ok a) :
    EndsIf F f := ⟨fun n => Or.inl ⟨a, h n⟩, fun _ => ⟨0, a, fun n _ => h n⟩⟩

/-- Nothing is drawn again: the bound does not matter. -/
theorem EndsIf.same {α : Type} {F : Prop} {f : Nat → Outcome α} (hc : ∀ n, f n = f 0) (h : ∃ a, f 0 = .ok a) :
    EndsIf F f := by
  obtain ⟨a, ha⟩ := h
  exact EndsIf.const (fun n => (hc n).trans ha)

theorem EndsIf.congr {α : Type} {F : Prop} {f g : Nat → Outcome α} (h : ∀ n, f n = g n) (hg : EndsIf F g) :
    EndsIf F f := by
  have : f = g := funext h
  rw [this]; exact hg

theorem EndsIf.mono {α : Type} {F F' : Prop} {f : Nat → Outcome α} (hF : F → F') (h : EndsIf F' f) :
    EndsIf F f := ⟨h.1, fun hf => h.2 (hF hf)⟩

/-- Sequencing; what follows may use that the value came out of the loop. -/
theorem EndsIf.bind {α β : Type} {F : Prop} {f : Nat → Outcome α} {g : Nat → α → Outcome β}
    (hf : EndsIf F f) (hg : ∀ n a, f n = .ok a → EndsIf F (fun m => g m a)) :
    EndsIf F (fun n => (f n).bind (g n)) := by
  constructor
  · intro n
    show (∃ a, (f n).bind (g n) = .ok a) ∨ (f n).bind (g n) = .outOfFuel
    rcases hf.1 n with ⟨a, ha⟩ | ha
    · rw [ha]
      exact (hg n a ha).1 n
    · rw [ha]; exact Or.inr rfl
  · intro hF
    obtain ⟨N, a, ha⟩ := hf.2 hF
    obtain ⟨M, b, hb⟩ := (hg N a (ha N (Nat.le_refl N))).2 hF
    refine ⟨max N M, b, fun n hn => ?_⟩
    show (f n).bind (g n) = _
    rw [ha n (by omega)]
    exact hb n (by omega)

theorem EndsIf.map {α β : Type} {F : Prop} {f : Nat → Outcome α} (hf : EndsIf F f) (k : α → β) :
    EndsIf F (fun n => (f n).bind (fun a => .ok (k a))) :=
  hf.bind (fun _ _ _ => EndsIf.const (fun _ => rfl))

theorem u64After_succ [Rand R] (r : R) (n : Nat) : u64After r (n + 1) = u64After (nextU64 r).2 n := by
  induction n with
  | zero => rfl
  | succ n ih =>
    show (nextU64 (u64After r (n + 1))).2 = _
    rw [ih]; rfl

theorem belowAfter_succ [Rand R] (k : Nat) (r : R) (n : Nat) :
    belowAfter k r (n + 1) = belowAfter k (Rand.below k r).2 n := by
  induction n with
  | zero => rfl
  | succ n ih =>
    show (Rand.below k (belowAfter k r (n + 1))).2 = _
    rw [ih]; rfl

/-- The 64-bit half of fairness. -/
def FairU64 [Rand R] (r : R) : Prop :=
  ∀ len i, i < len → len ≤ 2 ^ 64 → ∀ n, ∃ m, n ≤ m ∧ (nextU64 (u64After r m)).1 % len = i

theorem FairU64.next [Rand R] {r : R} (h : FairU64 r) : FairU64 (nextU64 r).2 := by
  intro len i hi hl n
  obtain ⟨m, hm, he⟩ := h len i hi hl (n + 1)
  obtain ⟨m', rfl⟩ : ∃ m', m = m' + 1 := ⟨m - 1, by omega⟩
  rw [u64After_succ] at he
  exact ⟨m', by omega, he⟩

/-- A loop that draws an index until it is acceptable. -/
theorem drawUntil_ends [Rand R] {good : Nat → Bool} {len i : Nat} (hi : i < len) (hg : good i = true)
    (hl : len ≤ 2 ^ 64) (r : R) : EndsIf (FairU64 r) (fun n => drawUntil good len n r) := by
  refine ⟨fun n => ?_, fun hF => ?_⟩
  · rcases drawUntil_cases good (by omega : len ≠ 0) n r with ⟨k, r', h⟩ | h
    · exact Or.inl ⟨(k, r'), h⟩
    · exact Or.inr h
  · obtain ⟨m, _, hm⟩ := hF len i hi hl 0
    clear hF
    have mono : ∀ (n : Nat) (r : R) a, drawUntil good len n r = .ok a →
        ∀ n', n ≤ n' → drawUntil good len n' r = .ok a := by
      intro n
      induction n with
      | zero => intro r a h; simp [drawUntil] at h
      | succ n ih =>
        intro r a h n' hn
        obtain ⟨n'', rfl⟩ : ∃ n'', n' = n'' + 1 := ⟨n' - 1, by omega⟩
        unfold drawUntil at h ⊢
        rw [drawIndex_isOk (by omega)] at h ⊢
        simp only at h ⊢
        split at h
        · rename_i hgd; rw [if_pos hgd]; exact h
        · rename_i hgd; rw [if_neg hgd]; exact ih _ _ h _ (by omega)
    have key : ∀ (m : Nat) (r : R), (nextU64 (u64After r m)).1 % len = i →
        ∃ N a, drawUntil good len N r = .ok a := by
      intro m
      induction m with
      | zero =>
        intro r h
        refine ⟨1, (i, (nextU64 r).2), ?_⟩
        unfold drawUntil
        rw [drawIndex_isOk (by omega)]
        have h' : (nextU64 r).1 % len = i := h
        simp [h', hg]
      | succ m ih =>
        intro r h
        rw [u64After_succ] at h
        obtain ⟨N, a, ha⟩ := ih _ h
        by_cases hgd : good ((nextU64 r).1 % len) = true
        · refine ⟨1, ((nextU64 r).1 % len, (nextU64 r).2), ?_⟩
          unfold drawUntil
          rw [drawIndex_isOk (by omega)]
          simp [hgd]
        · refine ⟨N + 1, a, ?_⟩
          unfold drawUntil
          rw [drawIndex_isOk (by omega)]
          simp only [hgd]
          exact ha
    obtain ⟨N, a, ha⟩ := key m r hm
    exact ⟨N, a, fun n hn => mono N r a ha n hn⟩

/-- The state after such a loop is still fair. -/
theorem drawUntil_fair [Rand R] {good : Nat → Bool} {len fuel i : Nat} {r r' : R}
    (h : drawUntil good len fuel r = .ok (i, r')) (hF : FairU64 r) : FairU64 r' := by
  induction fuel generalizing r with
  | zero => simp [drawUntil] at h
  | succ f ih =>
    unfold drawUntil at h
    by_cases h0 : len = 0
    · simp [drawIndex, h0] at h
    · rw [drawIndex_isOk h0] at h
      simp only at h
      split at h
      · simp only [Outcome.ok.injEq, Prod.mk.injEq] at h
        rw [← h.2]; exact hF.next
      · exact ih h hF.next

/-- A loop that chooses until the choice differs. -/
theorem chooseOther_ends [Rand R] {ops : List String} {old o : String} (ho : o ∈ ops) (hne : o ≠ old)
    (r : R) : EndsIf (FairSource r) (fun n => chooseOther ops old n r) := by
  have hops : ops ≠ [] := by rintro rfl; simp at ho
  refine ⟨fun n => ?_, fun hF => ?_⟩
  · rcases chooseOther_cases hops old n r with ⟨k, r', h⟩ | h
    · exact Or.inl ⟨(k, r'), h⟩
    · exact Or.inr h
  · obtain ⟨i, hi, hio⟩ := List.mem_iff_getElem.1 ho
    obtain ⟨m, _, hm⟩ := hF.2 ops.length i hi 0
    clear hF
    have hch : ∀ r : R, choose ops r =
        (ops[(Rand.below ops.length r).1]?, (Rand.below ops.length r).2) := by
      intro r
      unfold choose
      have he : ops.isEmpty = false := by simp [hops]
      simp only [he, Bool.false_eq_true, if_false]
    have mono : ∀ (n : Nat) (r : R) a, chooseOther ops old n r = .ok a →
        ∀ n', n ≤ n' → chooseOther ops old n' r = .ok a := by
      intro n
      induction n with
      | zero => intro r a h; simp [chooseOther] at h
      | succ n ih =>
        intro r a h n' hn
        obtain ⟨n'', rfl⟩ : ∃ n'', n' = n'' + 1 := ⟨n' - 1, by omega⟩
        unfold chooseOther at h ⊢
        cases hc : choose ops r with
        | mk x r1 =>
          rw [hc] at h
          cases x with
          | none => exact h
          | some x =>
            simp only at h ⊢
            split at h
            · rename_i hx; rw [if_pos hx]; exact ih _ _ h _ (by omega)
            · rename_i hx; rw [if_neg hx]; exact h
    have key : ∀ (m : Nat) (r : R), (Rand.below ops.length (belowAfter ops.length r m)).1 = i →
        ∃ N a, chooseOther ops old N r = .ok a := by
      intro m
      induction m with
      | zero =>
        intro r h
        refine ⟨1, (o, (Rand.below ops.length r).2), ?_⟩
        unfold chooseOther
        have h' : (Rand.below ops.length r).1 = i := h
        rw [hch r, h', List.getElem?_eq_getElem hi, hio]
        simp [hne]
      | succ m ih =>
        intro r h
        rw [belowAfter_succ] at h
        obtain ⟨N, a, ha⟩ := ih _ h
        have hlt := Rand.below_lt (R := R) ops.length r (List.length_pos_iff.2 hops)
        by_cases hx : ops[(Rand.below ops.length r).1] = old
        · refine ⟨N + 1, a, ?_⟩
          unfold chooseOther
          rw [hch r, List.getElem?_eq_getElem hlt]
          simp only [hx, if_true]
          exact ha
        · refine ⟨1, (ops[(Rand.below ops.length r).1], (Rand.below ops.length r).2), ?_⟩
          unfold chooseOther
          rw [hch r, List.getElem?_eq_getElem hlt]
          simp only [hx, if_false]
    obtain ⟨N, a, ha⟩ := key m r hm
    exact ⟨N, a, fun n hn => mono N r a ha n hn⟩

theorem uncheckedDraw_eq [Rand R] (fuel : Nat) (ss : List Json) (r : R) :
    Solidity.uncheckedDraw fuel ss r =
      (drawUntil (fun i => match ss[i]? with
          | some v => !(Solidity.hasType "Return" v || Solidity.hasType "UncheckedBlock" v)
          | none => false) ss.length fuel r).bind
        (fun p => match ss[p.1]? with
          | some v => .ok (p.1, v, ss.eraseIdx p.1, p.2)
          | none => .panic) := by
  induction fuel generalizing r with
  | zero => rfl
  | succ f ih =>
    unfold Solidity.uncheckedDraw drawUntil
    by_cases h0 : ss.length = 0
    · simp [drawIndex, h0, Outcome.bind]
    · rw [drawIndex_isOk h0]
      simp only
      have hlt : (nextU64 r).1 % ss.length < ss.length := Nat.mod_lt _ (Nat.pos_of_ne_zero h0)
      generalize hk : (nextU64 r).1 % ss.length = k at hlt
      rw [List.getElem?_eq_getElem hlt]
      simp only
      have e : (ss.eraseIdx k).insertIdx k ss[k] = ss := by
        rw [eraseIdx_insertIdx_self _ _ _ hlt, List.set_getElem_self]
      by_cases hb : (Solidity.hasType "Return" ss[k] || Solidity.hasType "UncheckedBlock" ss[k]) = true
      · simp only [hb, if_true, Bool.not_true, Bool.false_eq_true, if_false]
        rw [e]
        exact ih _
      · simp only [Bool.not_eq_true] at hb
        simp only [hb, Bool.not_false, if_true, Bool.false_eq_true, if_false, Outcome.bind]
        rw [List.getElem?_eq_getElem hlt]

end Mutagenyx
