import Verif.Model.SolidityMutators
import Verif.Model.VyperMutators
import Verif.Spec.MutatorSpec
import Verif.Proofs.Json

/-! # Lemmas about node fields, lists and random draws used for the mutators -/

namespace Mutagenyx
open Json

variable {R : Type}

/-! ### Fields -/

theorem field?_eq_field (k : String) (j : Json) : field? k j = field k j := by cases j <;> rfl

theorem field_setNodeForKey {k : String} (hk : PlainKey k) (k' : String) (v : Json) {j : Json}
    (hj : IsObj j) : field k' (setNodeForKey k v j) = if k = k' then some v else field k' j := by
  obtain ⟨kvs, rfl⟩ := isObj_iff.1 hj
  unfold setNodeForKey
  rw [pointerSet_plain hk, get?_obj hk]
  by_cases h : (objGet k kvs).isSome
  · simp only [h, if_true, stepSet, field]
    rw [objGet_objReplace]
    simp [h]
  · simp only [h]
    simp only [Bool.false_eq_true, if_false, field]
    rw [objGet_objInsert]

theorem field_take {k : String} (hk : PlainKey k) (k' : String) {j : Json} (hj : IsObj j) :
    field k' (takeValueForKey k j).2 =
      if k = k' ∧ (field k j).isSome then some .null else field k' j := by
  obtain ⟨kvs, rfl⟩ := isObj_iff.1 hj
  rw [takeValueForKey_snd hk, get?_obj hk]
  by_cases h : (objGet k kvs).isSome
  · simp only [h, if_true, stepSet, field]
    rw [objGet_objReplace]
    simp [h]
  · simp [h, field]

theorem take_isObj {k : String} (hk : PlainKey k) {j : Json} (hj : IsObj j) :
    IsObj (takeValueForKey k j).2 := by
  obtain ⟨kvs, rfl⟩ := isObj_iff.1 hj
  rw [takeValueForKey_snd hk]
  by_cases h : (get? k (.obj kvs)).isSome <;> simp [h, stepSet, IsObj]

/-- What `take_value_for_key` returned, in terms of fields. -/
theorem take_eq {k : String} (hk : PlainKey k) {j : Json} (hj : IsObj j) {o : Option Json} {j1 : Json}
    (h : takeValueForKey k j = (o, j1)) :
    o = field k j ∧ IsObj j1 ∧
      ∀ k', field k' j1 = if k = k' ∧ (field k j).isSome then some .null else field k' j := by
  have h1 := takeValueForKey_fst k j
  have h2 := take_isObj hk hj
  have h3 := fun k' => field_take hk k' hj
  rw [h] at h1 h2 h3
  exact ⟨by rw [← get?_field hk hj]; exact h1, h2, h3⟩

theorem isObj_of_getStr {k s : String} (hk : PlainKey k) (hi : parseIndex k = none) {j : Json}
    (h : getStrForKey k j = some s) : IsObj j := by
  unfold getStrForKey at h
  cases hg : get? k j with
  | none => simp [hg] at h
  | some v => exact isObj_of_get? hk hi hg

theorem getStr_iff {k s : String} (hk : PlainKey k) {j : Json} (hj : IsObj j) :
    getStrForKey k j = some s ↔ TextField k j s := by
  unfold getStrForKey TextField
  rw [get?_field hk hj]
  cases field k j with
  | none => simp
  | some v => cases v <;> simp [asStr]

theorem getStr_text {k s : String} (hk : PlainKey k) (hi : parseIndex k = none) {j : Json}
    (h : getStrForKey k j = some s) : TextField k j s :=
  (getStr_iff hk (isObj_of_getStr hk hi h)).1 h

theorem textField_isObj {k s : String} {j : Json} (h : TextField k j s) : IsObj j := by
  cases j <;> simp_all [TextField, field, IsObj]

theorem getStr_of_text {k s : String} (hk : PlainKey k) {j : Json} (h : TextField k j s) :
    getStrForKey k j = some s := (getStr_iff hk (textField_isObj h)).2 h

theorem getBool_iff {k : String} {b : Bool} (hk : PlainKey k) {j : Json} (hj : IsObj j) :
    getBoolForKey k j = some b ↔ field k j = some (.bool b) := by
  unfold getBoolForKey
  rw [get?_field hk hj]
  cases field k j with
  | none => simp
  | some v => cases v <;> simp [asBool]

theorem getInt_field {k : String} (hk : PlainKey k) {j : Json} (hj : IsObj j) :
    getIntForKey k j = (field k j).bind asI64 := by
  unfold getIntForKey
  rw [get?_field hk hj]

theorem getArray_field {k : String} (hk : PlainKey k) {j : Json} (hj : IsObj j) :
    getArrayForKey k j = (field k j).bind asArray := by
  unfold getArrayForKey
  rw [get?_field hk hj]

theorem onlyField_set {k : String} (hk : PlainKey k) (v : Json) {j : Json} (hj : IsObj j) :
    OnlyField k j (setNodeForKey k v j) := by
  refine ⟨hj, setNodeForKey_isObj hk v hj, fun k' h => ?_⟩
  rw [field_setNodeForKey hk k' v hj, if_neg (Ne.symm h)]

/-- Taking a field and setting it again changes that field only. -/
theorem onlyField_take_set {k : String} (hk : PlainKey k) (v : Json) {j j1 : Json} (hj : IsObj j)
    {o : Option Json} (h : takeValueForKey k j = (o, j1)) :
    OnlyField k j (setNodeForKey k v j1) ∧ field k (setNodeForKey k v j1) = some v := by
  obtain ⟨_, hj1, hf⟩ := take_eq hk hj h
  refine ⟨⟨hj, setNodeForKey_isObj hk v hj1, fun k' hne => ?_⟩, ?_⟩
  · rw [field_setNodeForKey hk k' v hj1, if_neg (Ne.symm hne), hf k', if_neg (fun h => hne h.1.symm)]
  · rw [field_setNodeForKey hk k v hj1, if_pos rfl]

/-- The id of a node does not change when another field does. -/
theorem solidityId_onlyField {k : String} {j j' : Json} (hk : k ≠ "id") (h : OnlyField k j j') :
    solidityId j' = solidityId j := by
  unfold solidityId
  rw [getInt_field (by decide) h.1, getInt_field (by decide) h.2.1, h.2.2 "id" (Ne.symm hk)]

theorem vyperId_onlyField {k : String} {j j' : Json} (hk : k ≠ "node_id") (h : OnlyField k j j') :
    vyperId j' = vyperId j := by
  unfold vyperId
  rw [getInt_field (by decide) h.1, getInt_field (by decide) h.2.1, h.2.2 "node_id" (Ne.symm hk)]

theorem solidity_hasType {t : String} {j : Json} : Solidity.hasType t j = true ↔ IsKind t j := by
  unfold Solidity.hasType IsKind
  rw [beq_iff_eq]
  exact ⟨getStr_text (by decide) (by decide), getStr_of_text (by decide)⟩

theorem vyper_hasType {t : String} {j : Json} : Vyper.hasType t j = true ↔ IsVyperKind t j := by
  unfold Vyper.hasType IsVyperKind
  rw [beq_iff_eq]
  exact ⟨getStr_text (by decide) (by decide), getStr_of_text (by decide)⟩

theorem isKind_isObj {t : String} {j : Json} (h : IsKind t j) : IsObj j := textField_isObj h
theorem isVyperKind_isObj {t : String} {j : Json} (h : IsVyperKind t j) : IsObj j := textField_isObj h

/-- A node has one kind. -/
theorem isKind_unique {t u : String} {j : Json} (h : IsKind t j) (h' : IsKind u j) : t = u := by
  unfold IsKind TextField at *
  rw [h] at h'
  injection h' with h'
  injection h'

theorem isVyperKind_unique {t u : String} {j : Json} (h : IsVyperKind t j) (h' : IsVyperKind u j) :
    t = u := by
  unfold IsVyperKind TextField at *
  rw [h] at h'
  injection h' with h'
  injection h'

theorem arrayField_iff {k : String} {j : Json} {xs : List Json} :
    Solidity.arrayField k j = some xs ↔ field k j = some (.arr xs) := by
  unfold Solidity.arrayField
  rw [field?_eq_field]
  cases field k j with
  | none => simp
  | some v => cases v <;> simp [asArray]

theorem vyper_arrayField_iff {k : String} {j : Json} {xs : List Json} :
    Vyper.arrayField k j = some xs ↔ field k j = some (.arr xs) := arrayField_iff

/-! ### Lists -/

theorem eraseIdx_insertIdx_self {α : Type} (xs : List α) (i : Nat) (v : α) (h : i < xs.length) :
    (xs.eraseIdx i).insertIdx i v = xs.set i v := by
  induction xs generalizing i with
  | nil => simp at h
  | cons x xs ih =>
    cases i with
    | zero => simp
    | succ i =>
      simp only [List.eraseIdx_cons_succ, List.insertIdx_succ_cons, List.set_cons_succ]
      rw [ih i (by simpa using h)]

theorem replacedAt_set {i : Nat} {v : Json} {xs : List Json} (h : i < xs.length) :
    ReplacedAt i v xs (xs.set i v) := by
  refine ⟨h, by simp, by simp [h], fun m hm => ?_⟩
  rw [List.getElem?_set]
  simp [Ne.symm hm]

theorem exchange_eq {first second : Nat} {ss : List Json} {a b : Json} {ss' : List Json}
    (hne : first ≠ second) (h : exchange first second ss = some (a, b, ss')) :
    Exchanged first second ss ss' ∧
      ss[if first ≥ second then first else second]? = some a ∧
      ss[if first ≥ second then second else first]? = some b := by
  -- the two indexes in order
  have key : ∀ lg sm : Nat, sm < lg → ∀ a b ss',
      (match ss[lg]? with
        | none => none
        | some largerNode => match (ss.eraseIdx lg)[sm]? with
          | none => none
          | some smallerNode =>
            some (largerNode, smallerNode,
              (((ss.eraseIdx lg).eraseIdx sm).insertIdx sm largerNode).insertIdx lg smallerNode)) =
        some (a, b, ss') →
      ss[lg]? = some a ∧ ss[sm]? = some b ∧ lg < ss.length ∧ ss' = (ss.set lg b).set sm a := by
    intro lg sm hlt a b ss' h
    cases hl : ss[lg]? with
    | none => simp [hl] at h
    | some x =>
      rw [hl] at h
      have hsm : (ss.eraseIdx lg)[sm]? = ss[sm]? := by
        rw [List.getElem?_eraseIdx, if_pos hlt]
      simp only [hsm] at h
      cases hs : ss[sm]? with
      | none => simp [hs] at h
      | some y =>
        rw [hs] at h
        simp only [Option.some.injEq, Prod.mk.injEq] at h
        obtain ⟨rfl, rfl, rfl⟩ := h
        have hlen : lg < ss.length := (List.getElem?_eq_some_iff.1 hl).1
        refine ⟨rfl, rfl, hlen, ?_⟩
        have h1 : ((ss.eraseIdx lg).eraseIdx sm).insertIdx sm x = (ss.eraseIdx lg).set sm x := by
          apply eraseIdx_insertIdx_self
          rw [List.length_eraseIdx_of_lt hlen]; omega
        rw [h1]
        have h2 : (ss.eraseIdx lg).set sm x = (ss.set sm x).eraseIdx lg := by
          apply List.ext_getElem?
          intro m
          rw [List.getElem?_set, List.getElem?_eraseIdx, List.getElem?_eraseIdx]
          have hlen' : sm < (ss.eraseIdx lg).length := by rw [List.length_eraseIdx_of_lt hlen]; omega
          by_cases hm : sm = m
          · subst hm
            simp only [if_true, hlt]
            rw [List.getElem?_set]
            simp [hlen', show sm < ss.length by omega]
          · simp only [hm, if_false]
            by_cases hml : m < lg
            · simp only [hml, if_true]
              rw [List.getElem?_set]; simp [hm]
            · simp only [hml, if_false]
              rw [List.getElem?_set, if_neg (by omega)]
        rw [h2, eraseIdx_insertIdx_self _ _ _ (by simpa using hlen), List.set_comm _ _ (by omega)]
  have fin : ∀ lg sm : Nat, sm < lg → lg < ss.length → ss[lg]? = some a → ss[sm]? = some b →
      ss' = (ss.set lg b).set sm a → Exchanged lg sm ss ss' := by
    intro lg sm hlt hlen ha hb hs
    subst hs
    refine ⟨by omega, hlen, by omega, by simp, ?_, ?_, fun m h1 h2 => ?_⟩
    · rw [List.getElem?_set, if_neg (by omega), List.getElem?_set, if_pos rfl, if_pos (by simpa using hlen), hb]
    · rw [List.getElem?_set, if_pos rfl, if_pos (by simp; omega), ha]
    · rw [List.getElem?_set, if_neg (Ne.symm h2), List.getElem?_set, if_neg (Ne.symm h1)]
  unfold exchange at h
  by_cases hge : first ≥ second
  · simp only [hge, if_true] at h ⊢
    obtain ⟨h1, h2, h3, h4⟩ := key first second (by omega) a b ss' h
    exact ⟨fin first second (by omega) h3 h1 h2 h4, h1, h2⟩
  · simp only [hge, if_false] at h ⊢
    obtain ⟨h1, h2, h3, h4⟩ := key second first (by omega) a b ss' h
    obtain ⟨_, e1, e2, e3, e4, e5, e6⟩ := fin second first (by omega) h3 h1 h2 h4
    exact ⟨⟨hne, e2, e1, e3, e5, e4, fun m x y => e6 m y x⟩, h1, h2⟩

/-- Two different indexes in range can be exchanged. -/
theorem exchange_isSome {first second : Nat} {ss : List Json} (hne : first ≠ second)
    (h1 : first < ss.length) (h2 : second < ss.length) : (exchange first second ss).isSome := by
  unfold exchange
  by_cases hge : first ≥ second
  · simp only [hge, if_true, List.getElem?_eq_getElem h1]
    rw [List.getElem?_eraseIdx, if_pos (by omega), List.getElem?_eq_getElem h2]
    rfl
  · simp only [hge, if_false, List.getElem?_eq_getElem h2]
    rw [List.getElem?_eraseIdx, if_pos (by omega), List.getElem?_eq_getElem h1]
    rfl

/-! ### Random draws -/

theorem genRange_ok [Rand R] {lo hi v : Int} {r r' : R} (h : genRange lo hi r = .ok (v, r')) :
    lo ≤ v ∧ v < hi := by
  unfold genRange at h
  by_cases hlt : lo < hi
  · simp only [hlt, if_true, Outcome.ok.injEq, Prod.mk.injEq] at h
    have := Rand.below_lt (R := R) (hi - lo).toNat r (by omega)
    omega
  · simp [hlt] at h

theorem genRange_isOk [Rand R] {lo hi : Int} (hlt : lo < hi) (r : R) :
    ∃ v r', genRange lo hi r = .ok (v, r') := by
  unfold genRange
  simp [hlt]

theorem drawIndex_ok [Rand R] {len i : Nat} {r r' : R} (h : drawIndex len r = .ok (i, r')) : i < len := by
  unfold drawIndex at h
  by_cases h0 : len = 0
  · simp [h0] at h
  · simp only [h0, if_false, Outcome.ok.injEq, Prod.mk.injEq] at h
    rw [← h.1]
    exact Nat.mod_lt _ (Nat.pos_of_ne_zero h0)

theorem drawIndex_isOk [Rand R] {len : Nat} (h : len ≠ 0) (r : R) :
    drawIndex len r = .ok ((nextU64 r).1 % len, (nextU64 r).2) := by
  unfold drawIndex
  simp [h]

theorem drawUntil_ok [Rand R] {good : Nat → Bool} {len fuel i : Nat} {r r' : R}
    (h : drawUntil good len fuel r = .ok (i, r')) : i < len ∧ good i = true := by
  induction fuel generalizing r with
  | zero => simp [drawUntil] at h
  | succ f ih =>
    unfold drawUntil at h
    cases hd : drawIndex len r with
    | ok p =>
      obtain ⟨k, r1⟩ := p
      rw [hd] at h
      simp only at h
      by_cases hg : good k = true
      · simp only [hg, if_true, Outcome.ok.injEq, Prod.mk.injEq] at h
        rw [← h.1]
        exact ⟨drawIndex_ok hd, hg⟩
      · simp only [hg] at h
        exact ih h
    | err e => simp [hd] at h
    | panic => simp [hd] at h
    | outOfFuel => simp [hd] at h

theorem drawUntil_cases [Rand R] (good : Nat → Bool) {len : Nat} (hlen : len ≠ 0) (fuel : Nat) (r : R) :
    (∃ i r', drawUntil good len fuel r = .ok (i, r')) ∨ drawUntil good len fuel r = .outOfFuel := by
  induction fuel generalizing r with
  | zero => right; rfl
  | succ f ih =>
    unfold drawUntil
    rw [drawIndex_isOk hlen]
    by_cases hg : good ((nextU64 r).1 % len) = true
    · left; simp [hg]
    · simp only [hg]
      exact ih _

/-- With nothing acceptable the loop never ends. -/
theorem drawUntil_none [Rand R] {good : Nat → Bool} {len : Nat} (hlen : len ≠ 0)
    (h : ∀ i, i < len → good i = false) (fuel : Nat) (r : R) :
    drawUntil good len fuel r = .outOfFuel := by
  rcases drawUntil_cases good hlen fuel r with ⟨i, r', he⟩ | he
  · have := drawUntil_ok he
    rw [h i this.1] at this
    simp at this
  · exact he

theorem chosen_mem [Rand R] {α : Type} {xs : List α} {r : R} {a : α} (h : (choose xs r).1 = some a) :
    a ∈ xs := by
  unfold choose at h
  by_cases he : xs.isEmpty
  · simp [he] at h
  · simp only [he] at h
    exact List.mem_of_getElem? h

theorem chooseOther_ok [Rand R] {ops : List String} {old new : String} {fuel : Nat} {r r' : R}
    (h : chooseOther ops old fuel r = .ok (new, r')) : new ∈ ops ∧ new ≠ old := by
  induction fuel generalizing r with
  | zero => simp [chooseOther] at h
  | succ f ih =>
    unfold chooseOther at h
    cases hc : choose ops r with
    | mk o r1 =>
      cases o with
      | none => simp [hc] at h
      | some o =>
        rw [hc] at h
        simp only at h
        by_cases he : o = old
        · simp only [he, if_true] at h
          exact ih h
        · simp only [he, if_false, Outcome.ok.injEq, Prod.mk.injEq] at h
          have hm : o ∈ ops := chosen_mem (r := r) (by rw [hc])
          exact ⟨h.1 ▸ hm, h.1 ▸ he⟩

theorem choose_exists [Rand R] {α : Type} {xs : List α} (hne : xs ≠ []) (r : R) :
    ∃ a r', choose xs r = (some a, r') := by
  unfold choose
  have he : xs.isEmpty = false := by simp [hne]
  simp only [he]
  have hlt := Rand.below_lt (R := R) xs.length r (List.length_pos_iff.2 hne)
  exact ⟨xs[(Rand.below xs.length r).1], (Rand.below xs.length r).2, by simp [List.getElem?_eq_getElem hlt]⟩

theorem chooseOther_cases [Rand R] {ops : List String} (hne : ops ≠ []) (old : String) (fuel : Nat) (r : R) :
    (∃ new r', chooseOther ops old fuel r = .ok (new, r')) ∨ chooseOther ops old fuel r = .outOfFuel := by
  induction fuel generalizing r with
  | zero => right; rfl
  | succ f ih =>
    unfold chooseOther
    obtain ⟨a, r1, hc⟩ := choose_exists hne r
    rw [hc]
    by_cases he : a = old
    · simp only [he, if_true]; exact ih _
    · left; simp [he]

end Mutagenyx

namespace Mutagenyx
open Json
variable {R : Type}

/-- `set_node_for_key_at_index` on an existing position. -/
theorem setAtIndex_field {k : String} (hk : PlainKey k) {v : Json} {j : Json} (hj : IsObj j)
    {xs : List Json} (hf : field k j = some (.arr xs)) {i : Nat} (hi : i < xs.length) :
    OnlyField k j (setNodeForKeyAtIndex k i v j) ∧
      field k (setNodeForKeyAtIndex k i v j) = some (.arr (xs.set i v)) := by
  have hg : get? k j = some (.arr xs) := by rw [get?_field hk hj, hf]
  have e : setNodeForKeyAtIndex k i v j = setNodeForKey k (.arr (xs.set i v)) j := by
    unfold setNodeForKeyAtIndex setNodeForKey
    simp only [hg, pointerSet_plain hk, hi, if_true, Option.isSome_some, Option.getD_some]
  rw [e]
  refine ⟨onlyField_set hk _ hj, ?_⟩
  rw [field_setNodeForKey hk _ _ hj, if_pos rfl]

theorem uncheckedDraw_ok [Rand R] {fuel i : Nat} {ss rest : List Json} {v : Json} {r r' : R}
    (h : Solidity.uncheckedDraw fuel ss r = .ok (i, v, rest, r')) :
    ss[i]? = some v ∧ rest = ss.eraseIdx i ∧ ¬ IsKind "Return" v ∧ ¬ IsKind "UncheckedBlock" v := by
  induction fuel generalizing r with
  | zero => simp [Solidity.uncheckedDraw] at h
  | succ f ih =>
    unfold Solidity.uncheckedDraw at h
    split at h
    · rename_i k r1 hd
      split at h
      · cases h
      · rename_i w hw
        simp only at h
        split at h
        · have hk : k < ss.length := (List.getElem?_eq_some_iff.1 hw).1
          have e : (ss.eraseIdx k).insertIdx k w = ss := by
            rw [eraseIdx_insertIdx_self _ _ _ hk]
            apply List.ext_getElem?
            intro n
            rw [List.getElem?_set]
            by_cases hn : k = n
            · subst hn; rw [if_pos rfl, if_pos hk, hw]
            · simp [hn]
          rw [e] at h
          exact ih h
        · rename_i hnot
          simp only [Outcome.ok.injEq, Prod.mk.injEq] at h
          obtain ⟨rfl, rfl, rfl, _⟩ := h
          simp only [Bool.or_eq_true, not_or] at hnot
          exact ⟨hw, rfl, fun hc => hnot.1 (solidity_hasType.2 hc), fun hc => hnot.2 (solidity_hasType.2 hc)⟩
    all_goals cases h

end Mutagenyx
