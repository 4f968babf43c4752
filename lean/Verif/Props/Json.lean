import Verif.Proofs.Json

/-!
# C24, C25: JSON access by key and by node id
-/

namespace Mutagenyx
open Json

/-- **C24**, get after set: on an object, after setting a plain key, that key reads as the new value and
every other plain key reads as before. -/
theorem C24_get_after_set {k k' : String} (hk : PlainKey k) (hk' : PlainKey k') (v : Json) {j : Json}
    (hj : IsObj j) :
    IsObj (setNodeForKey k v j) ∧
    get? k' (setNodeForKey k v j) = if k = k' then some v else get? k' j :=
  ⟨setNodeForKey_isObj hk v hj, get?_setNodeForKey hk hk' v hj⟩

/-- **C24**: reading a plain key of an object is looking the key up among its fields. -/
theorem C24_get_is_lookup {k : String} (hk : PlainKey k) {j : Json} (hj : IsObj j) :
    get? k j = field k j := get?_field hk hj

/-- **C24**, take: taking a key returns the value that reading would return, leaves `null` in its place
and changes no other key. -/
theorem C24_take {k k' : String} (hk : PlainKey k) (hk' : PlainKey k') {j : Json} (hj : IsObj j) :
    (takeValueForKey k j).1 = get? k j ∧
    get? k' (takeValueForKey k j).2 =
      if k = k' ∧ (get? k j).isSome then some .null else get? k' j :=
  ⟨takeValueForKey_fst k j, get?_take hk hk' hj⟩

/-- **C24**: setting or taking a key changes nothing on a value that has no members (neither object nor
array), and for a key that is no array index nothing on an array either. -/
theorem C24_no_effect_on_others {k : String} (hk : PlainKey k) (v : Json) {j : Json} (hj : ¬ IsObj j)
    (hi : parseIndex k = none ∨ ∀ xs, j ≠ .arr xs) :
    get? k j = none ∧ setNodeForKey k v j = j ∧ (takeValueForKey k j).2 = j := by
  have h : get? k j = none := by
    rw [get?_plain hk]
    cases j with
    | obj _ => exact absurd trivial hj
    | arr xs => rcases hi with hi | hi
                · simp [step, hi]
                · exact absurd rfl (hi xs)
    | _ => rfl
  refine ⟨h, ?_, ?_⟩
  · unfold setNodeForKey
    rw [pointerSet_plain hk, h]
    cases j with
    | obj _ => exact absurd trivial hj
    | _ => rfl
  · rw [takeValueForKey_snd hk, h]; rfl

/-- **C24**: the keys of all objects stay sorted and unique. -/
theorem C24_wellformed {k : String} (hk : PlainKey k) {v j : Json} (hv : WF v) (hj : WF j) :
    WF (setNodeForKey k v j) ∧ WF (takeValueForKey k j).2 ∧ ∀ w, get? k j = some w → WF w := by
  refine ⟨wf_setNodeForKey hk hv hj, ?_, ?_⟩
  · rw [takeValueForKey_snd hk]
    split
    · exact wf_stepSet trivial hj
    · exact hj
  · intro w hw; rw [get?_plain hk] at hw; exact wf_step hj hw

/-- **C24**, what the proviso excludes: on an array, a key that reads as an index addresses an element,
and setting it replaces the element. -/
theorem C24_array_index_key (v a b : Json) : setNodeForKey "1" v (.arr [a, b]) = .arr [a, v] := rfl

/-- The hypotheses of the C24 theorems hold for the tool's keys on an ordinary node. -/
example : PlainKey "nodeType" ∧ PlainKey "trueBody" ∧ PlainKey "ast_type" ∧
    parseIndex "nodeType" = none ∧ IsObj (.obj [("id", .num (.int 3)), ("nodeType", .str "Block")]) ∧
    WF (.obj [("id", .num (.int 3)), ("nodeType", .str "Block")]) := by
  refine ⟨by decide, by decide, by decide, by decide, trivial, by decide⟩

/-- **C24**, typed reading: on an object, the accessor of a type gives the value that is stored for the plain key if it has that type,
and nothing otherwise; a key is reported to be present iff a value is stored for it. -/
theorem C24_typed {k : String} (hk : PlainKey k) {j : Json} (hj : IsObj j) :
    (∀ xs, getArrayForKey k j = some xs ↔ field k j = some (.arr xs)) ∧
    (∀ kvs, getMapForKey k j = some kvs ↔ field k j = some (.obj kvs)) ∧
    (∀ s, getStrForKey k j = some s ↔ field k j = some (.str s)) ∧
    (∀ b, getBoolForKey k j = some b ↔ field k j = some (.bool b)) ∧
    (∀ i, getIntForKey k j = some i ↔ field k j = some (.num (.int i)) ∧ -9223372036854775808 ≤ i ∧ i ≤ 9223372036854775807) ∧
    (hasValueForKey k j = true ↔ ∃ v, field k j = some v) ∧ (containsKey k j = true ↔ ∃ v, field k j = some v) := by
  have hc : containsKey k j = (field k j).isSome := by
    cases j <;> first | exact hj.elim | rfl
  rw [hc]
  simp only [getArrayForKey, getMapForKey, getStrForKey, getBoolForKey, getIntForKey, hasValueForKey, get?_field hk hj]
  cases h : field k j with
  | none => simp
  | some v =>
    cases v with
    | num n =>
      cases n with
      | int i =>
        simp only [Option.bind_some, asArray, asObj, asStr, asBool, asI64, Option.some.injEq, Json.num.injEq, JNum.int.injEq, reduceCtorEq,
          implies_true, true_and, Option.isSome_some, exists_eq', and_true]
        intro i'
        split <;> simp only [Option.some.injEq, reduceCtorEq, false_iff] <;> omega
      | _ => simp [asArray, asObj, asStr, asBool, asI64]
    | _ => simp [asArray, asObj, asStr, asBool, asI64]

example : getIntForKey "a" (.obj [("a", .num (.int 9223372036854775807))]) = some 9223372036854775807 ∧
    getIntForKey "a" (.obj [("a", .num (.int 9223372036854775808))]) = none ∧
    getStrForKey "a" (.obj [("a", .bool true)]) = none := by decide

/-- **C24**, elements of stored arrays: setting an element for a plain key replaces just that element of the array stored there; if
there is none, or what is stored is no array, nothing changes. -/
theorem C24_element {k k' : String} (hk : PlainKey k) (hk' : PlainKey k') (i : Nat) (v : Json) {j : Json} (hj : IsObj j) :
    get? k' (setNodeForKeyAtIndex k i v j) =
      if k = k' then (match field k j with | some (.arr xs) => some (.arr (xs.set i v)) | w => w) else get? k' j := by
  have hs : ∀ xs, field k j = some (.arr xs) →
      (pointerSet (jsonPath k) (.arr (xs.set i v)) j).getD j = setNodeForKey k (.arr (xs.set i v)) j := by
    intro xs h
    unfold setNodeForKey
    rw [pointerSet_plain hk, get?_field hk hj, h]
    rfl
  unfold setNodeForKeyAtIndex
  rw [get?_field hk hj]
  cases h : field k j with
  | none =>
    by_cases e : k = k'
    · subst e; simp [get?_field hk hj, h]
    · simp [e]
  | some w =>
    have same : get? k' j = if k = k' then some w else get? k' j := by
      by_cases e : k = k'
      · subst e; simp [get?_field hk hj, h]
      · simp [e]
    cases w with
    | arr xs =>
      simp only
      by_cases hi : i < xs.length
      · rw [if_pos hi, hs xs h, get?_setNodeForKey hk hk' _ hj]
      · rw [if_neg hi, List.set_eq_of_length_le (by omega), same]
        by_cases e : k = k' <;> simp [e]
    | _ => simpa using same

example : setNodeForKeyAtIndex "a" 1 .null (.obj [("a", .arr [.bool true, .bool false])]) = .obj [("a", .arr [.bool true, .null])] := by
  decide

/-- **C25.** Looking a node up by id gives the first node in document order that has the id, and nothing
iff no node has it. -/
theorem C25_find_first (idOf : Json → Option Nat) (id : Nat) (j : Json) :
    getNodeWithId idOf id j = (preorder j).find? (fun n => idOf n = some id) :=
  getNodeWithId_find idOf id j

/-- **C25**: no node is found iff no node of the tree has the id. -/
theorem C25_found_iff (idOf : Json → Option Nat) (id : Nat) (j : Json) :
    (∃ n, getNodeWithId idOf id j = some n) ↔ ∃ p n, nodeAt p j = some n ∧ idOf n = some id := by
  rw [getNodeWithId_find, ← Option.isSome_iff_exists, List.find?_isSome]
  have hmap := positions_map_nodeAt j
  constructor
  · rintro ⟨n, hn, hid⟩
    have : some n ∈ (preorder j).map some := List.mem_map.2 ⟨n, hn, rfl⟩
    rw [← hmap] at this
    obtain ⟨p, hp, hpn⟩ := List.mem_map.1 this
    exact ⟨p, n, hpn, by simpa using hid⟩
  · rintro ⟨p, n, hpn, hid⟩
    have hp : p ∈ positions j := mem_positions.2 (by rw [hpn]; rfl)
    have : some n ∈ (preorder j).map some := by rw [← hmap]; exact List.mem_map.2 ⟨p, hp, hpn⟩
    obtain ⟨n', hn', e⟩ := List.mem_map.1 this
    cases e
    exact ⟨n, hn', by simpa using hid⟩

/-- **C25**, mutable form: a write through the found reference replaces the first node in document order
with that id, at its position, and changes nothing else; there is none iff no node has the id. -/
theorem C25_modify_first (idOf : Json → Option Nat) (id : Nat) (f : Json → Json) (j : Json) :
    (∃ pre p n post, positions j = pre ++ p :: post ∧ nodeAt p j = some n ∧ idOf n = some id ∧
      (∀ q ∈ pre, ∀ m, nodeAt q j = some m → idOf m ≠ some id) ∧
      modifyNodeWithId idOf id f j = some (replaceAt p (f n) j)) ∨
    ((∀ q m, nodeAt q j = some m → idOf m ≠ some id) ∧ modifyNodeWithId idOf id f j = none) := by
  rw [modifyNodeWithId_spec]
  cases hf : (positions j).find? (fun p => (nodeAt p j).any (fun n => idOf n = some id)) with
  | some p =>
    left
    obtain ⟨hp, pre, post, heq, hpre⟩ := List.find?_eq_some_iff_append.1 hf
    obtain ⟨n, hn, hid⟩ := (Option.any_eq_true ..).1 hp
    refine ⟨pre, p, n, post, heq, hn, by simpa using hid, ?_, ?_⟩
    · intro q hq m hm hid
      have := hpre q hq
      simp [hm, hid] at this
    · simp [hn]
  | none =>
    right
    refine ⟨?_, rfl⟩
    intro q m hm hid
    have := List.find?_eq_none.1 hf q (mem_positions.2 (by rw [hm]; rfl))
    simp [hm, hid] at this

/-- Two nodes share an id; the first in document order is found. -/
example :
    let n (i : Int) (x : String) : Json := .obj [("id", .num (.int i)), ("x", .str x)]
    getNodeWithId (fun j => (j.getIntForKey "id").map Int.toNat) 7 (.arr [n 1 "a", .arr [n 7 "b"], n 7 "c"]) =
      some (n 7 "b") := by decide

end Mutagenyx
