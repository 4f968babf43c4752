import Verif.Proofs.Mutators

/-! # Lemmas about the nodes mutators build, argument groups and number texts -/

namespace Mutagenyx
open Json

variable {R : Type}

/-! ### Built nodes -/

theorem intText_toString (i : Int) : intText i = toString i := by cases i <;> rfl

/-- The last value given for a key. -/
def lastField (k : String) : List (String × Json) → Option Json → Option Json
  | [], d => d
  | (l, v) :: rest, d => lastField k rest (if l = k then some v else d)

theorem field_ofFields (k : String) (kvs : List (String × Json)) :
    field k (Json.ofFields kvs) = lastField k kvs none := by
  have key : ∀ (kvs acc : List (String × Json)),
      objGet k (kvs.foldl (fun acc kv => objInsert kv.1 kv.2 acc) acc) = lastField k kvs (objGet k acc) := by
    intro kvs
    induction kvs with
    | nil => intro acc; rfl
    | cons kv rest ih =>
      intro acc
      rw [List.foldl_cons, ih, objGet_objInsert]
      rfl
  exact key kvs []

theorem isNumberLiteral_mk (i : Int) : IsNumberLiteral i (Solidity.integerConstantNode i) := by
  unfold IsNumberLiteral IsKind TextField Solidity.integerConstantNode
  simp [field_ofFields, lastField, intText_toString]

theorem isBoolLiteral_mk (b : Bool) : IsBoolLiteral b (Solidity.booleanLiteralNode b) := by
  cases b <;> exact ⟨rfl, rfl, rfl, rfl⟩

theorem isNegation_mk (c : Json) :
    IsNegation c (Solidity.unaryOpNode "!" true (Solidity.tupleExpressionNode [c])) := by
  refine ⟨rfl, rfl, rfl, Solidity.tupleExpressionNode [c], rfl, rfl, rfl⟩

theorem isNegation_require (c : Json) : IsNegation c (Solidity.requireNegation c) := by
  unfold IsNegation IsKind TextField Solidity.requireNegation
  refine ⟨by simp [field_ofFields, lastField], by simp [field_ofFields, lastField],
    by simp [field_ofFields, lastField], _, by simp only [field_ofFields]; rfl, ?_, ?_⟩ <;>
  simp [field_ofFields, lastField]

theorem isVyperBool_mk (b : Bool) : IsVyperBool b (Vyper.booleanConstantNode b) := by
  cases b <;> exact ⟨rfl, rfl⟩

theorem isVyperNegation_mk (c : Json) : IsVyperNegation c (Vyper.unaryOpNode "Not" c) := by
  refine ⟨rfl, rfl, _, rfl, rfl⟩

theorem ofFields_isObj (kvs : List (String × Json)) : IsObj (Json.ofFields kvs) := trivial

theorem commentNodeFromNode_spec (v : Json) :
    IsKind "Comment" (Solidity.commentNodeFromNode v) ∧
      (Solidity.commentNodeFromNode v).field "value" = some v := ⟨rfl, rfl⟩

theorem vyper_commentNodeFromNode_spec (v : Json) :
    IsVyperKind "Comment" (Vyper.commentNodeFromNode v) ∧
      (Vyper.commentNodeFromNode v).field "value" = some v := ⟨rfl, rfl⟩

theorem uncheckedBlockNode_spec (v : Json) (n : Nat) :
    IsKind "UncheckedBlock" (Solidity.uncheckedBlockNode [v] n) ∧
      (Solidity.uncheckedBlockNode [v] n).field "statements" = some (.arr [v]) := ⟨rfl, rfl⟩

/-! ### Groups of arguments -/

/-- Every group holds arguments of its type with increasing indexes below `n`. -/
def GroupsOk (args : List Json) (n : Nat) (acc : List (String × List (Nat × Json))) : Prop :=
  ∀ g ∈ acc, (∀ p ∈ g.2, p.1 < n ∧ args[p.1]? = some p.2 ∧ Solidity.argumentType p.2 = some g.1) ∧
    g.2.Pairwise (fun p q => p.1 < q.1)

theorem addToGroup_ok {args : List Json} {n : Nat} {a : Json} {s : String}
    (ha : args[n]? = some a) (hs : Solidity.argumentType a = some s)
    (acc : List (String × List (Nat × Json))) (h : GroupsOk args n acc) :
    GroupsOk args (n + 1) (Solidity.addToGroup s (n, a) acc) := by
  induction acc with
  | nil =>
    intro g hg
    simp only [Solidity.addToGroup, List.mem_singleton] at hg
    subst hg
    simp [ha, hs]
  | cons x rest ih =>
    obtain ⟨k, xs⟩ := x
    have hx := h (k, xs) (by simp)
    have hr : GroupsOk args n rest := fun g hg => h g (by simp [hg])
    have mono : ∀ g : String × List (Nat × Json),
        ((∀ p ∈ g.2, p.1 < n ∧ args[p.1]? = some p.2 ∧ Solidity.argumentType p.2 = some g.1) ∧
          g.2.Pairwise (fun p q => p.1 < q.1)) →
        ((∀ p ∈ g.2, p.1 < n + 1 ∧ args[p.1]? = some p.2 ∧ Solidity.argumentType p.2 = some g.1) ∧
          g.2.Pairwise (fun p q => p.1 < q.1)) :=
      fun g hg => ⟨fun p hp => ⟨Nat.lt_succ_of_lt (hg.1 p hp).1, (hg.1 p hp).2⟩, hg.2⟩
    intro g hg
    simp only [Solidity.addToGroup] at hg
    by_cases hk : k = s
    · simp only [hk, if_true, List.mem_cons] at hg
      rcases hg with rfl | hg
      · refine ⟨fun p hp => ?_, ?_⟩
        · simp only [List.mem_append, List.mem_singleton] at hp
          rcases hp with hp | rfl
          · exact hk ▸ (mono _ hx).1 p hp
          · exact ⟨Nat.lt_succ_self n, ha, hs⟩
        · refine List.pairwise_append.2 ⟨hx.2, by simp, fun p hp q hq => ?_⟩
          simp only [List.mem_singleton] at hq
          subst hq
          exact (hx.1 p hp).1
      · exact mono g (hr g hg)
    · simp only [hk, if_false, List.mem_cons] at hg
      rcases hg with rfl | hg
      · exact mono _ hx
      · exact ih hr g hg

theorem groupArguments_ok (pre rest : List Json) (acc : List (String × List (Nat × Json)))
    (h : GroupsOk (pre ++ rest) pre.length acc) :
    GroupsOk (pre ++ rest) (pre ++ rest).length (Solidity.groupArguments rest pre.length acc) := by
  induction rest generalizing pre acc with
  | nil => simpa [Solidity.groupArguments] using h
  | cons a rest ih =>
    have e : pre ++ a :: rest = (pre ++ [a]) ++ rest := by simp
    have e2 : pre.length + 1 = (pre ++ [a]).length := by simp
    have ha : (pre ++ a :: rest)[pre.length]? = some a := by simp
    simp only [Solidity.groupArguments]
    have step : GroupsOk (pre ++ a :: rest) (pre.length + 1)
        (match Solidity.argumentType a with
          | some s => Solidity.addToGroup s (pre.length, a) acc
          | none => acc) := by
      cases hs : Solidity.argumentType a with
      | some s => exact addToGroup_ok ha hs acc h
      | none => exact fun g hg => ⟨fun p hp => ⟨Nat.lt_succ_of_lt ((h g hg).1 p hp).1, ((h g hg).1 p hp).2⟩,
          (h g hg).2⟩
    rw [e2] at step ⊢
    have := ih (pre ++ [a]) _ (by rw [← e]; exact step)
    rw [← e] at this
    exact this

/-- The first two members of a group are two arguments of the same type at different positions. -/
theorem group_pair {args : List Json} {s : String} {p q : Nat × Json} {more : List (Nat × Json)}
    (h : (s, p :: q :: more) ∈ Solidity.groupArguments args 0 []) :
    p.1 < q.1 ∧ args[p.1]? = some p.2 ∧ args[q.1]? = some q.2 ∧
      Solidity.argumentType p.2 = some s ∧ Solidity.argumentType q.2 = some s := by
  have := groupArguments_ok [] args [] (fun g hg => by simp at hg) _ h
  refine ⟨?_, (this.1 p (by simp)).2.1, (this.1 q (by simp)).2.1, (this.1 p (by simp)).2.2,
    (this.1 q (by simp)).2.2⟩
  have h2 := this.2
  simp only [List.pairwise_cons] at h2
  exact h2.1 q (by simp)

theorem argumentType_iff {v : Json} {s : String} :
    Solidity.argumentType v = some s ↔ HasTypeText s v := by
  unfold Solidity.argumentType Solidity.typeString HasTypeText
  rw [field?_eq_field]
  constructor
  · intro h
    cases hf : field "typeDescriptions" v with
    | none => simp [hf] at h
    | some td =>
      rw [hf] at h
      exact ⟨td, rfl, getStr_text (by decide) (by decide) h⟩
  · rintro ⟨td, h1, h2⟩
    rw [h1]
    exact getStr_of_text (by decide) h2

/-- The exchange as the argument swap writes it. -/
theorem exchanged_reinsert {xs : List Json} {i k : Nat} {a b : Json} (hik : i < k)
    (ha : xs[i]? = some a) (hb : xs[k]? = some b) :
    Exchanged i k xs ((((xs.eraseIdx i).insertIdx i b).eraseIdx k).insertIdx k a) := by
  have hi : i < xs.length := (List.getElem?_eq_some_iff.1 ha).1
  have hk : k < xs.length := (List.getElem?_eq_some_iff.1 hb).1
  rw [eraseIdx_insertIdx_self _ _ _ hi, eraseIdx_insertIdx_self _ _ _ (by simpa using hk)]
  refine ⟨by omega, hi, hk, by simp, ?_, ?_, fun m h1 h2 => ?_⟩
  · rw [List.getElem?_set, if_neg (by omega), List.getElem?_set, if_pos rfl, if_pos hi, hb]
  · rw [List.getElem?_set, if_pos rfl, if_pos (by simpa using hk), ha]
  · rw [List.getElem?_set, if_neg (Ne.symm h2), List.getElem?_set, if_neg (Ne.symm h1)]

/-- Two arguments of one type make a group of at least two. -/
def groupFor (s : String) (acc : List (String × List (Nat × Json))) : List (Nat × Json) :=
  (acc.lookup s).getD []

theorem groupFor_add (s s' : String) (x : Nat × Json) (acc : List (String × List (Nat × Json))) :
    groupFor s' (Solidity.addToGroup s x acc) =
      if s' = s then groupFor s' acc ++ [x] else groupFor s' acc := by
  induction acc with
  | nil =>
    simp only [Solidity.addToGroup, groupFor, List.lookup]
    by_cases h : s' = s
    · simp [h]
    · simp [h, beq_false_of_ne h]
  | cons y rest ih =>
    obtain ⟨k, xs⟩ := y
    simp only [Solidity.addToGroup]
    by_cases hk : k = s
    · subst hk
      simp only [if_true, groupFor, List.lookup]
      by_cases h : s' = k
      · simp [h]
      · simp [h, beq_false_of_ne h]
    · simp only [hk, if_false, groupFor, List.lookup]
      by_cases h : s' = k
      · subst h
        simp [hk]
      · simp only [beq_false_of_ne h]
        exact ih

theorem groupFor_length (args : List Json) (i : Nat) (acc : List (String × List (Nat × Json))) (s : String) :
    (groupFor s (Solidity.groupArguments args i acc)).length =
      (groupFor s acc).length + (args.filterMap Solidity.argumentType).count s := by
  induction args generalizing i acc with
  | nil => simp [Solidity.groupArguments]
  | cons a rest ih =>
    simp only [Solidity.groupArguments]
    rw [ih]
    cases ha : Solidity.argumentType a with
    | none => simp [ha]
    | some t =>
      rw [List.filterMap_cons_some ha, List.count_cons]
      simp only [groupFor_add]
      by_cases h : s = t
      · subst h
        simp
        omega
      · simp [h, Ne.symm h]

theorem mem_of_groupFor {s : String} {acc : List (String × List (Nat × Json))}
    (h : 0 < (groupFor s acc).length) : (s, groupFor s acc) ∈ acc := by
  induction acc with
  | nil => simp [groupFor] at h
  | cons y rest ih =>
    obtain ⟨k, xs⟩ := y
    by_cases hk : s = k
    · subst hk
      simp [groupFor, List.lookup]
    · have e : groupFor s ((k, xs) :: rest) = groupFor s rest := by
        simp [groupFor, List.lookup, beq_false_of_ne hk]
      rw [e] at h ⊢
      exact List.mem_cons_of_mem _ (ih h)

/-! ### Decimal texts -/

theorem digitVal_of_isDigit {c : Char} (h : c.isDigit = true) :
    digitVal c = some (c.toNat - '0'.toNat) := by
  unfold digitVal
  simp only [Char.isDigit, Bool.and_eq_true, decide_eq_true_eq] at h
  exact if_pos h

theorem digitsVal_eq (cs : List Char) (hd : ∀ c ∈ cs, c.isDigit = true) (acc : Nat) :
    digitsVal cs acc = some (Nat.ofDigitChars 10 cs acc) := by
  induction cs generalizing acc with
  | nil => rfl
  | cons c cs ih =>
    rw [digitsVal, digitVal_of_isDigit (hd c (by simp))]
    simp only [Nat.ofDigitChars_cons]
    rw [ih (fun c' h => hd c' (by simp [h])), Nat.mul_comm acc 10]

theorem parseDigits_repr (n : Nat) : parseDigits (Nat.repr n).toList = some n := by
  have h0 : (Nat.repr n).toList = Nat.toDigits 10 n := by
    simp [Nat.repr, String.toList_ofList]
  rw [h0]
  unfold parseDigits
  cases hd : Nat.toDigits 10 n with
  | nil => exact absurd hd Nat.toDigits_ne_nil
  | cons c cs =>
    simp only
    rw [← hd, digitsVal_eq _ (fun c hc => Nat.isDigit_of_mem_toDigits (by decide) (by decide) hc)]
    rw [Nat.ofDigitChars_ten_toDigits]

/-- The text of a number has no sign. -/
theorem repr_head (n : Nat) : ∃ c cs, (Nat.repr n).toList = c :: cs ∧ c.isDigit = true := by
  have h0 : (Nat.repr n).toList = Nat.toDigits 10 n := by
    simp [Nat.repr, String.toList_ofList]
  rw [h0]
  cases hd : Nat.toDigits 10 n with
  | nil => exact absurd hd Nat.toDigits_ne_nil
  | cons c cs =>
    exact ⟨c, cs, rfl, Nat.isDigit_of_mem_toDigits (b := 10) (n := n) (by decide) (by decide) (by rw [hd]; simp)⟩

theorem parseU32_repr (n : Nat) : parseU32 (Nat.repr n) = if n < 2 ^ 32 then some n else none := by
  obtain ⟨c, cs, h1, h2⟩ := repr_head n
  have h3 := parseDigits_repr n
  have fin : ∀ o : Option Nat, o = some n →
      o.filter (fun x => decide (x < 2 ^ 32)) = if n < 2 ^ 32 then some n else none := by
    rintro o rfl
    rw [Option.filter_some]
    by_cases h : n < 2 ^ 32
    · rw [if_pos h, if_pos (by simpa using h)]
    · rw [if_neg h, if_neg (by simpa using h)]
  unfold parseU32
  apply fin
  rw [h1] at h3 ⊢
  have hc : c ≠ '+' := by rintro rfl; simp at h2
  split
  · rename_i heq
    simp only [List.cons.injEq] at heq
    exact absurd heq.1 hc
  · exact h3

/-- The parts of a type text. -/
theorem int_text (n : Nat) : takeBytes 3 ("int" ++ toString n) = some "int" ∧
    dropBytes 3 ("int" ++ toString n) = some (Nat.repr n) := by
  have h : ("int" ++ toString n).toList = 'i' :: 'n' :: 't' :: (Nat.repr n).toList := by
    rw [String.toList_append]; rfl
  unfold takeBytes dropBytes
  rw [h]
  have : splitAtByte ('i' :: 'n' :: 't' :: (Nat.repr n).toList) 3 =
      some (['i', 'n', 't'], (Nat.repr n).toList) := by
    cases (Nat.repr n).toList <;> rfl
  rw [this]
  exact ⟨rfl, by rw [Option.map_some, String.ofList_toList]⟩

theorem uint_text (n : Nat) : takeBytes 3 ("uint" ++ toString n) = some "uin" ∧
    dropBytes 4 ("uint" ++ toString n) = some (Nat.repr n) := by
  have h : ("uint" ++ toString n).toList = 'u' :: 'i' :: 'n' :: 't' :: (Nat.repr n).toList := by
    rw [String.toList_append]; rfl
  unfold takeBytes dropBytes
  rw [h]
  have h3 : splitAtByte ('u' :: 'i' :: 'n' :: 't' :: (Nat.repr n).toList) 3 =
      some (['u', 'i', 'n'], 't' :: (Nat.repr n).toList) := by
    rfl
  have h4 : splitAtByte ('u' :: 'i' :: 'n' :: 't' :: (Nat.repr n).toList) 4 =
      some (['u', 'i', 'n', 't'], (Nat.repr n).toList) := by
    cases (Nat.repr n).toList <;> rfl
  rw [h3, h4]
  exact ⟨rfl, by rw [Option.map_some, String.ofList_toList]⟩

theorem parseI64_toString {i : Int} (h1 : -(2 ^ 63 : Int) ≤ i) (h2 : i < 2 ^ 63) :
    parseI64 (toString i) = some i := by
  have fin : ∀ o : Option Int, o = some i →
      o.filter (fun i => decide (-(2 ^ 63 : Int) ≤ i ∧ i < 2 ^ 63)) = some i := by
    rintro o rfl
    rw [Option.filter_some, if_pos (by simp only [decide_eq_true_eq]; exact ⟨h1, h2⟩)]
  unfold parseI64
  apply fin
  rw [← intText_toString]
  cases i with
  | ofNat n =>
    simp only [intText]
    obtain ⟨c, cs, e1, e2⟩ := repr_head n
    have h3 := parseDigits_repr n
    rw [e1] at h3 ⊢
    have hc : c ≠ '+' := by rintro rfl; simp at e2
    have hc' : c ≠ '-' := by rintro rfl; simp at e2
    split
    · rename_i heq
      simp only [List.cons.injEq] at heq
      exact absurd heq.1 hc
    · rename_i heq
      simp only [List.cons.injEq] at heq
      exact absurd heq.1 hc'
    · rw [h3]; rfl
  | negSucc n =>
    simp only [intText, String.toList_append]
    show (parseDigits (Nat.repr (n + 1)).toList).map _ = _
    rw [parseDigits_repr]
    rfl

end Mutagenyx

namespace Mutagenyx
open Json

/-- The result of a step in `i64`. -/
theorem addI64_spec {checks : Bool} {i d k : Int} (hd : d = 1 ∨ d = -1)
    (h1 : -(2 ^ 63 : Int) ≤ i) (h2 : i < 2 ^ 63) (h : addI64 checks i d = some k) :
    (-(2 ^ 63 : Int) ≤ k ∧ k < 2 ^ 63) ∧ k ≠ i ∧
      ((k = i + 1 ∨ k = i - 1) ∨ (checks = false ∧
        ((i = 2 ^ 63 - 1 ∧ k = -(2 ^ 63)) ∨ (i = -(2 ^ 63) ∧ k = 2 ^ 63 - 1)))) := by
  unfold addI64 at h
  simp only at h
  split at h
  · rename_i hr
    injection h with h
    subst h
    refine ⟨hr, by omega, Or.inl (by omega)⟩
  · rename_i hr
    cases checks with
    | true => simp at h
    | false =>
      simp only [Bool.false_eq_true, if_false] at h
      injection h with h
      split at h
      · refine ⟨by omega, by omega, Or.inr ⟨rfl, by omega⟩⟩
      · refine ⟨by omega, by omega, Or.inr ⟨rfl, by omega⟩⟩

theorem parseI64_range {s : String} {i : Int} (h : parseI64 s = some i) :
    -(2 ^ 63 : Int) ≤ i ∧ i < 2 ^ 63 := by
  unfold parseI64 at h
  have := Option.filter_eq_some_iff.1 h
  simpa using this.2

theorem integerStep_spec {env : MutEnv} {d : Int} {old new : String} (hd : d = 1 ∨ d = -1)
    (h : Solidity.integerStep env d old = some new) :
    ∃ i k : Int, parseI64 old = some i ∧ parseI64 new = some k ∧ new = toString k ∧ new ≠ old ∧
      ((k = i + 1 ∨ k = i - 1) ∨ (env.overflowChecks = false ∧
        ((i = 2 ^ 63 - 1 ∧ k = -(2 ^ 63)) ∨ (i = -(2 ^ 63) ∧ k = 2 ^ 63 - 1)))) := by
  unfold Solidity.integerStep at h
  cases hp : parseI64 old with
  | none => simp [hp] at h
  | some i =>
    rw [hp] at h
    simp only [Option.bind_some] at h
    cases ha : addI64 env.overflowChecks i d with
    | none => simp [ha] at h
    | some k =>
      rw [ha] at h
      simp only [Option.map_some, Option.some.injEq] at h
      obtain ⟨hr1, hr2⟩ := parseI64_range hp
      obtain ⟨⟨hk1, hk2⟩, hne, hc⟩ := addI64_spec hd hr1 hr2 ha
      have hnew : parseI64 new = some k := by
        rw [← h, intText_toString]
        exact parseI64_toString hk1 hk2
      refine ⟨i, k, rfl, hnew, by rw [← h, intText_toString], ?_, hc⟩
      rintro rfl
      rw [hp] at hnew
      exact hne (Option.some.inj hnew).symm

variable {R : Type} [Rand R]

/-- The literal generated for a `uint` type. -/
theorem assignmentValue_uint {n : Nat} {r r' : R} {o : Option Json} {ps : List HashPart}
    (h : Solidity.assignmentValue ("uint" ++ toString n) r = .ok (o, ps, r')) :
    ∃ v : Int, o = some (Solidity.integerConstantNode v) ∧ 0 ≤ v ∧ v < 2 ^ n := by
  unfold Solidity.assignmentValue at h
  rw [(uint_text n).1] at h
  simp only [show ("uin" : String) ≠ "int" by decide, if_false, if_true, (uint_text n).2, Option.bind_some,
    parseU32_repr] at h
  by_cases hn : n < 2 ^ 32
  · simp only [hn, if_true] at h
    split at h
    · rename_i v r1 hg
      simp only [Outcome.ok.injEq, Prod.mk.injEq] at h
      refine ⟨v, h.1.symm, (genRange_ok hg).1, ?_⟩
      have h2 := (genRange_ok hg).2
      by_cases h128 : n > 128
      · simp only [h128, if_true, Nat.lt_irrefl, if_false] at h2
        have : (2 : Int) ^ 128 ≤ 2 ^ n := by
          exact_mod_cast Nat.pow_le_pow_right (by decide) (by omega)
        have e : (2 : Int) ^ 128 = 340282366920938463463374607431768211456 := by decide
        omega
      · simp only [h128, if_false] at h2
        by_cases hlt : n < 128
        · simp only [hlt, if_true] at h2
          omega
        · have he : n = 128 := by omega
          subst he
          simp only [Nat.lt_irrefl, if_false] at h2
          have e : (2 : Int) ^ 128 = 340282366920938463463374607431768211456 := by decide
          omega
    all_goals cases h
  · simp [hn] at h

/-- The literal generated for an `int` type. -/
theorem assignmentValue_int {n : Nat} {r r' : R} {o : Option Json} {ps : List HashPart}
    (h : Solidity.assignmentValue ("int" ++ toString n) r = .ok (o, ps, r')) :
    ∃ v : Int, o = some (Solidity.integerConstantNode v) ∧ -(2 ^ (n - 1)) ≤ v ∧ v < 2 ^ (n - 1) := by
  unfold Solidity.assignmentValue at h
  rw [(int_text n).1] at h
  simp only [if_true, (int_text n).2, Option.bind_some, parseU32_repr] at h
  by_cases hn : n < 2 ^ 32
  · simp only [hn, if_true] at h
    by_cases h128 : n > 128
    · simp [h128] at h
    · simp only [h128, if_false] at h
      by_cases hz : n = 0 ∨ n = 128
      · simp [hz] at h
      · simp only [hz, if_false] at h
        split at h
        · rename_i v r1 hg
          simp only [Outcome.ok.injEq, Prod.mk.injEq] at h
          exact ⟨v, h.1.symm, (genRange_ok hg).1, (genRange_ok hg).2⟩
        all_goals cases h
  · simp [hn] at h

/-- The literal generated for `bool`. -/
theorem assignmentValue_bool {r r' : R} {o : Option Json} {ps : List HashPart}
    (h : Solidity.assignmentValue "bool" r = .ok (o, ps, r')) :
    ∃ b, o = some (Solidity.booleanLiteralNode b) := by
  unfold Solidity.assignmentValue at h
  have e : takeBytes 3 "bool" = some "boo" := by decide
  rw [e] at h
  simp only [show ("boo" : String) ≠ "int" by decide, show ("boo" : String) ≠ "uin" by decide, if_false,
    if_true] at h
  split at h
  · simp only [Outcome.ok.injEq, Prod.mk.injEq] at h
    exact ⟨_, h.1.symm⟩
  all_goals cases h

end Mutagenyx
