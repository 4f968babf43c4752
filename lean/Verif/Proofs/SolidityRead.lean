import Verif.Spec.SolidityRead
import Verif.Proofs.SolidityGrammar

/-!
# Reading the tokens of types, declarations and lists gives them
-/

namespace Mutagenyx
namespace SolGrammar

/-! ### First tokens -/

/-- The first token, if there is one, has the property. -/
def Heads (P : String → Prop) (ts : List String) : Prop := ∀ t us, ts = t :: us → P t

theorem heads_nil {P : String → Prop} : Heads P [] := fun _ _ h => by cases h

theorem heads_cons {P : String → Prop} {t : String} {ts : List String} (h : P t) : Heads P (t :: ts) := fun _ _ h' => by
  cases h'; exact h

theorem heads_append {P : String → Prop} {ts us : List String} (h : Heads P ts) (h' : Heads P us) : Heads P (ts ++ us) := by
  cases ts with
  | nil => exact h'
  | cons t ts => exact heads_cons (h t ts rfl)

theorem heads_left {P : String → Prop} {ts us : List String} (h : Heads P ts) (hne : ts ≠ []) : Heads P (ts ++ us) := by
  cases ts with
  | nil => exact absurd rfl hne
  | cons t ts => exact heads_cons (h t ts rfl)

theorem Heads.imp {P Q : String → Prop} {ts : List String} (h : Heads P ts) (hpq : ∀ t, P t → Q t) : Heads Q ts :=
  fun t us ht => hpq t (h t us ht)

theorem heads_flag {P : String → Prop} {b : Bool} {t : String} (h : P t) : Heads P (flag b t) := by
  cases b
  · exact heads_nil
  · exact heads_cons h

theorem heads_toList {P : String → Prop} {o : Option String} (h : ∀ t, o = some t → P t) : Heads P o.toList := by
  cases o
  · exact heads_nil
  · exact heads_cons (h _ rfl)

theorem heads_value {P : String → Prop} {o : Option Expr} (h : P "=") : Heads P (valueToks o) := by
  cases o
  · exact heads_nil
  · exact heads_cons h

theorem Heads.head_ne {t : String} {ts : List String} (h : Heads (· ≠ t) ts) : ts.head? ≠ some t := by
  cases ts with
  | nil => simp
  | cons u us => simpa using h u us rfl

/-! ### Single tokens -/

@[simp] theorem expect_cons (t : String) (ts : List String) : expect t (t :: ts) = some ts := by simp [expect]

theorem accept_flag {b : Bool} {t : String} {rest : List String} (h : Heads (· ≠ t) rest) :
    accept t (flag b t ++ rest) = (b, rest) := by
  cases b
  · cases rest with
    | nil => rfl
    | cons u us => simp [flag, accept, h u us rfl]
  · simp [flag, accept]

theorem oneOf_toList {o : Option String} {ws : List String} {rest : List String} (ho : ∀ t, o = some t → t ∈ ws)
    (h : Heads (· ∉ ws) rest) : oneOf ws (o.toList ++ rest) = (o, rest) := by
  cases o with
  | none =>
    cases rest with
    | nil => rfl
    | cons u us => simp [oneOf, h u us rfl]
  | some t => simp [oneOf, ho t rfl]

theorem optName_toList {o : Option String} {rest : List String} (ho : ∀ t, o = some t → FreeName t)
    (h : Heads (fun t => ¬ FreeName t) rest) : optName (o.toList ++ rest) = (o, rest) := by
  cases o with
  | none =>
    cases rest with
    | nil => rfl
    | cons u us =>
      have := h u us rfl
      unfold FreeName at this
      simp only [Option.toList_none, List.nil_append, optName, if_neg this]
  | some t =>
    have := ho t rfl
    unfold FreeName at this
    simp only [Option.toList_some, List.cons_append, List.nil_append, optName, if_pos this]

theorem nameAt_cons {n : String} (h : isName n = true) (ts : List String) : nameAt (n :: ts) = some (n, ts) := by
  simp [nameAt, h]

theorem literalAt_quoted (t : String) (ts : List String) : literalAt (quoted t :: ts) = some (t, ts) := by
  simp [literalAt, literal_quoted]

/-! ### Lists -/

theorem sepBy_length (t : String) : (ls : List (List String)) → ls.length ≤ (sepBy t ls).length + 1
  | [] => by simp
  | [l] => by simp
  | l :: l' :: ls => by
    have := sepBy_length t (l' :: ls)
    simp only [sepBy, List.length_append, List.length_cons] at this ⊢
    omega

theorem commas_toks {α : Type} {p : List String → Option (α × List String)} (toks : α → List String) {rest : List String}
    (hr : rest.head? ≠ some ",") : (xs : List α) → xs ≠ [] →
    (∀ x ∈ xs, ∀ r : List String, r.head? = some "," ∨ r = rest → p (toks x ++ r) = some (x, r)) → (n : Nat) → xs.length ≤ n →
    commas p n (sepBy "," (xs.map toks) ++ rest) = some (xs, rest)
  | [], h, _, _, _ => absurd rfl h
  | [x], _, hp, n, hn => by
    obtain ⟨n, rfl⟩ : ∃ m, n = m + 1 := ⟨n - 1, by simp only [List.length_cons] at hn; omega⟩
    simp only [List.map_cons, List.map_nil, sepBy, commas, hp x (List.mem_cons_self ..) rest (Or.inr rfl), if_neg hr]
  | x :: y :: xs, _, hp, n, hn => by
    obtain ⟨n, rfl⟩ : ∃ m, n = m + 1 := ⟨n - 1, by simp only [List.length_cons] at hn; omega⟩
    have ih := commas_toks toks hr (y :: xs) (by simp) (fun z hz => hp z (List.mem_cons_of_mem _ hz)) n
      (by simp only [List.length_cons] at hn ⊢; omega)
    have h1 := hp x (List.mem_cons_self ..) ("," :: (sepBy "," ((y :: xs).map toks) ++ rest)) (Or.inl rfl)
    simp only [List.map_cons, sepBy, List.append_assoc, List.cons_append] at ih h1 ⊢
    simp only [commas, h1, List.head?_cons, if_true, List.tail_cons, ih, Option.map_some]

theorem upTo_toks {α : Type} {p : List String → Option (α × List String)} (toks : α → List String) {stop : String} {rest : List String} :
    (xs : List α) → (∀ x ∈ xs, toks x ≠ [] ∧ Heads (· ≠ stop) (toks x)) →
    (∀ x ∈ xs, ∀ r : List String, (r = stop :: rest ∨ ∃ y ∈ xs, ∃ r', r = toks y ++ r') → p (toks x ++ r) = some (x, r)) →
    (n : Nat) → xs.length < n → upTo stop p n (xs.flatMap toks ++ stop :: rest) = some (xs, rest)
  | [], _, _, n, hn => by
    obtain ⟨n, rfl⟩ : ∃ m, n = m + 1 := ⟨n - 1, by omega⟩
    simp [upTo]
  | x :: xs, hx, hp, n, hn => by
    obtain ⟨n, rfl⟩ : ∃ m, n = m + 1 := ⟨n - 1, by omega⟩
    have ih := upTo_toks (p := p) toks (stop := stop) (rest := rest) xs (fun z hz => hx z (List.mem_cons_of_mem _ hz))
      (fun z hz r hr => hp z (List.mem_cons_of_mem _ hz) r (hr.imp id fun ⟨y, hy, r', h⟩ => ⟨y, List.mem_cons_of_mem _ hy, r', h⟩)) n
      (by simp only [List.length_cons] at hn; omega)
    have hh := (heads_left (us := xs.flatMap toks ++ stop :: rest) (hx x (List.mem_cons_self ..)).2 (hx x (List.mem_cons_self ..)).1).head_ne
    have h1 := hp x (List.mem_cons_self ..) (xs.flatMap toks ++ stop :: rest) (by
      cases xs with
      | nil => exact Or.inl rfl
      | cons y ys => exact Or.inr ⟨y, by simp, ys.flatMap toks ++ stop :: rest, by simp [List.append_assoc]⟩)
    rw [List.flatMap_cons, List.append_assoc, upTo, if_neg hh, h1]
    simp only [ih, Option.map_some]

theorem flatMap_length {α : Type} (toks : α → List String) : (xs : List α) → (∀ x ∈ xs, toks x ≠ []) →
    xs.length ≤ (xs.flatMap toks).length
  | [], _ => by simp
  | x :: xs, h => by
    have h1 := flatMap_length toks xs fun y hy => h y (List.mem_cons_of_mem _ hy)
    have h2 : 1 ≤ (toks x).length := by
      have := h x (List.mem_cons_self ..)
      cases hx : toks x with
      | nil => exact absurd hx this
      | cons => simp
    simp only [List.flatMap_cons, List.length_cons, List.length_append]
    omega

/-! ### Expressions -/

theorem operator_name {t : String} (h : isName t = true) : operator? t = none := by
  have : ∀ o : Operator, o.text ≠ t := by
    rintro o rfl
    revert h
    cases o <;> decide
  simp [operator?, this]

theorem isName_ne {t u : String} (h : isName t = true) (hu : isName u = false) : t ≠ u := by
  rintro rfl
  rw [h] at hu
  cases hu

/-- A name that is no unit does not continue an expression. -/
theorem stop_name {t : String} (h : isName t = true) (hu : t ∉ units) (ts : List String) : Stop 0 (t :: ts) := by
  intro u us hu'
  cases hu'
  refine ⟨fun o ho => ?_, fun hq => absurd hq (isName_ne h (by decide)), isName_ne h (by decide), isName_ne h (by decide), isName_ne h (by decide),
    isName_ne h (by decide), isName_ne h (by decide), isName_ne h (by decide), hu⟩
  rw [operator_name h] at ho
  cases ho

theorem stop_semicolon (ts : List String) : Stop 0 (";" :: ts) := by
  intro u us hu
  cases hu
  exact ⟨fun o ho => absurd ho (by cases o <;> decide), by decide, by decide, by decide, by decide, by decide, by decide, by decide, by decide⟩

theorem stop_arrow (ts : List String) : Stop 0 ("=>" :: ts) := by
  intro u us hu
  cases hu
  exact ⟨fun o ho => absurd ho (by cases o <;> decide), by decide, by decide, by decide, by decide, by decide, by decide, by decide, by decide⟩

theorem exprAt_toks {e : Expr} (h : Plain e) {rest : List String} (hs : Stop 0 rest) : exprAt (strE e ++ rest) = some (e, rest) :=
  read_at (reads e h).1 (Nat.zero_le _) (Nat.zero_le _) hs (by simp only [List.length_append]; omega)

/-! ### Types -/

theorem dims_stop {n : Nat} {ty : Ty} {rest : List String} (hn : 1 ≤ n) (h : Heads (· ≠ "[") rest) : readDims n ty rest = some (ty, rest) := by
  obtain ⟨n, rfl⟩ : ∃ m, n = m + 1 := ⟨n - 1, by omega⟩
  rw [readDims, if_neg h.head_ne]

theorem pathToks_cons {p : List String} (h : p ≠ []) : ∃ ts, pathToks p = p.head h :: ts := by
  cases p with
  | nil => exact absurd rfl h
  | cons n p =>
    cases p with
    | nil => exact ⟨[], rfl⟩
    | cons m p => exact ⟨_, rfl⟩

theorem reads_ty : (ty : Ty) → ty.Clear → (n : Nat) → (rest : List String) → ty.toks.length + 1 ≤ n →
    Heads (fun t => t ≠ "." ∧ t ≠ "payable") rest →
    ∃ m, n ≤ m + ty.toks.length ∧ readTy n (ty.toks ++ rest) = readDims m ty rest
  | .elem t, h, n, rest, hn, hr => by
    obtain ⟨n, rfl⟩ : ∃ m, n = m + 1 := ⟨n - 1, by simp only [Ty.toks, List.length_cons] at hn; omega⟩
    obtain ⟨h1, h2, h3⟩ := h
    have hm : t ≠ "mapping" := by rintro rfl; exact absurd h3 (by decide)
    have hp : rest.head? ≠ some "payable" := (hr.imp fun _ h => h.2).head_ne
    have := readPath_toks [t] (by simp) (by simpa using h1) rest (fun u us hu => (hr u us hu).1)
    refine ⟨n, by simp [Ty.toks], ?_⟩
    simp only [pathToks, List.map_cons, List.map_nil, sepBy, List.cons_append, List.nil_append] at this
    simp only [Ty.toks, List.cons_append, List.nil_append]
    rw [readTy]
    simp [hm, hp, this, namedTy, h2]
  | .addressPayable, _, n, rest, hn, hr => by
    obtain ⟨n, rfl⟩ : ∃ m, n = m + 1 := ⟨n - 1, by simp only [Ty.toks, List.length_cons] at hn; omega⟩
    exact ⟨n, by simp only [Ty.toks, List.length_cons]; omega, by simp [Ty.toks, readTy]⟩
  | .user p, h, n, rest, hn, hr => by
    obtain ⟨hne, h1, h2⟩ := h
    obtain ⟨ts, hts⟩ := pathToks_cons hne
    obtain ⟨n, rfl⟩ : ∃ m, n = m + 1 := ⟨n - 1, by omega⟩
    have hf := h1 _ (List.head_mem hne)
    have hm : p.head hne ≠ "mapping" := by intro h; rw [h] at hf; exact absurd hf.2 (by decide)
    have ha : ¬ (((pathToks p ++ rest).head? = some "address") ∧ ((pathToks p ++ rest).tail.head? = some "payable")) := by
      rintro ⟨ha, hb⟩
      rw [hts] at ha hb
      cases p with
      | nil => exact hne rfl
      | cons m q =>
        cases q with
        | nil =>
          have h3 := h2 m rfl
          simp only [List.cons_append, List.head?_cons, List.head_cons, Option.some.injEq] at ha
          subst ha
          exact absurd h3 (by decide)
        | cons k q =>
          simp only [pathToks, List.map_cons, sepBy, List.cons_append, List.nil_append, List.cons.injEq] at hts
          rw [← hts.2] at hb
          simp at hb
    have := readPath_toks p hne (fun n hn => (h1 n hn).1) rest (fun u us hu => (hr u us hu).1)
    have hnm : namedTy p = .user p := by
      unfold namedTy
      split
      · rename_i t
        simp [h2 t rfl]
      · rfl
    refine ⟨n, by simp only [Ty.toks, hts, List.length_cons]; omega, ?_⟩
    simp only [Ty.toks]
    rw [readTy, if_neg (by rw [hts]; simpa using hm), if_neg ha, this]
    simp [hnm]
  | .mapping k v, h, n, rest, hn, hr => by
    obtain ⟨n, rfl⟩ : ∃ m, n = m + 1 := ⟨n - 1, by omega⟩
    simp only [Ty.toks, List.length_cons, List.length_append, List.length_nil] at hn
    obtain ⟨m, hm, h1⟩ := reads_ty k h.1 n ("=>" :: (v.toks ++ ")" :: rest)) (by omega) (heads_cons (by decide))
    obtain ⟨l, hl, h2⟩ := reads_ty v h.2 n (")" :: rest) (by omega) (heads_cons (by decide))
    rw [dims_stop (by omega) (heads_cons (by decide))] at h1 h2
    refine ⟨n, by simp only [Ty.toks, List.length_cons]; omega, ?_⟩
    simp only [Ty.toks, List.cons_append, List.append_assoc, List.nil_append]
    rw [readTy]
    simp [h1, h2]
  | .array b, h, n, rest, hn, hr => by
    simp only [Ty.toks, List.length_cons, List.length_append, List.length_nil] at hn
    obtain ⟨m, hm, h1⟩ := reads_ty b h n ("[" :: "]" :: rest) (by omega) (heads_cons (by decide))
    obtain ⟨m, rfl⟩ : ∃ l, m = l + 1 := ⟨m - 1, by omega⟩
    refine ⟨m, by simp only [Ty.toks, List.length_cons, List.length_append, List.length_nil]; omega, ?_⟩
    simp only [Ty.toks, List.append_assoc, List.cons_append, List.nil_append]
    rw [h1, readDims]
    simp
  | .fixed b e, h, n, rest, hn, hr => by
    simp only [Ty.toks, List.length_cons, List.length_append, List.length_nil] at hn
    obtain ⟨m, hm, h1⟩ := reads_ty b h.1 n ("[" :: (strE e ++ "]" :: rest)) (by omega) (heads_cons (by decide))
    obtain ⟨m, rfl⟩ : ∃ l, m = l + 1 := ⟨m - 1, by omega⟩
    refine ⟨m, by simp only [Ty.toks, List.length_cons, List.length_append, List.length_nil]; omega, ?_⟩
    simp only [Ty.toks, List.append_assoc, List.cons_append, List.nil_append]
    obtain ⟨t, ts, hts, _, _, h2, _⟩ := strE_cons e h.2
    rw [h1, readDims, if_pos (by rfl), List.tail_cons, if_neg (by rw [hts]; simpa using h2), exprAt_toks h.2 (stop_cons (by simp) _)]
    simp

theorem tyAt_toks {ty : Ty} (h : ty.Clear) {rest : List String} (hr : Heads (fun t => t ≠ "." ∧ t ≠ "payable" ∧ t ≠ "[") rest) :
    tyAt (ty.toks ++ rest) = some (ty, rest) := by
  obtain ⟨m, hm, h1⟩ := reads_ty ty h ((ty.toks ++ rest).length + 2) rest (by simp only [List.length_append]; omega)
    (hr.imp fun _ h => ⟨h.1, h.2.1⟩)
  rw [tyAt, h1]
  simp only [List.length_append] at hm
  exact dims_stop (by omega) (hr.imp fun _ h => h.2.2)

theorem ty_cons : (ty : Ty) → ty.Clear → ∃ t ts, ty.toks = t :: ts ∧ (FreeName t ∨ t = "mapping" ∨ t = "address")
  | .elem t, h => ⟨t, [], rfl, Or.inl ⟨h.1, h.2.2⟩⟩
  | .addressPayable, _ => ⟨_, _, rfl, by simp⟩
  | .user p, h => by
    obtain ⟨ts, hts⟩ := pathToks_cons h.1
    exact ⟨_, ts, hts, Or.inl (h.2.1 _ (List.head_mem h.1))⟩
  | .mapping _ _, _ => ⟨_, _, rfl, by simp⟩
  | .array b, h => by
    obtain ⟨t, ts, hts, ht⟩ := ty_cons b h
    exact ⟨t, ts ++ ["[", "]"], by simp [Ty.toks, hts], ht⟩
  | .fixed b _, h => by
    obtain ⟨t, ts, hts, ht⟩ := ty_cons b h.1
    exact ⟨t, _, by rw [Ty.toks, hts, List.cons_append], ht⟩

/-! ### Declarations -/

/-- What follows a declaration. -/
def Ends (t : String) : Prop := t = "," ∨ t = ")" ∨ t = ";"

theorem Ends.stop {ts : List String} (h : Heads Ends ts) : Stop 0 ts := by
  cases ts with
  | nil => exact stop_nil
  | cons t ts =>
    rcases h t ts rfl with rfl | rfl | rfl
    · exact stop_cons (by simp) _
    · exact stop_cons (by simp) _
    · exact stop_semicolon _

theorem valueAt_toks {o : Option Expr} {rest : List String} (ho : ∀ e, o = some e → Plain e) (hr : Heads Ends rest) :
    valueAt (valueToks o ++ rest) = some (o, rest) := by
  cases o with
  | none =>
    have : rest.head? ≠ some "=" := (hr.imp (Q := (· ≠ "=")) (by rintro t (rfl | rfl | rfl) <;> decide)).head_ne
    simp [valueToks, valueAt, this]
  | some e => simp [valueToks, valueAt, exprAt_toks (ho e rfl) (Ends.stop hr)]

theorem varAt_toks {v : Var} (h : v.Clear) {rest : List String} (hr : Heads Ends rest) : varAt (v.toks ++ rest) = some (v, rest) := by
  have key : ∀ P : String → Prop, (∀ t, Ends t → P t) → P "=" → Heads P (valueToks v.value ++ rest) := fun P h1 h2 =>
    heads_append (heads_value h2) (hr.imp h1)
  have ends : ∀ ws : List String, "," ∉ ws → ")" ∉ ws → ";" ∉ ws → ∀ t, Ends t → t ∉ ws := by
    rintro ws h1 h2 h3 t (rfl | rfl | rfl) <;> assumption
  have free : ∀ ws : List String, (∀ t ∈ ws, t ∈ reserved) → ∀ t, v.name = some t → t ∉ ws := fun ws hws t ht hm =>
    (h.name t ht).2 (hws t hm)
  have r1 : Heads (fun t => ¬ FreeName t) (valueToks v.value ++ rest) := key _ (by
    rintro t (rfl | rfl | rfl) ⟨h, _⟩ <;> exact absurd h (by decide)) (fun h => absurd h.1 (by decide))
  have r2 : ∀ ws : List String, (∀ t ∈ ws, t ∈ reserved) → "," ∉ ws → ")" ∉ ws → ";" ∉ ws → "=" ∉ ws →
      Heads (· ∉ ws) (v.name.toList ++ (valueToks v.value ++ rest)) := fun ws h1 h2 h3 h4 h5 =>
    heads_append (heads_toList (free ws h1)) (key _ (ends ws h2 h3 h4) h5)
  have r3 : ∀ ws : List String, (∀ t ∈ ws, t ∈ reserved) → "," ∉ ws → ")" ∉ ws → ";" ∉ ws → "=" ∉ ws → (∀ t ∈ locations, t ∉ ws) →
      Heads (· ∉ ws) (v.location.toList ++ (v.name.toList ++ (valueToks v.value ++ rest))) := fun ws h1 h2 h3 h4 h5 h6 =>
    heads_append (heads_toList fun t ht => h6 t (h.location t ht)) (r2 ws h1 h2 h3 h4 h5)
  have one : ∀ {t : String} {ts : List String}, Heads (· ∉ [t]) ts → Heads (· ≠ t) ts := fun h => h.imp fun _ h h' => h (by simp [h'])
  have q1 := one (r3 ["immutable"] (by decide) (by decide) (by decide) (by decide) (by decide) (by decide))
  have q2 := one (heads_append (heads_flag (b := v.immutable) (t := "immutable") (by decide))
    (r3 ["indexed"] (by decide) (by decide) (by decide) (by decide) (by decide) (by decide)))
  have q3 := one (heads_append (heads_flag (b := v.indexed) (t := "indexed") (by decide))
    (heads_append (heads_flag (b := v.immutable) (t := "immutable") (by decide))
    (r3 ["constant"] (by decide) (by decide) (by decide) (by decide) (by decide) (by decide))))
  have q4 := heads_append (heads_flag (b := v.constant) (t := "constant") (by decide))
    (heads_append (heads_flag (b := v.indexed) (t := "indexed") (by decide))
    (heads_append (heads_flag (b := v.immutable) (t := "immutable") (by decide))
    (r3 visibilities (by decide) (by decide) (by decide) (by decide) (by decide) (by decide))))
  have q5 : Heads (fun t => t ≠ "." ∧ t ≠ "payable" ∧ t ≠ "[") (v.visibility.toList ++ (flag v.constant "constant" ++ (flag v.indexed "indexed" ++
      (flag v.immutable "immutable" ++ (v.location.toList ++ (v.name.toList ++ (valueToks v.value ++ rest))))))) := by
    refine heads_append (heads_toList fun t ht => ?_) (heads_append (heads_flag (by decide)) (heads_append (heads_flag (by decide))
      (heads_append (heads_flag (by decide)) (heads_append (heads_toList fun t ht => ?_) (heads_append (heads_toList fun t ht => ?_)
      (key _ ?_ (by decide)))))))
    · exact (by decide : ∀ t ∈ visibilities, t ≠ "." ∧ t ≠ "payable" ∧ t ≠ "[") t (h.visibility t ht)
    · exact (by decide : ∀ t ∈ locations, t ≠ "." ∧ t ≠ "payable" ∧ t ≠ "[") t (h.location t ht)
    · refine ⟨isName_ne (h.name t ht).1 (by decide), ?_, isName_ne (h.name t ht).1 (by decide)⟩
      rintro rfl
      exact absurd (h.name _ ht).2 (by decide)
    · rintro t (rfl | rfl | rfl) <;> decide
  unfold varAt Var.toks
  simp only [List.append_assoc]
  rw [tyAt_toks h.type q5]
  simp only [oneOf_toList h.visibility q4, accept_flag q3, accept_flag q2, accept_flag q1,
    oneOf_toList h.location (r2 locations (by decide) (by decide) (by decide) (by decide) (by decide)), optName_toList h.name r1,
    valueAt_toks h.value hr, Option.map_some]

theorem var_cons {v : Var} (h : v.Clear) : ∃ t ts, v.toks = t :: ts ∧ (FreeName t ∨ t = "mapping" ∨ t = "address") := by
  obtain ⟨t, ts, hts, ht⟩ := ty_cons v.type h.type
  exact ⟨t, _, by simp only [Var.toks, hts, List.cons_append]; rfl, ht⟩

theorem first_ne {t u : String} (h : FreeName t ∨ t = "mapping" ∨ t = "address") (hu : isName u = false) : t ≠ u := by
  rcases h with h | rfl | rfl
  · exact isName_ne h.1 hu
  · rintro rfl; exact absurd hu (by decide)
  · rintro rfl; exact absurd hu (by decide)

theorem paramsAt_toks {vs : List Var} (h : ∀ v ∈ vs, v.Clear) (rest : List String) : paramsAt (paramsToks vs ++ rest) = some (vs, rest) := by
  cases vs with
  | nil => simp [paramsAt, paramsToks, sepBy]
  | cons v vs =>
    have hlen := sepBy_length "," ((v :: vs).map Var.toks)
    have hc := commas_toks (p := varAt) Var.toks (rest := ")" :: rest) (by simp) (v :: vs) (by simp)
      (fun x hx r hr => varAt_toks (h x hx) (by
        rcases hr with hr | rfl
        · cases r with
          | nil => cases hr
          | cons t ts => cases hr; exact heads_cons (Or.inl rfl)
        · exact heads_cons (Or.inr (Or.inl rfl))))
      ((sepBy "," ((v :: vs).map Var.toks) ++ ")" :: rest).length) (by
        simp only [List.length_map] at hlen
        simp only [List.length_append, List.length_cons] at hlen ⊢
        omega)
    obtain ⟨t, ts, hts, ht⟩ := var_cons (h v (List.mem_cons_self ..))
    have hd : (sepBy "," ((v :: vs).map Var.toks) ++ ")" :: rest).head? ≠ some ")" := by
      have : (sepBy "," ((v :: vs).map Var.toks)).head? = some t := by
        cases vs <;> simp [sepBy, hts]
      simp only [List.head?_append, this, Option.some_or]
      intro hx
      cases hx
      exact first_ne ht (by decide) rfl
    rw [paramsAt, paramsToks, List.cons_append, expect_cons]
    simp only [Option.bind_eq_bind, Option.bind_some, List.append_assoc, List.cons_append, List.nil_append] at hd hc ⊢
    rw [if_neg hd, hc]
    simp

theorem returnsAt_toks {vs : List Var} (h : ∀ v ∈ vs, v.Clear) {rest : List String} (hr : Heads (· ≠ "returns") rest) :
    returnsAt (returnsToks vs ++ rest) = some (vs, rest) := by
  cases vs with
  | nil => simp [returnsToks, returnsAt, hr.head_ne]
  | cons v vs => simp [returnsToks, returnsAt, paramsAt_toks h]

end SolGrammar
end Mutagenyx
