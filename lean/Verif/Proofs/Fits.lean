import Verif.Model.PrinterOps
import Verif.Proofs.Printer

/-!
# Calls that fit on the line

Calls that write tokens, strings and spaces leave exactly these on the current line as long as they fit on it.
-/

namespace Mutagenyx
namespace Printer

/-- What a call writes if there is room; `none` for the calls that break lines, indent or crash. -/
def written : Op → Option (List Char)
  | .token t => some t
  | .tokens t n => some (List.replicate n t).flatten
  | .string s => some ('"' :: s ++ ['"'])
  | .triple s => some (['"', '"', '"'] ++ s ++ ['"', '"', '"'])
  | .space => some [' ']
  | .spaces n => some (List.replicate n ' ')
  | .newline => none
  | .indent => none
  | .incr => some []
  | .incrBy _ => some []
  | .decr => some []
  | .decrBy _ => some []
  | .flow s _ => some (Text.collapse (s.map fun c => if c = '\n' then ' ' else c))
  | .stop _ => none

/-- What calls write if there is room. -/
def lineOf : List Op → Option (List Char)
  | [] => some []
  | o :: ops => match written o, lineOf ops with
    | some a, some b => some (a ++ b)
    | _, _ => none

theorem lineOf_cons {o : Op} {ops : List Op} {t : List Char} (h : lineOf (o :: ops) = some t) :
    ∃ a b, written o = some a ∧ lineOf ops = some b ∧ t = a ++ b := by
  unfold lineOf at h
  split at h
  · rename_i a b ha hb
    exact ⟨a, b, ha, hb, (Option.some.inj h).symm⟩
  · cases h

theorem lineOf_append {a b : List Op} {s t : List Char} (ha : lineOf a = some s) (hb : lineOf b = some t) :
    lineOf (a ++ b) = some (s ++ t) := by
  induction a generalizing s with
  | nil => cases ha; simpa using hb
  | cons o a ih =>
    obtain ⟨x, y, h1, h2, rfl⟩ := lineOf_cons ha
    simp [lineOf, h1, ih h2]

theorem lineOf_append_split {a b : List Op} {u : List Char} (h : lineOf (a ++ b) = some u) :
    ∃ s t, lineOf a = some s ∧ lineOf b = some t ∧ u = s ++ t := by
  induction a generalizing u with
  | nil => exact ⟨[], u, rfl, h, rfl⟩
  | cons o a ih =>
    obtain ⟨x, y, h1, h2, rfl⟩ := lineOf_cons h
    obtain ⟨s, t, h3, h4, rfl⟩ := ih h2
    exact ⟨x ++ s, t, by simp [lineOf, h1, h3], h4, by simp⟩

theorem writeToken_fits {t : List Char} {p : Printer} (h : p.column + utf8Len t ≤ p.pageWidth) :
    p.writeToken t = p.basic t := by
  unfold writeToken
  simp only
  rw [if_neg (show ¬ p.column > p.pageWidth by omega), if_neg (by omega), if_neg (by omega)]

theorem writeSpace_fits {p : Printer} (h : p.column + 1 ≤ p.pageWidth) : p.writeSpace = p.basic [' '] := by
  unfold writeSpace
  simp only
  rw [if_neg (by omega)]

theorem writeTokens_fits {t : List Char} (n : Nat) {p : Printer}
    (h : p.column + utf8Len (List.replicate n t).flatten ≤ p.pageWidth) :
    writeTokens t n p = p.basic (List.replicate n t).flatten := by
  induction n generalizing p with
  | zero => simp [writeTokens, basic]
  | succ n ih =>
    rw [List.replicate_succ, List.flatten_cons, utf8Len_append] at h
    simp only [writeTokens]
    rw [writeToken_fits (by omega), ih (by simp only [basic]; omega)]
    simp only [basic, List.replicate_succ, List.flatten_cons, utf8Len_append, List.append_assoc, Printer.mk.injEq, true_and,
      and_true]
    omega

theorem writeSpaces_fits (n : Nat) {p : Printer} (h : p.column + n ≤ p.pageWidth) :
    writeSpaces n p = p.basic (List.replicate n ' ') := by
  induction n generalizing p with
  | zero => simp [writeSpaces, basic]
  | succ n ih =>
    simp only [writeSpaces]
    have h1 : utf8Len [' '] = 1 := by decide
    rw [writeSpace_fits (by omega), ih (by simp only [basic, h1]; omega)]
    simp only [basic, List.replicate_succ, utf8Len_replicate_space, h1, List.append_assoc, List.cons_append,
      List.nil_append, utf8Len_cons, Printer.mk.injEq, true_and, and_true]
    have h2 : Char.utf8Size ' ' = 1 := by decide
    omega

/-- One call that fits. -/
theorem exec_fits (checks : Bool) {o : Op} {t : List Char} {p : Printer} (ho : written o = some t)
    (h : p.column + utf8Len t ≤ p.pageWidth) :
    ∃ q, exec checks o p = .ok q ∧ q.out = p.out ++ t ∧ q.column = p.column + utf8Len t ∧ q.pageWidth = p.pageWidth := by
  have simple : exec checks o p = .ok (p.basic t) →
      ∃ q, exec checks o p = .ok q ∧ q.out = p.out ++ t ∧ q.column = p.column + utf8Len t ∧ q.pageWidth = p.pageWidth :=
    fun he => ⟨_, he, rfl, rfl, rfl⟩
  cases o <;> simp only [written, Option.some.injEq, reduceCtorEq] at ho <;> subst ho
  case token s => exact simple (by rw [exec, writeToken_fits h])
  case tokens s n => exact simple (by rw [exec, writeTokens_fits n h])
  case string s => exact simple (by rw [exec, writeString, writeToken_fits h])
  case triple s => exact simple (by rw [exec, writeTripleString, writeToken_fits h])
  case space => exact simple (by rw [exec, writeSpace_fits h])
  case spaces n => exact simple (by rw [utf8Len_replicate_space] at h; rw [exec, writeSpaces_fits n h])
  case flow s next =>
    refine simple ?_
    rw [exec, writeFlow, writeFlowable, flowText_eq]
    simp only
    rw [if_neg (by omega), if_neg (by omega)]
  case incr =>
    refine ⟨_, rfl, ?_, ?_, ?_⟩ <;> unfold increaseIndent <;> split <;> simp
  case incrBy =>
    refine ⟨_, rfl, ?_, ?_, ?_⟩ <;> unfold increaseIndentBy <;> split <;> simp
  case decr =>
    refine ⟨_, rfl, ?_, ?_, ?_⟩ <;> unfold decreaseIndent <;> split <;> simp
  case decrBy =>
    refine ⟨_, rfl, ?_, ?_, ?_⟩ <;> unfold decreaseIndentBy <;> split <;> simp

/-- Calls that fit on the line write just what they are asked to. -/
theorem run_fits (checks : Bool) {ops : List Op} {t : List Char} {p : Printer} (ho : lineOf ops = some t)
    (h : p.column + utf8Len t ≤ p.pageWidth) :
    ∃ q, run checks ops p = .ok q ∧ q.out = p.out ++ t ∧ q.column = p.column + utf8Len t ∧ q.pageWidth = p.pageWidth := by
  induction ops generalizing p t with
  | nil => cases ho; exact ⟨p, rfl, by simp, by simp, rfl⟩
  | cons o ops ih =>
    obtain ⟨a, b, h1, h2, rfl⟩ := lineOf_cons ho
    rw [utf8Len_append] at h
    obtain ⟨q, h3, h4, h5, h6⟩ := exec_fits checks h1 (show p.column + utf8Len a ≤ p.pageWidth by omega)
    obtain ⟨r, h7, h8, h9, h10⟩ := ih h2 (p := q) (by omega)
    exact ⟨r, by simp [run, h3, h7], by simp [h8, h4], by simp [h9, h5]; omega, by rw [h10, h6]⟩

/-! ### Without line breaks -/

theorem newline_fresh (p : Printer) : ∃ u, p.writeNewline.writeIndent.out = p.out ++ u ∧ '\n' ∈ u := by
  unfold writeIndent
  split
  · exact ⟨['\n'], rfl, by simp⟩
  · exact ⟨'\n' :: p.writeNewline.indentString, by simp [writeNewline, basic], by simp⟩

theorem writeToken_or (t : List Char) (p : Printer) :
    ∃ u, (p.writeToken t).out = p.out ++ u ∧ ('\n' ∈ u ∨ u = t) := by
  have h1 : ∃ u, (if p.column > p.pageWidth then p.writeNewline else p).out = p.out ++ u ∧ ('\n' ∈ u ∨ u = []) := by
    split
    · exact ⟨['\n'], rfl, by simp⟩
    · exact ⟨[], by simp, by simp⟩
  unfold writeToken
  simp only
  generalize (if p.column > p.pageWidth then p.writeNewline else p) = q at h1 ⊢
  obtain ⟨u, h1, h2⟩ := h1
  obtain ⟨v, h3, h4⟩ := newline_fresh q
  have broken : ∃ w, (q.writeNewline.writeIndent.basic t).out = p.out ++ w ∧ ('\n' ∈ w ∨ w = t) :=
    ⟨u ++ (v ++ t), by simp [basic, h3, h1], Or.inl (by simp [h4])⟩
  have same : ∃ w, (q.basic t).out = p.out ++ w ∧ ('\n' ∈ w ∨ w = t) :=
    ⟨u ++ t, by simp [basic, h1], by rcases h2 with h2 | rfl <;> simp [*]⟩
  split <;> split <;> assumption

theorem writeSpace_or (p : Printer) : ∃ u, p.writeSpace.out = p.out ++ u ∧ ('\n' ∈ u ∨ u = [' ']) := by
  obtain ⟨v, h3, h4⟩ := newline_fresh p
  unfold writeSpace
  simp only
  split
  · exact ⟨v ++ [' '], by simp [basic, h3], Or.inl (by simp [h4])⟩
  · exact ⟨[' '], rfl, Or.inr rfl⟩

theorem writeTokens_or (t : List Char) (n : Nat) (p : Printer) :
    ∃ u, (writeTokens t n p).out = p.out ++ u ∧ ('\n' ∈ u ∨ u = (List.replicate n t).flatten) := by
  induction n generalizing p with
  | zero => exact ⟨[], by simp [writeTokens], by simp⟩
  | succ n ih =>
    obtain ⟨u, h1, h2⟩ := writeToken_or t p
    obtain ⟨v, h3, h4⟩ := ih (p.writeToken t)
    refine ⟨u ++ v, by simp [writeTokens, h3, h1], ?_⟩
    rcases h2 with h2 | rfl
    · exact Or.inl (by simp [h2])
    · rcases h4 with h4 | rfl
      · exact Or.inl (by simp [h4])
      · exact Or.inr (by simp [List.replicate_succ])

theorem writeSpaces_or (n : Nat) (p : Printer) :
    ∃ u, (writeSpaces n p).out = p.out ++ u ∧ ('\n' ∈ u ∨ u = List.replicate n ' ') := by
  induction n generalizing p with
  | zero => exact ⟨[], by simp [writeSpaces], by simp⟩
  | succ n ih =>
    obtain ⟨u, h1, h2⟩ := writeSpace_or p
    obtain ⟨v, h3, h4⟩ := ih p.writeSpace
    refine ⟨u ++ v, by simp [writeSpaces, h3, h1], ?_⟩
    rcases h2 with h2 | rfl
    · exact Or.inl (by simp [h2])
    · rcases h4 with h4 | rfl
      · exact Or.inl (by simp [h4])
      · exact Or.inr (by simp [List.replicate_succ])

theorem writeFlowable_or (checks : Bool) (fuel : Nat) (s next : List Char) (p q : Printer)
    (h : writeFlowable checks fuel s next p = .ok q) :
    ∃ u, q.out = p.out ++ u ∧ ('\n' ∈ u ∨ u = Text.collapse (s.map fun c => if c = '\n' then ' ' else c)) := by
  induction fuel generalizing s p with
  | zero => cases h
  | succ fuel ih =>
    unfold writeFlowable at h
    rw [flowText_eq] at h
    simp only at h
    obtain ⟨v, h3, h4⟩ := newline_fresh p
    split at h
    · split at h
      · cases h
      · cases h
        exact ⟨_, rfl, Or.inr rfl⟩
    · split at h
      · split at h
        · obtain ⟨u, h1, _⟩ := ih _ _ h
          obtain ⟨w, h5, _⟩ := writeToken_or next p.writeNewline.writeIndent
          exact ⟨v ++ (w ++ u), by rw [h1, h5, h3]; simp, Or.inl (by simp [h4])⟩
        · split at h
          · cases h
          · cases h
          · cases h
          · rename_i first rest _
            have hp : ∃ x, (if first.isEmpty = true then p else p.basic (chars first)).out = p.out ++ x := by
              split
              · exact ⟨[], by simp⟩
              · exact ⟨_, rfl⟩
            generalize (if first.isEmpty = true then p else p.basic (chars first)) = p' at h hp
            obtain ⟨x, hx⟩ := hp
            obtain ⟨v, h3, h4⟩ := newline_fresh p'
            obtain ⟨w, h5, _⟩ := writeToken_or next p'.writeNewline.writeIndent
            split at h
            · cases h
              exact ⟨x ++ (v ++ w), by rw [h5, h3, hx]; simp, Or.inl (by simp [h4])⟩
            · obtain ⟨u, h1, _⟩ := ih _ _ h
              exact ⟨x ++ (v ++ (w ++ u)), by rw [h1, h5, h3, hx]; simp, Or.inl (by simp [h4])⟩
      · cases h
        exact ⟨_, rfl, Or.inr rfl⟩

/-- A call breaks the line, indents, or writes what it is asked to. -/
theorem exec_or {checks : Bool} {o : Op} {p q : Printer} (h : exec checks o p = .ok q) :
    ∃ u, q.out = p.out ++ u ∧ ('\n' ∈ u ∨ o = .indent ∨ written o = some u) := by
  have same : ∀ {p' : Printer}, p'.out = p.out → written o = some [] →
      ∃ u, p'.out = p.out ++ u ∧ ('\n' ∈ u ∨ o = .indent ∨ written o = some u) :=
    fun h1 h2 => ⟨[], by simp [h1], Or.inr (Or.inr h2)⟩
  cases o <;> simp only [exec, Outcome.ok.injEq] at h
  case token t =>
    subst h
    obtain ⟨u, h1, h2⟩ := writeToken_or t p
    exact ⟨u, h1, h2.imp id fun h => Or.inr (by rw [h]; rfl)⟩
  case tokens t n =>
    subst h
    obtain ⟨u, h1, h2⟩ := writeTokens_or t n p
    exact ⟨u, h1, h2.imp id fun h => Or.inr (by rw [h]; rfl)⟩
  case string t =>
    subst h
    obtain ⟨u, h1, h2⟩ := writeToken_or ('"' :: t ++ ['"']) p
    exact ⟨u, h1, h2.imp id fun h => Or.inr (by rw [h]; rfl)⟩
  case triple t =>
    subst h
    obtain ⟨u, h1, h2⟩ := writeToken_or (['"', '"', '"'] ++ t ++ ['"', '"', '"']) p
    exact ⟨u, h1, h2.imp id fun h => Or.inr (by rw [h]; rfl)⟩
  case space =>
    subst h
    obtain ⟨u, h1, h2⟩ := writeSpace_or p
    exact ⟨u, h1, h2.imp id fun h => Or.inr (by rw [h]; rfl)⟩
  case spaces n =>
    subst h
    obtain ⟨u, h1, h2⟩ := writeSpaces_or n p
    exact ⟨u, h1, h2.imp id fun h => Or.inr (by rw [h]; rfl)⟩
  case newline => subst h; exact ⟨['\n'], rfl, Or.inl (by simp)⟩
  case indent =>
    subst h
    refine ⟨p.writeIndent.out.drop p.out.length, ?_, Or.inr (Or.inl rfl)⟩
    unfold writeIndent
    split <;> simp [basic]
  case incr => subst h; refine same ?_ rfl; unfold increaseIndent; split <;> rfl
  case incrBy => subst h; refine same ?_ rfl; unfold increaseIndentBy; split <;> rfl
  case decr => subst h; refine same ?_ rfl; unfold decreaseIndent; split <;> rfl
  case decrBy => subst h; refine same ?_ rfl; unfold decreaseIndentBy; split <;> rfl
  case flow s next =>
    obtain ⟨u, h1, h2⟩ := writeFlowable_or checks _ s next p q h
    exact ⟨u, h1, h2.imp id fun h => Or.inr (by rw [h]; rfl)⟩
  case stop hang => split at h <;> cases h

/-- Calls that do not break the line and do not indent write just what they are asked to. -/
theorem run_oneLine {checks : Bool} {ops : List Op} {p q : Printer} (h : run checks ops p = .ok q) (hi : Op.indent ∉ ops) :
    ∃ u, q.out = p.out ++ u ∧ ('\n' ∉ u → Op.newline ∉ ops ∧ lineOf ops = some u) := by
  induction ops generalizing p with
  | nil => cases h; exact ⟨[], by simp, by simp [lineOf]⟩
  | cons o ops ih =>
    unfold run at h
    split at h
    · rename_i r hr
      obtain ⟨u, h1, h2⟩ := exec_or hr
      obtain ⟨v, h3, h4⟩ := ih h fun hh => hi (List.mem_cons_of_mem _ hh)
      refine ⟨u ++ v, by rw [h3, h1]; simp, fun hn => ?_⟩
      have hu : '\n' ∉ u := fun hh => hn (List.mem_append_left _ hh)
      have hv : '\n' ∉ v := fun hh => hn (List.mem_append_right _ hh)
      rcases h2 with h2 | h2 | h2
      · exact absurd h2 hu
      · exact absurd (by rw [h2]; exact List.mem_cons_self ..) hi
      · refine ⟨fun hh => ?_, by simp [lineOf, h2, (h4 hv).2]⟩
        rcases List.mem_cons.1 hh with rfl | hh
        · cases h2
        · exact (h4 hv).1 hh
    · cases h
    · cases h
    · cases h

/-- Calls that include a line break write one. -/
theorem run_newline {checks : Bool} {ops : List Op} {p q : Printer} (h : run checks ops p = .ok q) (hi : Op.newline ∈ ops) :
    ∃ u, q.out = p.out ++ u ∧ '\n' ∈ u := by
  have ext : ∀ {ops : List Op} {p q : Printer}, run checks ops p = .ok q → ∃ u, q.out = p.out ++ u := by
    intro ops
    induction ops with
    | nil => intro p q h; cases h; exact ⟨[], by simp⟩
    | cons o ops ih =>
      intro p q h
      unfold run at h
      split at h
      · rename_i r hr
        obtain ⟨u, h1, _⟩ := exec_or hr
        obtain ⟨v, h2⟩ := ih h
        exact ⟨u ++ v, by rw [h2, h1]; simp⟩
      · cases h
      · cases h
      · cases h
  induction ops generalizing p with
  | nil => cases hi
  | cons o ops ih =>
    unfold run at h
    split at h
    · rename_i r hr
      rcases List.mem_cons.1 hi with rfl | hi
      · cases hr
        obtain ⟨v, h2⟩ := ext h
        exact ⟨'\n' :: v, by rw [h2]; simp [writeNewline], by simp⟩
      · obtain ⟨u, h1, _⟩ := exec_or hr
        obtain ⟨v, h2, h3⟩ := ih h hi
        exact ⟨u ++ v, by rw [h2, h1]; simp, by simp [h3]⟩
    · cases h
    · cases h
    · cases h

end Printer
end Mutagenyx
