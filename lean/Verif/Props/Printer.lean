import Verif.Proofs.Printer

/-!
# The token printer (properties C43, C44, C45, C57)

The statements are about arbitrary sequences of calls on a printer made by `PrettyPrinter::new` with
arbitrary tab and page widths.
-/

namespace Mutagenyx
namespace Printer

/-! ## What the statements talk about -/

/-- The lines of a text. -/
def lines : List Char → List (List Char)
  | [] => [[]]
  | c :: cs =>
    if c = '\n' then [] :: lines cs
    else match lines cs with
      | [] => [[c]]
      | l :: ls => (c :: l) :: ls

/-- The line at the end of a text. -/
def lastLine (cs : List Char) : List Char := (lines cs).getLastD []

/-- By how much a call changes the wanted indentation level. -/
def change : Op → Int
  | .incr => 1
  | .incrBy n => n
  | .decr => -1
  | .decrBy n => -n
  | _ => 0

/-- By how much a sequence of calls changes the wanted indentation level. -/
def changes (ops : List Op) : Int := (ops.map change).sum

/-- The pieces of text that a call is asked to write. -/
def asked : Op → List (List Char)
  | .token t => [t]
  | .tokens t n => List.replicate n t
  | .string s => ['"' :: s ++ ['"']]
  | .triple s => [['"', '"', '"'] ++ s ++ ['"', '"', '"']]
  | _ => []

/-- The call is not one that writes flowable text. -/
def noFlow : Op → Prop
  | .flow _ _ => False
  | _ => True

/-- What the call is asked to write has no newline in it. -/
def oneLine (op : Op) : Prop :=
  (∀ t ∈ asked op, '\n' ∉ t) ∧ ∀ s next, op = .flow s next → '\n' ∉ next

/-- The text consists of the pieces, in this order, with nothing but spaces and newlines before, between
and after them. -/
inductive Woven : List (List Char) → List Char → Prop
  | nil : Woven [] []
  | gap {ts out c} : Woven ts out → c = ' ' ∨ c = '\n' → Woven ts (out ++ [c])
  | piece {ts out} (t) : Woven ts out → Woven (ts ++ [t]) (out ++ t)

/-- The pieces that the call is asked to write fit between the indentation and the right margin, and
indentation is only asked for at the start of a line. -/
def opFits (op : Op) (p : Printer) : Prop :=
  (∀ t ∈ asked op, '\n' ∉ t ∧ p.indentLength + utf8Len t < p.pageWidth) ∧ noFlow op ∧
    (op = .indent → p.column = 1)

/-- All calls of the sequence fit when they are made. -/
def allFit (checks : Bool) : List Op → Printer → Prop
  | [], _ => True
  | op :: ops, p => opFits op p ∧ ∀ p', exec checks op p = .ok p' → allFit checks ops p'

/-- The run ends well, with a state that passes the test (for examples). -/
def endsWith (test : Printer → Bool) : Outcome Printer → Bool
  | .ok p => test p
  | _ => false

/-! ## Lemmas -/

theorem run_cons {checks : Bool} {op : Op} {ops : List Op} {p q : Printer}
    (h : run checks (op :: ops) p = .ok q) : ∃ p', exec checks op p = .ok p' ∧ run checks ops p' = .ok q := by
  unfold run at h
  cases he : exec checks op p with
  | ok p' => rw [he] at h; exact ⟨p', rfl, h⟩
  | err _ => rw [he] at h; cases h
  | panic => rw [he] at h; cases h
  | outOfFuel => rw [he] at h; cases h

theorem run_append (checks : Bool) (a b : List Op) (p : Printer) :
    run checks (a ++ b) p = match run checks a p with
      | .ok q => run checks b q
      | .err e => .err e
      | .panic => .panic
      | .outOfFuel => .outOfFuel := by
  induction a generalizing p with
  | nil => rfl
  | cons op ops ih =>
    rw [List.cons_append, run, run]
    cases exec checks op p with
    | ok q => exact ih q
    | err _ => rfl
    | panic => rfl
    | outOfFuel => rfl

theorem exec_writes {checks : Bool} {op : Op} {p q : Printer} (h : exec checks op p = .ok q)
    (hc : change op = 0 ∧ ∀ n, op ≠ .incrBy n ∧ op ≠ .decrBy n) : SameLayout p q := by
  cases op with
  | token t => cases h; exact sameLayout_writeToken t p
  | tokens t n => cases h; exact sameLayout_writeTokens t n p
  | string s => cases h; exact sameLayout_writeToken _ p
  | triple s => cases h; exact sameLayout_writeToken _ p
  | space => cases h; exact sameLayout_writeSpace p
  | spaces n => cases h; exact sameLayout_writeSpaces n p
  | newline => cases h; exact ⟨rfl, rfl, rfl, rfl⟩
  | indent => cases h; exact sameLayout_writeIndent p
  | incr => exact absurd hc.1 (by decide)
  | incrBy n => exact absurd rfl (hc.2 n).1
  | decr => exact absurd hc.1 (by decide)
  | decrBy n => exact absurd rfl (hc.2 n).2
  | flow s next =>
    exact (sameLayout_elementary p).writeFlowable checks (fun _ _ => trivial) _ s next p q trivial (.refl p) h
  | stop hang => cases hang <;> cases h

/-- What holds for every call: widths and limit stay, the level stays within the limit. -/
theorem exec_limits {checks : Bool} {op : Op} {p q : Printer} (h : exec checks op p = .ok q)
    (hp : p.indent ≤ p.maxIndent) :
    q.indent ≤ q.maxIndent ∧ q.maxIndent = p.maxIndent ∧ q.tabWidth = p.tabWidth ∧ q.pageWidth = p.pageWidth := by
  cases op with
  | incr =>
    cases h
    unfold increaseIndent
    split
    · exact ⟨Nat.le_refl _, rfl, rfl, rfl⟩
    · rename_i h; exact ⟨by simp only; omega, rfl, rfl, rfl⟩
  | incrBy n =>
    cases h
    unfold increaseIndentBy
    split
    · rename_i h; exact ⟨h, rfl, rfl, rfl⟩
    · exact ⟨Nat.le_refl _, rfl, rfl, rfl⟩
  | decr =>
    cases h
    unfold decreaseIndent
    split
    · exact ⟨hp, rfl, rfl, rfl⟩
    · exact ⟨by simp only; omega, rfl, rfl, rfl⟩
  | decrBy n =>
    cases h
    unfold decreaseIndentBy
    split
    · exact ⟨Nat.zero_le _, rfl, rfl, rfl⟩
    · exact ⟨by simp only; omega, rfl, rfl, rfl⟩
  | _ =>
    have s := exec_writes h (by simp [change])
    exact ⟨by rw [s.1, s.2]; exact hp, s.2, s.3, s.4⟩

theorem run_limits {checks : Bool} {ops : List Op} {p q : Printer} (h : run checks ops p = .ok q)
    (hp : p.indent ≤ p.maxIndent) :
    q.indent ≤ q.maxIndent ∧ q.maxIndent = p.maxIndent ∧ q.tabWidth = p.tabWidth ∧ q.pageWidth = p.pageWidth := by
  induction ops generalizing p with
  | nil => cases h; exact ⟨hp, rfl, rfl, rfl⟩
  | cons op ops ih =>
    obtain ⟨p', h1, h2⟩ := run_cons h
    obtain ⟨a, b, c, d⟩ := exec_limits h1 hp
    obtain ⟨a', b', c', d'⟩ := ih h2 a
    exact ⟨a', b'.trans b, c'.trans c, d'.trans d⟩

theorem maxIndent_fits (tab page n : Nat) (h : n ≤ (new tab page).maxIndent) : n * tab ≤ page - tab := by
  unfold new at h
  by_cases ht : tab = 0
  · simp [ht]
  · simp only [ht, if_false] at h
    have h1 : n * tab ≤ (page / tab - 1) * tab := Nat.mul_le_mul_right _ h
    have h2 : (page / tab - 1) * tab = page / tab * tab - tab := by rw [Nat.sub_mul, Nat.one_mul]
    have h3 : page / tab * tab ≤ page := Nat.div_mul_le_self page tab
    omega

theorem exec_change {checks : Bool} {op : Op} {p q : Printer} (h : exec checks op p = .ok q)
    (h0 : 0 ≤ p.indent + change op) (hm : p.indent + change op ≤ p.maxIndent) :
    (q.indent : Int) = p.indent + change op := by
  cases op with
  | incr =>
    cases h
    simp only [change] at *
    unfold increaseIndent
    split <;> simp only <;> omega
  | incrBy n =>
    cases h
    simp only [change] at *
    unfold increaseIndentBy
    split <;> simp only <;> omega
  | decr =>
    cases h
    simp only [change] at *
    unfold decreaseIndent
    split <;> (try simp only) <;> omega
  | decrBy n =>
    cases h
    simp only [change] at *
    unfold decreaseIndentBy
    split <;> simp only <;> omega
  | _ =>
    have s := exec_writes h (by simp [change])
    rw [s.1]
    simp [change]

/-! ### Lines -/

theorem lines_ne_nil (cs : List Char) : lines cs ≠ [] := by
  cases cs with
  | nil => simp [lines]
  | cons c cs =>
    unfold lines
    split
    · simp
    · split <;> simp

theorem lines_snoc_newline (cs : List Char) : lines (cs ++ ['\n']) = lines cs ++ [[]] := by
  induction cs with
  | nil => simp [lines]
  | cons c cs ih =>
    rw [List.cons_append, lines, lines, ih]
    split
    · rfl
    · cases h : lines cs with
      | nil => exact absurd h (lines_ne_nil cs)
      | cons l ls => rfl

theorem lines_of_oneLine (s : List Char) (hs : '\n' ∉ s) : lines s = [s] := by
  induction s with
  | nil => rfl
  | cons c cs ih =>
    simp only [List.mem_cons, not_or] at hs
    rw [lines, if_neg (Ne.symm hs.1), ih hs.2]

theorem lines_append (cs s : List Char) (hs : '\n' ∉ s) :
    lines (cs ++ s) = (lines cs).dropLast ++ [lastLine cs ++ s] := by
  unfold lastLine
  induction cs with
  | nil => simp [lines, lines_of_oneLine s hs]
  | cons c cs ih =>
    rw [List.cons_append, lines, lines, ih]
    cases h : lines cs with
    | nil => exact absurd h (lines_ne_nil cs)
    | cons l ls =>
      split
      · simp [List.getLastD_cons]
      · cases ls with
        | nil => simp
        | cons m ms => simp [List.getLastD_cons]

theorem lastLine_append (cs s : List Char) (hs : '\n' ∉ s) : lastLine (cs ++ s) = lastLine cs ++ s := by
  rw [lastLine, lines_append cs s hs]
  simp [List.getLastD_eq_getLast?]

theorem lastLine_snoc_newline (cs : List Char) : lastLine (cs ++ ['\n']) = [] := by
  rw [lastLine, lines_snoc_newline]
  simp [List.getLastD_eq_getLast?]

theorem length_lines_append (cs s : List Char) (hs : '\n' ∉ s) : (lines (cs ++ s)).length = (lines cs).length := by
  rw [lines_append cs s hs]
  have := List.length_pos_iff.2 (lines_ne_nil cs)
  simp; omega

theorem newline_not_mem_spaces (n : Nat) : '\n' ∉ List.replicate n ' ' := by
  intro h
  exact absurd (List.eq_of_mem_replicate h) (by decide)

/-- The recorded position is the end of the text. -/
def Located (p : Printer) : Prop := p.row = (lines p.out).length ∧ p.column = utf8Len (lastLine p.out) + 1

theorem located_elementary : Elementary (fun s => '\n' ∉ s) Located where
  basic := fun s p hs h => by
    refine ⟨?_, ?_⟩
    · show p.row = (lines (p.out ++ s)).length
      rw [length_lines_append _ _ hs]; exact h.1
    · show p.column + utf8Len s = utf8Len (lastLine (p.out ++ s)) + 1
      rw [lastLine_append _ _ hs, utf8Len_append, h.2]; omega
  newline := fun p h => by
    refine ⟨?_, ?_⟩
    · show p.row + 1 = (lines (p.out ++ ['\n'])).length
      rw [lines_snoc_newline]; simp [h.1]
    · show 1 = utf8Len (lastLine (p.out ++ ['\n'])) + 1
      rw [lastLine_snoc_newline]; rfl
  spaces := newline_not_mem_spaces

/-- Invariants that survive elementary writes survive every call that writes such pieces. -/
theorem Elementary.exec {S : List Char → Prop} {I : Printer → Prop} (e : Elementary S I)
    (hS : ∀ s, '\n' ∉ s → S s) (hi : ∀ p n, I p → I { p with indent := n }) {checks : Bool} {op : Op}
    {p q : Printer} (ht : ∀ t ∈ asked op, S t) (hn : ∀ s next, op = .flow s next → S next) (hp : I p)
    (h : exec checks op p = .ok q) : I q := by
  cases op with
  | token t => cases h; exact e.writeToken t p (ht t (by simp [asked])) hp
  | tokens t n =>
    cases h
    cases n with
    | zero => exact hp
    | succ n => exact e.writeTokens t _ p (ht t (by simp [asked])) hp
  | string s => cases h; exact e.writeToken _ p (ht _ (by simp [asked])) hp
  | triple s => cases h; exact e.writeToken _ p (ht _ (by simp [asked])) hp
  | space => cases h; exact e.writeSpace p hp
  | spaces n => cases h; exact e.writeSpaces n p hp
  | newline => cases h; exact e.newline p hp
  | indent => cases h; exact e.writeIndent p hp
  | incr => cases h; unfold increaseIndent; split <;> exact hi _ _ hp
  | incrBy n => cases h; unfold increaseIndentBy; split <;> exact hi _ _ hp
  | decr =>
    cases h; unfold decreaseIndent; split
    · exact hp
    · exact hi _ _ hp
  | decrBy n => cases h; unfold decreaseIndentBy; split <;> exact hi _ _ hp
  | flow s next => exact e.writeFlowable checks hS _ s next p q (hn s next rfl) hp h
  | stop hang => cases hang <;> cases h

/-! ## Property C43 -/

/-- **C43: the indentation always leaves room for a tab on the page**, whatever calls are made.  (For a page
narrower than a tab the level stays at zero.) -/
theorem C43_indentation_fits_page (checks : Bool) (tab page : Nat) (ops : List Op) (p : Printer)
    (h : run checks ops (new tab page) = .ok p) : p.indent * tab ≤ page - tab := by
  obtain ⟨h1, h2, _, _⟩ := run_limits h (Nat.zero_le _)
  exact maxIndent_fits tab page p.indent (h2 ▸ h1)

/-- **C43: within the limit, every change of the level takes effect exactly**; so equal numbers of increases
and decreases restore it.  `limit` is the greatest level the page has room for. -/
theorem C43_indentation_balances (checks : Bool) (tab page : Nat) (ht : 0 < tab) (before ops : List Op)
    (p q : Printer) (h1 : run checks before (new tab page) = .ok p) (h2 : run checks ops p = .ok q)
    (hlimit : ∀ k, 0 ≤ p.indent + changes (ops.take k) ∧ p.indent + changes (ops.take k) ≤ (page / tab - 1 : Nat)) :
    (q.indent : Int) = p.indent + changes ops := by
  have hmax : p.maxIndent = page / tab - 1 := by
    rw [(run_limits h1 (Nat.zero_le _)).2.1]
    simp [new, Nat.ne_of_gt ht]
  have hle := (run_limits h1 (Nat.zero_le _)).1
  clear h1
  induction ops generalizing p with
  | nil => cases h2; simp [changes]
  | cons op ops ih =>
    obtain ⟨p', h3, h4⟩ := run_cons h2
    have hk := hlimit 1
    simp only [List.take_succ_cons, List.take_zero, changes, List.map_cons, List.map_nil, List.sum_cons,
      List.sum_nil, Int.add_zero] at hk
    have hc := exec_change h3 hk.1 (by rw [hmax]; exact hk.2)
    obtain ⟨a, b, _, _⟩ := exec_limits h3 hle
    have := ih p' h4 (fun k => by
      have := hlimit (k + 1)
      simp only [List.take_succ_cons, changes, List.map_cons, List.sum_cons] at this
      rw [hc]
      unfold changes
      omega) (b.trans hmax) a
    rw [this, hc]
    simp only [changes, List.map_cons, List.sum_cons]
    omega

/-- The hypotheses are satisfiable: a nested block. -/
example : endsWith (fun q => q.indent == 0) (run true [.token "{".toList, .incr, .newline, .indent, .incrBy 2,
    .decrBy 2, .decr, .token "}".toList] (new 4 150)) = true := by decide +kernel

/-- Beyond the limit the levels no longer balance: the level returned to is not the one left. -/
theorem C43_beyond_limit_example :
    endsWith (fun q => q.indent == 0) (run true [.incr, .incr, .incr, .decr, .decr] (new 4 12)) = true := by
  decide +kernel

/-! ## Property C44 -/

/-- **C44, in part.** After any calls that are asked to write pieces without newlines, the recorded row is
the number of lines of the text written and the recorded column is one more than the length (in bytes) of its
last line.  What is missing: pieces with newlines in them, see the counterexample. -/
theorem C44_position_partial (checks : Bool) (tab page : Nat) (ops : List Op) (p : Printer)
    (hops : ∀ op ∈ ops, oneLine op) (h : run checks ops (new tab page) = .ok p) :
    p.row = (lines p.out).length ∧ p.column = utf8Len (lastLine p.out) + 1 := by
  have key : ∀ (p q : Printer), Located p → run checks ops p = .ok q → Located q := by
    clear h
    induction ops with
    | nil => intro p q hp h; cases h; exact hp
    | cons op ops ih =>
      intro p q hp h
      obtain ⟨p', h1, h2⟩ := run_cons h
      have ho := hops op List.mem_cons_self
      exact ih (fun o ho => hops o (List.mem_cons_of_mem _ ho)) p' q
        (located_elementary.exec (fun _ h => h) (fun _ _ h => h) ho.1 ho.2 hp h1) h2
  exact key _ p ⟨rfl, rfl⟩ h

example : endsWith (fun q => q.row == 2 && q.column == 9) (run true [.token "contract".toList, .space,
    .token "A".toList, .newline, .incr, .indent, .token "uint".toList] (new 4 150)) = true := by decide +kernel

/-- **C44 fails for pieces with newlines**, such as the doc strings that the Vyper printer writes: the row
stays behind and the column is far off. -/
theorem C44_triple_string_counterexample :
    ∃ q, run true [.triple "a\nb".toList] (new 4 150) = .ok q ∧
      q.row = 1 ∧ (lines q.out).length = 2 ∧ q.column = 10 ∧ utf8Len (lastLine q.out) + 1 = 5 :=
  ⟨{ row := 1, column := 10, tabWidth := 4, pageWidth := 150, indent := 0, maxIndent := 36,
     out := "\"\"\"a\nb\"\"\"".toList },
   by decide +kernel, by decide +kernel, by decide +kernel, by decide +kernel, by decide +kernel⟩

/-- `reset` leaves the position in row and column zero, where a new printer starts in row and column one. -/
theorem C44_reset_counterexample (tab page : Nat) :
    (new tab page).reset.row ≠ (new tab page).row ∧ (new tab page).reset.column ≠ (new tab page).column := by
  simp [reset, new]

/-! ## Property C45 -/

/-- The layout written between the pieces. -/
theorem Woven.spaces {ts : List (List Char)} {out : List Char} (h : Woven ts out) (n : Nat) :
    Woven ts (out ++ List.replicate n ' ') := by
  induction n generalizing out with
  | zero => simpa using h
  | succ n ih =>
    rw [List.replicate_succ, show out ++ ' ' :: List.replicate n ' ' = (out ++ [' ']) ++ List.replicate n ' ' by simp]
    exact ih (h.gap (Or.inl rfl))

theorem woven_newline {ts : List (List Char)} {p : Printer} (h : Woven ts p.out) :
    Woven ts p.writeNewline.out := h.gap (Or.inr rfl)

theorem woven_writeIndent {ts : List (List Char)} {p : Printer} (h : Woven ts p.out) :
    Woven ts p.writeIndent.out := by
  unfold writeIndent
  split
  · exact h
  · exact h.spaces _

theorem woven_writeSpace {ts : List (List Char)} {p : Printer} (h : Woven ts p.out) :
    Woven ts p.writeSpace.out := by
  unfold writeSpace
  simp only
  split
  · exact (woven_writeIndent (woven_newline h)).spaces 1
  · exact h.spaces 1

theorem woven_writeSpaces {ts : List (List Char)} (n : Nat) {p : Printer} (h : Woven ts p.out) :
    Woven ts (writeSpaces n p).out := by
  induction n generalizing p with
  | zero => exact h
  | succ n ih => exact ih (woven_writeSpace h)

theorem woven_writeToken {ts : List (List Char)} (t : List Char) {p : Printer} (h : Woven ts p.out) :
    Woven (ts ++ [t]) (p.writeToken t).out := by
  unfold writeToken
  simp only
  have h1 : Woven ts (if p.column > p.pageWidth then p.writeNewline else p).out := by
    split
    · exact woven_newline h
    · exact h
  generalize (if p.column > p.pageWidth then p.writeNewline else p) = q at h1 ⊢
  have h2 := woven_writeIndent (woven_newline h1)
  split <;> split <;> first | exact h2.piece t | exact h1.piece t

theorem woven_writeTokens {ts : List (List Char)} (t : List Char) (n : Nat) {p : Printer} (h : Woven ts p.out) :
    Woven (ts ++ List.replicate n t) (writeTokens t n p).out := by
  induction n generalizing ts p with
  | zero => simpa [writeTokens] using h
  | succ n ih =>
    rw [List.replicate_succ, show ts ++ t :: List.replicate n t = (ts ++ [t]) ++ List.replicate n t by simp]
    exact ih (woven_writeToken t h)

theorem woven_exec {checks : Bool} {op : Op} {ts : List (List Char)} {p q : Printer} (h : Woven ts p.out)
    (hn : noFlow op) (he : exec checks op p = .ok q) : Woven (ts ++ asked op) q.out := by
  cases op with
  | token t => cases he; exact woven_writeToken t h
  | tokens t n => cases he; exact woven_writeTokens t n h
  | string s => cases he; exact woven_writeToken _ h
  | triple s => cases he; exact woven_writeToken _ h
  | space => cases he; simpa [asked] using woven_writeSpace h
  | spaces n => cases he; simpa [asked] using woven_writeSpaces n h
  | newline => cases he; simpa [asked] using woven_newline h
  | indent => cases he; simpa [asked] using woven_writeIndent h
  | incr => cases he; unfold increaseIndent; split <;> simpa [asked] using h
  | incrBy n => cases he; unfold increaseIndentBy; split <;> simpa [asked] using h
  | decr => cases he; unfold decreaseIndent; split <;> simpa [asked] using h
  | decrBy n => cases he; unfold decreaseIndentBy; split <;> simpa [asked] using h
  | flow s next => exact hn.elim
  | stop hang => cases hang <;> cases he

/-- **C45: tokens are never lost, split or reordered.** After any calls (other than flowable text, for which
see C46) the text written is the pieces asked for, in order, each in one piece, with nothing but spaces and
newlines around them. -/
theorem C45_tokens_kept (checks : Bool) (tab page : Nat) (ops : List Op) (p : Printer)
    (hn : ∀ op ∈ ops, noFlow op) (h : run checks ops (new tab page) = .ok p) :
    Woven (ops.flatMap asked) p.out := by
  have key : ∀ (ts : List (List Char)) (p q : Printer), Woven ts p.out → run checks ops p = .ok q →
      Woven (ts ++ ops.flatMap asked) q.out := by
    clear h
    induction ops with
    | nil => intro ts p q hp h; cases h; simpa using hp
    | cons op ops ih =>
      intro ts p q hp h
      obtain ⟨p', h1, h2⟩ := run_cons h
      have := ih (fun o ho => hn o (List.mem_cons_of_mem _ ho)) _ p' q (woven_exec hp (hn op List.mem_cons_self) h1) h2
      simpa using this
  simpa using key [] _ p Woven.nil h

theorem woven_filter {ts : List (List Char)} {out : List Char} (h : Woven ts out) :
    out.filter (fun c => c ≠ ' ' ∧ c ≠ '\n') = ts.flatten.filter (fun c => c ≠ ' ' ∧ c ≠ '\n') := by
  induction h with
  | nil => rfl
  | gap _ hc ih => rcases hc with rfl | rfl <;> simpa using ih
  | piece t _ ih => simp only [List.filter_append, ih, List.flatten_append, List.flatten_cons, List.flatten_nil,
      List.append_nil]

/-- **C45: apart from spaces and newlines the text is exactly what was asked for.** -/
theorem C45_text_without_layout (checks : Bool) (tab page : Nat) (ops : List Op) (p : Printer)
    (hn : ∀ op ∈ ops, noFlow op) (h : run checks ops (new tab page) = .ok p) :
    p.out.filter (fun c => c ≠ ' ' ∧ c ≠ '\n')
      = (ops.flatMap asked).flatten.filter (fun c => c ≠ ' ' ∧ c ≠ '\n') :=
  woven_filter (C45_tokens_kept checks tab page ops p hn h)

/-- A page so narrow that a line break is inserted between the tokens. -/
example : endsWith (fun q => q.out == "return \n\"x y\"".toList)
    (run true [.token "return".toList, .space, .string "x y".toList] (new 1 10)) = true := by decide +kernel

/-! ## Property C57 -/

/-- The position is that of the end of the text, and all lines end before the right margin. -/
def Inside (p : Printer) : Prop :=
  Located p ∧ p.column ≤ p.pageWidth ∧ ∀ l ∈ lines p.out, utf8Len l < p.pageWidth

theorem inside_newline {p : Printer} (h : Inside p) (hpos : 0 < p.pageWidth) : Inside p.writeNewline := by
  refine ⟨located_elementary.newline p h.1, hpos, ?_⟩
  intro l hl
  change l ∈ lines (p.out ++ ['\n']) at hl
  rw [lines_snoc_newline, List.mem_append] at hl
  rcases hl with hl | hl
  · exact h.2.2 l hl
  · simp at hl; subst hl; exact hpos

theorem inside_basic {p : Printer} (s : List Char) (hs : '\n' ∉ s) (h : Inside p)
    (hfit : p.column + utf8Len s ≤ p.pageWidth) : Inside (p.basic s) := by
  refine ⟨located_elementary.basic s p hs h.1, hfit, ?_⟩
  intro l hl
  change l ∈ lines (p.out ++ s) at hl
  rw [lines_append _ _ hs, List.mem_append] at hl
  rcases hl with hl | hl
  · exact h.2.2 l (List.dropLast_subset _ hl)
  · simp at hl
    subst hl
    show utf8Len (lastLine p.out ++ s) < p.pageWidth
    have := h.1.2
    rw [utf8Len_append]
    omega

theorem writeIndent_column (p : Printer) : p.writeIndent.column = p.column + p.indentLength := by
  unfold writeIndent indentString
  split
  · rename_i h
    simp at h
    omega
  · simp [basic, utf8Len_replicate_space]

theorem inside_writeIndent {p : Printer} (h : Inside p) (hfit : p.column + p.indentLength ≤ p.pageWidth) :
    Inside p.writeIndent := by
  unfold writeIndent
  split
  · exact h
  · exact inside_basic _ (newline_not_mem_spaces _) h (by rw [indentString, utf8Len_replicate_space]; exact hfit)

theorem inside_fresh {p : Printer} (h : Inside p) (hfit : p.indentLength < p.pageWidth) :
    Inside p.writeNewline.writeIndent :=
  inside_writeIndent (inside_newline h (by omega)) (by
    show 1 + p.indentLength ≤ p.pageWidth
    omega)

theorem fresh_column (p : Printer) : p.writeNewline.writeIndent.column = 1 + p.indentLength := by
  rw [writeIndent_column]; rfl

theorem fresh_pageWidth (p : Printer) : p.writeNewline.writeIndent.pageWidth = p.pageWidth :=
  (sameLayout_writeIndent p.writeNewline).pageWidth

theorem inside_writeSpace {p : Printer} (h : Inside p) (hfit : p.indentLength + 2 ≤ p.pageWidth) :
    Inside p.writeSpace := by
  unfold writeSpace
  simp only
  have h1 : utf8Len [' '] = 1 := by simp [Char.utf8Size]
  split
  · refine inside_basic [' '] (by decide) (inside_fresh h (by omega)) ?_
    rw [fresh_column, fresh_pageWidth, h1]
    omega
  · have := h.2.1
    exact inside_basic [' '] (by decide) h (by rw [h1]; omega)

theorem inside_writeToken {p : Printer} (t : List Char) (ht : '\n' ∉ t) (h : Inside p)
    (hfit : p.indentLength + utf8Len t < p.pageWidth) : Inside (p.writeToken t) := by
  unfold writeToken
  simp only
  have hc := h.2.1
  rw [if_neg (show ¬ p.column > p.pageWidth by omega), if_neg (by omega)]
  split
  · refine inside_basic t ht (inside_fresh h (by omega)) ?_
    rw [fresh_column, fresh_pageWidth]
    omega
  · exact inside_basic t ht h (by omega)

theorem inside_exec {checks : Bool} {op : Op} {p q : Printer} (h : Inside p) (hf : opFits op p)
    (hfit : p.indentLength + 2 ≤ p.pageWidth) (he : exec checks op p = .ok q) : Inside q := by
  obtain ⟨ht, hn, hi⟩ := hf
  cases op with
  | token t => cases he; exact inside_writeToken t (ht t (by simp [asked])).1 h (ht t (by simp [asked])).2
  | tokens t n =>
    cases he
    show Inside (writeTokens t n p)
    clear hi hn
    induction n generalizing p with
    | zero => exact h
    | succ n ih =>
      have h1 := ht t (by simp [asked])
      have hs := sameLayout_writeToken t p
      refine ih (inside_writeToken t h1.1 h h1.2) ?_ (fun t' h' => ?_)
      · rw [hs.indentLength, hs.pageWidth]; exact hfit
      · have : t' = t := by simp [asked] at h'; exact h'.2
        subst this
        rw [hs.indentLength, hs.pageWidth]; exact h1
  | string s => cases he; exact inside_writeToken _ (ht _ (by simp [asked])).1 h (ht _ (by simp [asked])).2
  | triple s => cases he; exact inside_writeToken _ (ht _ (by simp [asked])).1 h (ht _ (by simp [asked])).2
  | space => cases he; exact inside_writeSpace h hfit
  | spaces n =>
    cases he
    show Inside (writeSpaces n p)
    clear hi hn ht
    induction n generalizing p with
    | zero => exact h
    | succ n ih =>
      have hs := sameLayout_writeSpace p
      exact ih (inside_writeSpace h hfit) (by rw [hs.indentLength, hs.pageWidth]; exact hfit)
  | newline => cases he; exact inside_newline h (by omega)
  | indent => cases he; exact inside_writeIndent h (by rw [hi rfl]; omega)
  | incr => cases he; unfold increaseIndent; split <;> exact h
  | incrBy n => cases he; unfold increaseIndentBy; split <;> exact h
  | decr => cases he; unfold decreaseIndent; split <;> exact h
  | decrBy n => cases he; unfold decreaseIndentBy; split <;> exact h
  | flow s next => exact hn.elim
  | stop hang => cases hang <;> cases he

/-- **C57: lines stay within the page.** If every piece written fits between the current indentation and the
right margin, then no line of the text is longer than the page is wide, however the calls are combined. -/
theorem C57_lines_within_page (checks : Bool) (tab page : Nat) (ht : 2 ≤ tab) (hp : 2 ≤ page) (ops : List Op)
    (p : Printer) (hfit : allFit checks ops (new tab page)) (h : run checks ops (new tab page) = .ok p) :
    ∀ l ∈ lines p.out, utf8Len l < page := by
  have key : ∀ (p q : Printer), p.pageWidth = page → p.tabWidth = tab → p.maxIndent = (new tab page).maxIndent →
      p.indent ≤ p.maxIndent → Inside p → allFit checks ops p → run checks ops p = .ok q →
      Inside q ∧ q.pageWidth = page := by
    clear h hfit
    induction ops with
    | nil => intro p q h1 _ _ _ hi _ h; cases h; exact ⟨hi, h1⟩
    | cons op ops ih =>
      intro p q h1 h2 h3 h4 hi hf h
      obtain ⟨p', e1, e2⟩ := run_cons h
      have hlen : p.indentLength + 2 ≤ p.pageWidth := by
        have := maxIndent_fits tab page p.indent (h3 ▸ h4)
        unfold indentLength
        rw [h2, h1]
        omega
      obtain ⟨a, b, c, d⟩ := exec_limits e1 h4
      exact ih p' q (d.trans h1) (c.trans h2) (b.trans h3) a (inside_exec hi hf.1 hlen e1) (hf.2 p' e1) e2
  have hnew : Inside (new tab page) := by
    refine ⟨⟨rfl, rfl⟩, by show 1 ≤ page; omega, ?_⟩
    intro l hl
    simp [new, lines] at hl
    subst hl
    show 0 < page
    omega
  obtain ⟨h1, h2⟩ := key _ p rfl rfl rfl (Nat.zero_le _) hnew hfit h
  intro l hl
  exact h2 ▸ h1.2.2 l hl

/-- The hypotheses are satisfiable, with a line break forced by the margin. -/
example : allFit true [.incr, .token "abcd".toList, .token "efg".toList] (new 2 7) ∧
    endsWith (fun q => q.out == "abcd\n  efg".toList)
      (run true [.incr, .token "abcd".toList, .token "efg".toList] (new 2 7)) = true := by
  refine ⟨⟨by simp [opFits, asked, noFlow], fun p h => ?_⟩, by decide +kernel⟩
  cases h
  refine ⟨⟨fun t ht => ?_, trivial, by simp⟩, fun p h => ?_⟩
  · simp [asked] at ht; subst ht; decide +kernel
  · cases h
    refine ⟨⟨fun t ht => ?_, trivial, by simp⟩, fun p h => trivial⟩
    simp [asked] at ht; subst ht; decide +kernel

/-- A token that does not fit may lead to a longer line. -/
theorem C57_long_token_example :
    endsWith (fun q => (lines q.out).any (fun l => utf8Len l > 4))
      (run true [.token "abcdef".toList] (new 2 4)) = true := by decide +kernel

end Printer
end Mutagenyx
