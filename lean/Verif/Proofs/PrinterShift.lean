import Verif.Props.Printer

/-!
# What the printer does depends neither on the text before nor on the number of the line
-/

namespace Mutagenyx
namespace Printer

/-- The printer with more lines and more text before. -/
def shift (r : Nat) (o : List Char) (p : Printer) : Printer := { p with row := r + p.row, out := o ++ p.out }

/-- The printer with an empty page. -/
def base (p : Printer) : Printer := { p with row := 0, out := [] }

theorem shift_base (p : Printer) : shift p.row p.out (base p) = p := by simp [shift, base]

variable (r : Nat) (o : List Char)

theorem shift_basic (s : List Char) (p : Printer) : (shift r o p).basic s = shift r o (p.basic s) := by
  simp [shift, basic]

theorem shift_newline (p : Printer) : (shift r o p).writeNewline = shift r o p.writeNewline := by
  simp [shift, writeNewline, Nat.add_assoc]

theorem shift_indent (p : Printer) : (shift r o p).writeIndent = shift r o p.writeIndent := by
  unfold writeIndent
  have h : (shift r o p).indentString = p.indentString := rfl
  rw [h]
  split
  · rfl
  · exact shift_basic r o _ p

theorem shift_ite {c : Prop} [Decidable c] (a b : Printer) : (if c then shift r o a else shift r o b) = shift r o (if c then a else b) := by
  split <;> rfl

theorem shift_space (p : Printer) : (shift r o p).writeSpace = shift r o p.writeSpace := by
  unfold writeSpace
  simp only [show (shift r o p).column = p.column from rfl, show (shift r o p).pageWidth = p.pageWidth from rfl,
    shift_newline, shift_indent, shift_ite, shift_basic]

theorem shift_spaces (n : Nat) (p : Printer) : writeSpaces n (shift r o p) = shift r o (writeSpaces n p) := by
  induction n generalizing p with
  | zero => rfl
  | succ n ih => rw [writeSpaces, shift_space, ih]; rfl

theorem shift_token (t : List Char) (p : Printer) : (shift r o p).writeToken t = shift r o (p.writeToken t) := by
  unfold writeToken
  simp only [show (shift r o p).column = p.column from rfl, show (shift r o p).pageWidth = p.pageWidth from rfl,
    shift_newline, shift_ite]
  generalize (if p.column > p.pageWidth then p.writeNewline else p) = q
  simp only [show (shift r o q).column = q.column from rfl, show (shift r o q).pageWidth = q.pageWidth from rfl,
    show (shift r o q).indentLength = q.indentLength from rfl, shift_newline, shift_indent, shift_basic, shift_ite]

theorem shift_tokens (t : List Char) (n : Nat) (p : Printer) : writeTokens t n (shift r o p) = shift r o (writeTokens t n p) := by
  induction n generalizing p with
  | zero => rfl
  | succ n ih => rw [writeTokens, shift_token, ih]; rfl

/-- The outcome with more lines and more text before. -/
def shiftOut : Outcome Printer → Outcome Printer
  | .ok p => .ok (shift r o p)
  | .err e => .err e
  | .panic => .panic
  | .outOfFuel => .outOfFuel

theorem shift_flowable (checks : Bool) (next : List Char) (fuel : Nat) (s : List Char) (p : Printer) :
    writeFlowable checks fuel s next (shift r o p) = shiftOut r o (writeFlowable checks fuel s next p) := by
  induction fuel generalizing s p with
  | zero => rfl
  | succ n ih =>
    unfold writeFlowable
    cases flowText s with
    | err _ => rfl
    | panic => rfl
    | outOfFuel => rfl
    | ok t =>
      simp only [show (shift r o p).column = p.column from rfl, show (shift r o p).pageWidth = p.pageWidth from rfl]
      split
      · split
        · rfl
        · simp only [shift_basic, shiftOut]
      · split
        · split
          · rw [shift_newline, shift_indent, shift_token, ih]
          · cases breakText (p.pageWidth - p.column) (cells t) with
            | err _ => rfl
            | panic => rfl
            | outOfFuel => rfl
            | ok fr =>
              obtain ⟨first, rest⟩ := fr
              simp only [shift_basic, shift_ite, shift_newline, shift_indent, shift_token, ih]
              split <;> rfl
        · simp only [shift_basic, shiftOut]

theorem shift_exec (checks : Bool) (op : Op) (p : Printer) : exec checks op (shift r o p) = shiftOut r o (exec checks op p) := by
  cases op with
  | token t => simp only [exec, shift_token, shiftOut]
  | tokens t n => simp only [exec, shift_tokens, shiftOut]
  | string s => simp only [exec, writeString, shift_token, shiftOut]
  | triple s => simp only [exec, writeTripleString, shift_token, shiftOut]
  | space => simp only [exec, shift_space, shiftOut]
  | spaces n => simp only [exec, shift_spaces, shiftOut]
  | newline => simp only [exec, shift_newline, shiftOut]
  | indent => simp only [exec, shift_indent, shiftOut]
  | incr =>
    simp only [exec, increaseIndent, shiftOut, show (shift r o p).indent = p.indent from rfl, show (shift r o p).maxIndent = p.maxIndent from rfl]
    split <;> rfl
  | incrBy n =>
    simp only [exec, increaseIndentBy, shiftOut, show (shift r o p).indent = p.indent from rfl, show (shift r o p).maxIndent = p.maxIndent from rfl]
    split <;> rfl
  | decr =>
    simp only [exec, decreaseIndent, shiftOut, show (shift r o p).indent = p.indent from rfl]
    split <;> rfl
  | decrBy n =>
    simp only [exec, decreaseIndentBy, shiftOut, show (shift r o p).indent = p.indent from rfl]
    split <;> rfl
  | flow s next => simp only [exec, writeFlow, shift_flowable]
  | stop hang => cases hang <;> rfl

theorem shift_run (checks : Bool) (ops : List Op) (p : Printer) : run checks ops (shift r o p) = shiftOut r o (run checks ops p) := by
  induction ops generalizing p with
  | nil => rfl
  | cons op ops ih =>
    unfold run
    rw [shift_exec]
    cases exec checks op p with
    | ok q => exact ih q
    | err _ => rfl
    | panic => rfl
    | outOfFuel => rfl

/-- The same calls write the same text on pages that differ only in what is already written. -/
theorem run_elsewhere {checks : Bool} {ops : List Op} {p q p' : Printer} (h : run checks ops p = .ok q) (hb : base p' = base p) :
    ∃ text q', q.out = p.out ++ text ∧ run checks ops p' = .ok q' ∧ q'.out = p'.out ++ text ∧ base q' = base q := by
  rw [← shift_base p, shift_run] at h
  cases hr : run checks ops (base p) with
  | ok t =>
    rw [hr] at h
    cases h
    refine ⟨t.out, shift p'.row p'.out t, rfl, ?_, rfl, rfl⟩
    have := shift_run p'.row p'.out checks ops (base p')
    rw [shift_base, hb, hr] at this
    exact this
  | err _ => rw [hr] at h; cases h
  | panic => rw [hr] at h; cases h
  | outOfFuel => rw [hr] at h; cases h

end Printer
end Mutagenyx
