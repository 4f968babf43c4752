import Verif.Model.PrinterOps
import Verif.Props.Strings

/-!
# Lemmas about the token printer
-/

namespace Mutagenyx

@[simp] theorem utf8Len_nil : utf8Len [] = 0 := rfl
@[simp] theorem utf8Len_cons (c : Char) (cs : List Char) : utf8Len (c :: cs) = c.utf8Size + utf8Len cs := by
  simp [utf8Len]
@[simp] theorem utf8Len_append (a b : List Char) : utf8Len (a ++ b) = utf8Len a + utf8Len b := by
  simp [utf8Len]
@[simp] theorem utf8Len_reverse (a : List Char) : utf8Len a.reverse = utf8Len a := by
  induction a with
  | nil => rfl
  | cons c cs ih => simp [ih, Nat.add_comm]

theorem utf8Len_replicate_space (n : Nat) : utf8Len (List.replicate n ' ') = n := by
  induction n with
  | zero => rfl
  | succ n ih => rw [List.replicate_succ, utf8Len_cons, ih]; simp [Char.utf8Size]; omega

namespace Printer

/-! ### What the calls leave alone -/

@[simp] theorem basic_indent (s : List Char) (p : Printer) : (p.basic s).indent = p.indent := rfl
@[simp] theorem basic_maxIndent (s : List Char) (p : Printer) : (p.basic s).maxIndent = p.maxIndent := rfl
@[simp] theorem basic_tabWidth (s : List Char) (p : Printer) : (p.basic s).tabWidth = p.tabWidth := rfl
@[simp] theorem basic_pageWidth (s : List Char) (p : Printer) : (p.basic s).pageWidth = p.pageWidth := rfl
@[simp] theorem newline_indent (p : Printer) : p.writeNewline.indent = p.indent := rfl
@[simp] theorem newline_maxIndent (p : Printer) : p.writeNewline.maxIndent = p.maxIndent := rfl
@[simp] theorem newline_tabWidth (p : Printer) : p.writeNewline.tabWidth = p.tabWidth := rfl
@[simp] theorem newline_pageWidth (p : Printer) : p.writeNewline.pageWidth = p.pageWidth := rfl

/-- Widths and indentation: what is the same before and after a writing call. -/
structure SameLayout (p q : Printer) : Prop where
  indent : q.indent = p.indent
  maxIndent : q.maxIndent = p.maxIndent
  tabWidth : q.tabWidth = p.tabWidth
  pageWidth : q.pageWidth = p.pageWidth

theorem SameLayout.refl (p : Printer) : SameLayout p p := ⟨rfl, rfl, rfl, rfl⟩
theorem SameLayout.trans {p q r : Printer} (h : SameLayout p q) (k : SameLayout q r) : SameLayout p r :=
  ⟨k.1.trans h.1, k.2.trans h.2, k.3.trans h.3, k.4.trans h.4⟩

theorem SameLayout.indentLength {p q : Printer} (h : SameLayout p q) : q.indentLength = p.indentLength := by
  simp [Printer.indentLength, h.1, h.3]
theorem SameLayout.indentString {p q : Printer} (h : SameLayout p q) : q.indentString = p.indentString := by
  simp [Printer.indentString, h.indentLength]

/-- A predicate on printers that survives every elementary write survives every writing call.  `S` says
which pieces may be written. -/
structure Elementary (S : List Char → Prop) (I : Printer → Prop) : Prop where
  basic : ∀ s p, S s → I p → I (p.basic s)
  newline : ∀ p, I p → I p.writeNewline
  spaces : ∀ n, S (List.replicate n ' ')

namespace Elementary

variable {S : List Char → Prop} {I : Printer → Prop} (e : Elementary S I)
include e

theorem writeIndent (p : Printer) (h : I p) : I p.writeIndent := by
  unfold Printer.writeIndent
  split
  · exact h
  · exact e.basic _ _ (e.spaces _) h

theorem fresh (p : Printer) (h : I p) : I p.writeNewline.writeIndent := e.writeIndent _ (e.newline _ h)

theorem writeSpace (p : Printer) (h : I p) : I p.writeSpace := by
  unfold Printer.writeSpace
  simp only
  split
  · exact e.basic [' '] _ (e.spaces 1) (e.fresh _ h)
  · exact e.basic [' '] _ (e.spaces 1) h

theorem writeSpaces (n : Nat) (p : Printer) (h : I p) : I (Printer.writeSpaces n p) := by
  induction n generalizing p with
  | zero => exact h
  | succ n ih => exact ih _ (e.writeSpace p h)

theorem writeToken (t : List Char) (p : Printer) (ht : S t) (h : I p) : I (p.writeToken t) := by
  unfold Printer.writeToken
  simp only
  have h1 : I (if p.column > p.pageWidth then p.writeNewline else p) := by
    split
    · exact e.newline _ h
    · exact h
  generalize (if p.column > p.pageWidth then p.writeNewline else p) = q at h1 ⊢
  split
  · split
    · exact e.basic _ _ ht (e.fresh _ h1)
    · exact e.basic _ _ ht h1
  · split
    · exact e.basic _ _ ht (e.fresh _ h1)
    · exact e.basic _ _ ht h1

theorem writeTokens (t : List Char) (n : Nat) (p : Printer) (ht : S t) (h : I p) :
    I (Printer.writeTokens t n p) := by
  induction n generalizing p with
  | zero => exact h
  | succ n ih => exact ih _ (e.writeToken t p ht h)

end Elementary

theorem sameLayout_elementary (p : Printer) : Elementary (fun _ => True) (SameLayout p) where
  basic := fun _ _ _ h => h.trans ⟨rfl, rfl, rfl, rfl⟩
  newline := fun _ h => h.trans ⟨rfl, rfl, rfl, rfl⟩
  spaces := fun _ => trivial

theorem sameLayout_writeIndent (p : Printer) : SameLayout p p.writeIndent :=
  (sameLayout_elementary p).writeIndent p (.refl p)
theorem sameLayout_writeSpace (p : Printer) : SameLayout p p.writeSpace :=
  (sameLayout_elementary p).writeSpace p (.refl p)
theorem sameLayout_writeSpaces (n : Nat) (p : Printer) : SameLayout p (writeSpaces n p) :=
  (sameLayout_elementary p).writeSpaces n p (.refl p)
theorem sameLayout_writeToken (t : List Char) (p : Printer) : SameLayout p (p.writeToken t) :=
  (sameLayout_elementary p).writeToken t p trivial (.refl p)
theorem sameLayout_writeTokens (t : List Char) (n : Nat) (p : Printer) : SameLayout p (writeTokens t n p) :=
  (sameLayout_elementary p).writeTokens t n p trivial (.refl p)

/-! ### Bytes -/

theorem chars_append (a b : List (Option Char)) : chars (a ++ b) = chars a ++ chars b := by
  simp [chars]

theorem chars_cells (cs : List Char) : chars (cells cs) = cs := by
  induction cs with
  | nil => rfl
  | cons c cs ih =>
    unfold cells
    have : chars (List.replicate (c.utf8Size - 1) none) = [] := by
      unfold chars
      induction c.utf8Size - 1 with
      | zero => rfl
      | succ n ih => simp
    rw [show some c :: (List.replicate (c.utf8Size - 1) none ++ cells cs)
      = [some c] ++ (List.replicate (c.utf8Size - 1) none ++ cells cs) from rfl, chars_append, chars_append, this, ih]
    rfl

theorem cells_length (cs : List Char) : (cells cs).length = utf8Len cs := by
  induction cs with
  | nil => rfl
  | cons c cs ih =>
    have := c.utf8Size_pos
    simp [cells, ih]; omega

theorem flowText_eq (s : List Char) :
    flowText s = .ok (Text.collapse (s.map fun c => if c = '\n' then ' ' else c)) :=
  Text.C52_double_spaces _

theorem mem_collapse (t : List Char) (c : Char) (h : c ∈ Text.collapse t) : c ∈ t := by
  induction t with
  | nil => cases h
  | cons a as ih =>
    cases as with
    | nil => exact h
    | cons b bs =>
      unfold Text.collapse at h
      split at h
      · exact List.mem_cons_of_mem _ (ih h)
      · rcases List.mem_cons.1 h with rfl | h
        · exact List.mem_cons_self
        · exact List.mem_cons_of_mem _ (ih h)

theorem flowText_no_newline (s t : List Char) (h : flowText s = .ok t) : '\n' ∉ t := by
  rw [flowText_eq] at h
  cases h
  intro hm
  have := mem_collapse _ _ hm
  simp only [List.mem_map] at this
  obtain ⟨c, _, hc⟩ := this
  split at hc
  · exact absurd hc (by decide)
  · contradiction

theorem breakText_first {left : Nat} {bs first rest : List (Option Char)}
    (h : breakText left bs = .ok (first, rest)) : ∃ i, first = bs.take i := by
  unfold breakText cut at h
  simp only at h
  generalize (if bs[left]? = some (some ' ') then left else (scanWords (bs.take left) 0 {}).start) = i at h
  split at h
  · rename_i hc
    split at hc
    · cases hc
    · cases hc
      cases h
      exact ⟨i, rfl⟩
  all_goals cases h

theorem breakText_no_newline {left : Nat} {t : List Char} {first rest : List (Option Char)} (ht : '\n' ∉ t)
    (h : breakText left (cells t) = .ok (first, rest)) : '\n' ∉ chars first := by
  obtain ⟨i, rfl⟩ := breakText_first h
  intro hm
  apply ht
  rw [← chars_cells t]
  exact (List.Sublist.filterMap id (List.take_sublist i _)).subset hm

/-- Invariants that survive elementary writes survive flowable text. -/
theorem Elementary.writeFlowable {S : List Char → Prop} {I : Printer → Prop} (e : Elementary S I)
    (checks : Bool) (hS : ∀ s, '\n' ∉ s → S s) (fuel : Nat) (s next : List Char) (p q : Printer)
    (hn : S next) (hp : I p)
    (h : Printer.writeFlowable checks fuel s next p = .ok q) : I q := by
  induction fuel generalizing s p with
  | zero => cases h
  | succ n ih =>
    unfold Printer.writeFlowable at h
    cases hf : flowText s with
    | err _ => rw [hf] at h; cases h
    | panic => rw [hf] at h; cases h
    | outOfFuel => rw [hf] at h; cases h
    | ok t =>
      rw [hf] at h
      have hnt := flowText_no_newline s t hf
      simp only at h
      split at h
      · split at h
        · cases h
        · cases h
          exact e.basic _ _ (hS _ hnt) hp
      · split at h
        · split at h
          · exact ih _ _ (e.writeToken _ _ hn (e.fresh _ hp)) h
          · cases hb : breakText (p.pageWidth - p.column) (cells t) with
            | err _ => rw [hb] at h; cases h
            | panic => rw [hb] at h; cases h
            | outOfFuel => rw [hb] at h; cases h
            | ok fr =>
              obtain ⟨first, rest⟩ := fr
              rw [hb] at h
              have hfirst := breakText_no_newline hnt hb
              simp only at h
              have h1 : I (if first.isEmpty then p else p.basic (chars first)) := by
                split
                · exact hp
                · exact e.basic _ _ (hS _ hfirst) hp
              have h2 := e.writeToken _ _ hn (e.fresh _ h1)
              split at h
              · cases h
                exact h2
              · exact ih _ _ h2 h
        · cases h
          exact e.basic _ _ (hS _ hnt) hp

end Printer
end Mutagenyx
