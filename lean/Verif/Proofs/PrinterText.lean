import Verif.Proofs.PrinterShift
import Verif.Proofs.OneLine
import Verif.Props.NodePrinter
import Verif.Spec.SolidityText

/-!
# Calls among other calls, and the text they write
-/

namespace Mutagenyx
namespace Printer
open NodePrinter (Above changes_cons)

variable {checks : Bool}

/-! ### The level of indentation -/

/-- The printers agree in all but the place on the page and what is written. -/
structure Alike (p q : Printer) : Prop where
  tab : p.tabWidth = q.tabWidth
  page : p.pageWidth = q.pageWidth
  indent : p.indent = q.indent
  max : p.maxIndent = q.maxIndent

theorem alike_of_same {p p' q q' : Printer} (hp : SameLayout p p') (hq : SameLayout q q') (h : Alike p q) : Alike p' q' :=
  ⟨by rw [hp.tabWidth, hq.tabWidth, h.tab], by rw [hp.pageWidth, hq.pageWidth, h.page], by rw [hp.indent, hq.indent, h.indent],
    by rw [hp.maxIndent, hq.maxIndent, h.max]⟩

theorem exec_alike {op : Op} {p p' q q' : Printer} (h : Alike p q) (hp : exec checks op p = .ok p') (hq : exec checks op q = .ok q') :
    Alike p' q' := by
  obtain ⟨h1, h2, h3, h4⟩ := h
  cases op with
  | incr =>
    cases hp; cases hq
    unfold increaseIndent
    simp only [h3, h4]
    split <;> exact ⟨by simpa using h1, by simpa using h2, by simp_all, by simp_all⟩
  | incrBy n =>
    cases hp; cases hq
    unfold increaseIndentBy
    simp only [h3, h4]
    split <;> exact ⟨by simpa using h1, by simpa using h2, by simp_all, by simp_all⟩
  | decr =>
    cases hp; cases hq
    unfold decreaseIndent
    rw [h3]
    split <;> exact ⟨h1, h2, by simp [h3], by simp [h4]⟩
  | decrBy n =>
    cases hp; cases hq
    unfold decreaseIndentBy
    rw [h3]
    split <;> exact ⟨h1, h2, by simp [h3], by simp [h4]⟩
  | _ => exact alike_of_same (exec_writes hp ⟨rfl, by simp⟩) (exec_writes hq ⟨rfl, by simp⟩) ⟨h1, h2, h3, h4⟩

theorem run_alike {ops : List Op} {p p' q q' : Printer} (h : Alike p q) (hp : run checks ops p = .ok p') (hq : run checks ops q = .ok q') :
    Alike p' q' := by
  induction ops generalizing p q with
  | nil => cases hp; cases hq; exact h
  | cons o ops ih =>
    obtain ⟨a, h1, h2⟩ := run_cons hp
    obtain ⟨b, h3, h4⟩ := run_cons hq
    exact ih (exec_alike h h1 h3) h2 h4

theorem exec_level {op : Op} {p q : Printer} {i : Int} (h : exec checks op p = .ok q) (hp : (p.indent : Int) ≤ i)
    (h0 : 0 ≤ i + change op) : (q.indent : Int) ≤ i + change op := by
  cases op with
  | incr => cases h; unfold increaseIndent; simp only [change]; split <;> (try simp only) <;> omega
  | incrBy n => cases h; unfold increaseIndentBy; simp only [change]; split <;> (try simp only) <;> omega
  | decr => cases h; unfold decreaseIndent; simp only [change] at h0 ⊢; split <;> (try simp only) <;> omega
  | decrBy n => cases h; unfold decreaseIndentBy; simp only [change] at h0 ⊢; split <;> (try simp only) <;> omega
  | _ =>
    have := (exec_writes h ⟨rfl, by simp⟩).indent
    simp only [change]
    omega

/-- The level of indentation is at most what the calls ask for. -/
theorem run_level {ops : List Op} {p q : Printer} {i : Int} (h : run checks ops p = .ok q) (hp : (p.indent : Int) ≤ i)
    (ha : Above (-i) ops) : (q.indent : Int) ≤ i + changes ops := by
  induction ops generalizing p i with
  | nil => cases h; simpa [changes] using hp
  | cons o ops ih =>
    obtain ⟨a, h1, h2⟩ := run_cons h
    have h0 : 0 ≤ i + change o := by
      have := ha 1
      simp only [List.take_succ_cons, List.take_zero, changes_cons] at this
      simp [changes] at this
      omega
    have := ih h2 (exec_level h1 hp h0) (fun k => by
      have := ha (k + 1)
      rw [List.take_succ_cons, changes_cons] at this
      omega)
    rw [changes_cons]
    omega

/-! ### Lines -/

theorem run_two {a b : List Op} {p q : Printer} (h : run checks (a ++ b) p = .ok q) :
    ∃ r, run checks a p = .ok r ∧ run checks b r = .ok q := by
  rw [run_append] at h
  split at h
  · exact ⟨_, ‹_›, h⟩
  all_goals cases h

theorem run_two' {a b : List Op} {p q r : Printer} (ha : run checks a p = .ok r) (hb : run checks b r = .ok q) :
    run checks (a ++ b) p = .ok q := by
  rw [run_append, ha]
  exact hb

/-- The start of a line. -/
theorem line_start (p : Printer) : ∃ q, run checks [.newline, .indent] p = .ok q ∧
    q.out = p.out ++ ('\n' :: List.replicate p.indentLength ' ') ∧ q.column = 1 + p.indentLength ∧ SameLayout p q := by
  refine ⟨p.writeNewline.writeIndent, rfl, ?_, ?_, ?_⟩
  · unfold writeIndent
    split
    · rename_i he
      have he : p.indentString = [] := List.isEmpty_iff.1 he
      unfold indentString at he
      simp [writeNewline, he]
    · simp [basic, writeNewline]
      rfl
  · have hl : utf8Len p.indentString = p.indentLength := utf8Len_replicate_space _
    unfold writeIndent
    split
    · rename_i he
      have he : p.indentString = [] := List.isEmpty_iff.1 he
      rw [he] at hl
      simp only [writeNewline]
      simp at hl
      omega
    · simp only [basic, writeNewline]
      show 1 + utf8Len p.indentString = _
      rw [hl]
  · exact ((sameLayout_elementary p).newline _ (.refl p)).trans (sameLayout_writeIndent _)

/-- The calls end the line, perhaps after a change of the indentation. -/
def EndsTheLine (ops : List Op) : Prop := ∃ b, ops = .newline :: b ∨ ops = .decr :: .newline :: b

/-- After the end of a line, it does not matter how long the line was. -/
theorem run_next_line {B : List Op} (hB : EndsTheLine B) {p p' q : Printer} (ha : Alike p p') (h : run checks B p = .ok q) :
    ∃ post q', q.out = p.out ++ '\n' :: post ∧ run checks B p' = .ok q' ∧ q'.out = p'.out ++ '\n' :: post := by
  have key : ∀ {b : List Op} {p p' q : Printer}, Alike p p' → run checks (.newline :: b) p = .ok q →
      ∃ post q', q.out = p.out ++ '\n' :: post ∧ run checks (.newline :: b) p' = .ok q' ∧ q'.out = p'.out ++ '\n' :: post := by
    intro b p p' q ha h
    have hb : base p'.writeNewline = base p.writeNewline := by
      obtain ⟨h1, h2, h3, h4⟩ := ha
      simp [base, writeNewline, h1, h2, h3, h4]
    obtain ⟨post, q', h1, h2, h3, -⟩ := run_elsewhere (checks := checks) (ops := b) (p := p.writeNewline) (p' := p'.writeNewline) h hb
    exact ⟨post, q', by rw [h1]; simp [writeNewline], h2, by rw [h3]; simp [writeNewline]⟩
  obtain ⟨b, rfl | rfl⟩ := hB
  · exact key ha h
  · have ho : ∀ p : Printer, p.decreaseIndent.out = p.out := by intro p; unfold decreaseIndent; split <;> rfl
    obtain ⟨post, q', h1, h2, h3⟩ := key (exec_alike (checks := checks) (op := .decr) ha rfl rfl) (show run checks _ p.decreaseIndent = _ from h)
    exact ⟨post, q', by rw [h1, ho], h2, by rw [h3, ho]⟩

/-- A line, and the same line behind `// `. -/
theorem run_commentLine {S B : List Op} (hS : Op.indent ∈ S → Op.newline ∈ S) {alone p0 : Printer} {s : List Char}
    (hs : run checks S p0 = .ok alone) (ho : alone.out = p0.out ++ s) (hn : '\n' ∉ s)
    {p : Printer} (hfit : p.indentLength + 4 + utf8Len s ≤ p.pageWidth) :
    ∃ r r', Alike r r' ∧ r.out = p.out ++ ('\n' :: (List.replicate p.indentLength ' ' ++ s)) ∧
      r'.out = p.out ++ ('\n' :: (List.replicate p.indentLength ' ' ++ ("// ".toList ++ s))) ∧
      run checks (.newline :: .indent :: (S ++ B)) p = run checks B r ∧
      run checks (.newline :: .indent :: .token "//".toList :: .space :: (S ++ B)) p = run checks B r' := by
  obtain ⟨a, h1, h2, h3, h4⟩ := line_start (checks := checks) p
  have w2 : utf8Len "//".toList = 2 := by decide
  have w1 : utf8Len [' '] = 1 := by decide
  obtain ⟨r, h5, h6, -, -⟩ := run_again hS hs ho hn (r := a) (by rw [h3, h4.pageWidth]; omega)
  obtain ⟨r', h7, h8, -, -⟩ := run_again hS hs ho hn (r := (a.basic "//".toList).basic [' ']) (by
    simp only [basic, h3, h4.pageWidth, w1, w2]; omega)
  have ha : run checks (.token "//".toList :: .space :: (S ++ B)) a = run checks (S ++ B) ((a.basic "//".toList).basic [' ']) := by
    simp only [run, exec]
    rw [writeToken_fits (by rw [w2, h3, h4.pageWidth]; omega), writeSpace_fits (by simp only [basic, w2, h3, h4.pageWidth]; omega)]
  refine ⟨r, r', run_alike (show Alike a ((a.basic "//".toList).basic [' ']) from ⟨rfl, rfl, rfl, rfl⟩) h5 h7, ?_, ?_, ?_, ?_⟩
  · rw [h6, h2]; simp
  · rw [h8]; simp [basic, h2]
  · rw [show Op.newline :: .indent :: (S ++ B) = [.newline, .indent] ++ (S ++ B) from rfl, run_append, h1]
    simp only
    rw [run_append, h5]
  · rw [show Op.newline :: .indent :: .token "//".toList :: .space :: (S ++ B) =
      [.newline, .indent] ++ (.token "//".toList :: .space :: (S ++ B)) from rfl, run_append, h1]
    simp only
    rw [ha, run_append, h7]

/-- One line of many is commented out. -/
theorem run_commentedOut {A S B : List Op} (hS : Op.indent ∈ S → Op.newline ∈ S) (hB : EndsTheLine B) {alone p0 : Printer}
    {s : List Char} (hs : run checks S p0 = .ok alone) (ho : alone.out = p0.out ++ s) (hn : '\n' ∉ s) {n : Nat} {p : Printer}
    (hfit : ∀ r, run checks A p = .ok r → r.indentLength ≤ n ∧ r.indentLength + 4 + utf8Len s ≤ r.pageWidth) :
    (∀ q, run checks (A ++ (.newline :: .indent :: (S ++ B))) p = .ok q →
      ∃ q', run checks (A ++ (.newline :: .indent :: .token "//".toList :: .space :: (S ++ B))) p = .ok q' ∧
        SolText.CommentedOut n s q.out q'.out) ∧
    (∀ q', run checks (A ++ (.newline :: .indent :: .token "//".toList :: .space :: (S ++ B))) p = .ok q' →
      ∃ q, run checks (A ++ (.newline :: .indent :: (S ++ B))) p = .ok q ∧ SolText.CommentedOut n s q.out q'.out) := by
  constructor
  · intro q h
    obtain ⟨a, h1, h2⟩ := run_two h
    obtain ⟨hk, hf⟩ := hfit a h1
    obtain ⟨r, r', g1, g2, g3, g4, g5⟩ := run_commentLine (B := B) hS hs ho hn hf
    rw [g4] at h2
    obtain ⟨post, q', e1, e2, e3⟩ := run_next_line hB g1 h2
    refine ⟨q', run_two' h1 (by rw [g5, e2]), a.out, _, post, hk, ?_, ?_⟩
    · rw [e1, g2]; simp
    · rw [e3, g3]; simp
  · intro q' h
    obtain ⟨a, h1, h2⟩ := run_two h
    obtain ⟨hk, hf⟩ := hfit a h1
    obtain ⟨r, r', ⟨a1, a2, a3, a4⟩, g2, g3, g4, g5⟩ := run_commentLine (B := B) hS hs ho hn hf
    rw [g5] at h2
    obtain ⟨post, q, e1, e2, e3⟩ := run_next_line hB ⟨a1.symm, a2.symm, a3.symm, a4.symm⟩ h2
    refine ⟨q, run_two' h1 (by rw [g4, e2]), a.out, _, post, hk, ?_, ?_⟩
    · rw [e3, g2]; simp
    · rw [e1, g3]; simp

/-! ### More lines -/

theorem lines_newline (a b : List Char) : lines (a ++ '\n' :: b) = lines a ++ lines b := by
  induction a with
  | nil => simp [lines]
  | cons c a ih =>
    simp only [List.cons_append, lines, ih]
    split
    · rfl
    · cases h : lines a with
      | nil => exact absurd h (lines_ne_nil a)
      | cons l ls => rfl

theorem lines_pieces {P : List Char → Prop} (first : List Char) (h1 : P first) (hn : '\n' ∉ first) : (ls : List (List Char)) →
    (∀ l ∈ ls, P l ∧ '\n' ∉ l) → ∀ l ∈ lines (first ++ (ls.map ('\n' :: ·)).flatten), P l
  | [], _ => by
    intro l hl
    simp only [List.map_nil, List.flatten_nil, List.append_nil] at hl
    rw [lines_of_oneLine _ hn, List.mem_singleton] at hl
    rwa [hl]
  | x :: ls, h => by
    intro l hl
    simp only [List.map_cons, List.flatten_cons, List.cons_append] at hl
    rw [lines_newline] at hl
    rcases List.mem_append.1 hl with hl | hl
    · rw [lines_of_oneLine _ hn, List.mem_singleton] at hl
      rwa [hl]
    · obtain ⟨hx, hnx⟩ := h x (List.mem_cons_self ..)
      exact lines_pieces x hx hnx ls (fun y hy => h y (List.mem_cons_of_mem _ hy)) l hl

/-- A comment on lines of its own. -/
theorem run_comment {text : List Char} {F : List Op} (hF : F = [] ∨ F = [.flow text "// ".toList]) {p q : Printer}
    (h : run checks (.indent :: .token "//".toList :: .space :: F) p.writeNewline = .ok q)
    (hroom : p.indentLength + 4 ≤ p.pageWidth) :
    SameLayout p q ∧ ∃ ls, q.out = p.out ++ ('\n' :: ls) ∧
      ∀ l ∈ lines ls, SolText.Blank l ∨ ∃ n rest, l = List.replicate n ' ' ++ ("//".toList ++ rest) := by
  obtain ⟨a, h1, h2, h3, h4⟩ := line_start (checks := checks) p
  have w2 : utf8Len "//".toList = 2 := by decide
  have w1 : utf8Len [' '] = 1 := by decide
  have ha : p.writeNewline.writeIndent = a := by
    have : run checks [.newline, .indent] p = .ok p.writeNewline.writeIndent := rfl
    rw [this] at h1
    cases h1
    rfl
  have hr : run checks F ((a.basic "//".toList).basic [' ']) = .ok q := by
    have : run checks (.indent :: .token "//".toList :: .space :: F) p.writeNewline =
        run checks F ((a.basic "//".toList).basic [' ']) := by
      simp only [run, exec]
      rw [ha, writeToken_fits (by rw [w2, h3, h4.pageWidth]; omega), writeSpace_fits (by simp only [basic, w2, h3, h4.pageWidth]; omega)]
    rw [← this]; exact h
  have hb : SameLayout p ((a.basic "//".toList).basic [' ']) :=
    { tabWidth := h4.tabWidth, pageWidth := h4.pageWidth, indent := h4.indent, maxIndent := h4.maxIndent }
  have ho : ((a.basic "//".toList).basic [' ']).out = p.out ++ ('\n' :: (List.replicate p.indentLength ' ' ++ "// ".toList)) := by
    have : "// ".toList = "//".toList ++ [' '] := by decide
    rw [this]
    simp [basic, h2]
  generalize (a.basic "//".toList).basic [' '] = b at hr hb ho
  have mark : ∀ x : List Char, SolText.Blank (List.replicate p.indentLength ' ' ++ "// ".toList ++ x) ∨
      ∃ n rest, List.replicate p.indentLength ' ' ++ "// ".toList ++ x = List.replicate n ' ' ++ ("//".toList ++ rest) := fun x =>
    .inr ⟨p.indentLength, ' ' :: x, by
      have : "// ".toList = "//".toList ++ [' '] := by decide
      rw [this]; simp⟩
  have nomark : ∀ x : List Char, '\n' ∉ x → '\n' ∉ List.replicate p.indentLength ' ' ++ "// ".toList ++ x := by
    intro x hx
    have : '\n' ∉ "// ".toList := by decide
    simp only [List.mem_append, List.mem_replicate, not_or]
    exact ⟨⟨fun h => absurd h.2 (by decide), this⟩, hx⟩
  rcases hF with rfl | rfl
  · cases hr
    refine ⟨hb, _, ho, ?_⟩
    have := lines_pieces (P := fun l => SolText.Blank l ∨ ∃ n rest, l = List.replicate n ' ' ++ ("//".toList ++ rest)) _ (mark [])
      (nomark [] (by simp)) [] (by simp)
    simpa using this
  · obtain ⟨c, h5, h6⟩ := run_cons hr
    cases h6
    have hw : SameLayout b q := exec_writes h5 ⟨rfl, by simp⟩
    have hl : b.indentLength = p.indentLength := by unfold indentLength; rw [hb.indent, hb.tabWidth]
    have hu : utf8Len "// ".toList = 3 := by decide
    obtain ⟨piece, pieces, h7, h8⟩ := writeFlowable_lines checks "// ".toList _ text b q (by rw [hl, hb.pageWidth, hu]; omega) h5
    refine ⟨hb.trans hw, (List.replicate p.indentLength ' ' ++ "// ".toList ++ piece) ++
      ((pieces.map fun c => List.replicate p.indentLength ' ' ++ "// ".toList ++ c).map ('\n' :: ·)).flatten, ?_, ?_⟩
    · rw [h7, ho]
      have : b.indentString = List.replicate p.indentLength ' ' := by unfold indentString; rw [hl]
      simp [this, Function.comp_def]
    · refine lines_pieces _ (mark piece) (nomark piece (h8 _ (List.mem_cons_self ..))) _ fun l hl => ?_
      obtain ⟨x, hx, rfl⟩ := List.mem_map.1 hl
      exact ⟨mark x, nomark x (h8 _ (List.mem_cons_of_mem _ hx))⟩

theorem alike_same {p q : Printer} (h : SameLayout p q) : Alike q p := ⟨h.tabWidth, h.pageWidth, h.indent, h.maxIndent⟩

/-- A comment among other lines, followed by one or two ends of lines. -/
theorem run_linesAdded {text : List Char} {F A R nls : List Op} (hF : F = [] ∨ F = [.flow text "// ".toList])
    (hnl : nls = [.newline] ∨ nls = [.newline, .newline]) {p q' : Printer}
    (hroom : ∀ r, run checks A p = .ok r → r.indentLength + 4 ≤ r.pageWidth)
    (h : run checks (A ++ (.newline :: ((.indent :: .token "//".toList :: .space :: F) ++ (nls ++ R)))) p = .ok q') :
    ∃ q, run checks (A ++ (.newline :: R)) p = .ok q ∧ SolText.LinesAdded q.out q'.out := by
  obtain ⟨a, h1, h2⟩ := run_two h
  have h2 : run checks ((.indent :: .token "//".toList :: .space :: F) ++ (nls ++ R)) a.writeNewline = .ok q' := h2
  obtain ⟨b, h3, h4⟩ := run_two h2
  obtain ⟨g1, ls, g2, g3⟩ := run_comment hF h3 (hroom a h1)
  have key : ∀ c : Printer, Alike c a → run checks (.newline :: R) c = .ok q' → ∃ post q, q'.out = c.out ++ '\n' :: post ∧
      run checks (A ++ (.newline :: R)) p = .ok q ∧ q.out = a.out ++ '\n' :: post := by
    intro c hc hr
    obtain ⟨post, q, e1, e2, e3⟩ := run_next_line ⟨R, .inl rfl⟩ hc hr
    exact ⟨post, q, e1, run_two' h1 e2, e3⟩
  rcases hnl with rfl | rfl
  · obtain ⟨post, q, e1, e2, e3⟩ := key b (alike_same g1) h4
    refine ⟨q, e2, a.out, ls, post, e3, ?_, g3⟩
    rw [e1, g2]; simp
  · obtain ⟨post, q, e1, e2, e3⟩ := key b.writeNewline ⟨g1.tabWidth, g1.pageWidth, g1.indent, g1.maxIndent⟩ h4
    refine ⟨q, e2, a.out, ls ++ ['\n'], post, e3, ?_, ?_⟩
    · rw [e1]; simp [writeNewline, g2]
    · intro l hl
      rw [lines_newline, List.mem_append] at hl
      rcases hl with hl | hl
      · exact g3 l hl
      · simp only [lines, List.mem_singleton] at hl
        exact .inl ⟨0, by simpa using hl⟩

end Printer
end Mutagenyx
