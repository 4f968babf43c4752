import Verif.Proofs.Flow

/-!
# Flowable text (property C46)

`words` (`Proofs/Flow.lean`) are the pieces of a text between spaces and newlines.
-/

namespace Mutagenyx
namespace Printer

/-- Room for text on a continuation line: the page without indentation and prefix. -/
def room (next : List Char) (p : Printer) : Nat := p.pageWidth - (1 + p.indentLength + utf8Len next)

/-- The start of a continuation line. -/
def lineStart (next : List Char) (p : Printer) : List Char := '\n' :: p.indentString ++ next

/-- The pieces fit on their lines: the first on the rest of the current line, the others after the prefix. -/
def piecesFit (next : List Char) (p : Printer) (piece : List Char) (pieces : List (List Char)) : Prop :=
  p.column + utf8Len piece ≤ p.pageWidth ∧ ∀ c ∈ pieces, utf8Len c ≤ room next p

/-! ## Lemmas -/

theorem sameLayout_basic (s : List Char) (p : Printer) : SameLayout p (p.basic s) := ⟨rfl, rfl, rfl, rfl⟩

/-- Going to a continuation line. -/
theorem continuation {next : List Char} {p : Printer} (hroom : 0 < room next p) :
    let q := (p.writeNewline.writeIndent).writeToken next
    q.out = p.out ++ lineStart next p ∧ q.column = 1 + p.indentLength + utf8Len next ∧ SameLayout p q := by
  intro q
  have hfresh := fresh_column p
  have hpage := fresh_pageWidth p
  have hs : SameLayout p p.writeNewline.writeIndent :=
    (sameLayout_elementary p).fresh p (.refl p)
  have hout : p.writeNewline.writeIndent.out = p.out ++ ('\n' :: p.indentString) := by
    unfold writeIndent
    split
    · rename_i h
      have : p.indentString = [] := List.isEmpty_iff.1 h
      rw [this]; rfl
    · show p.writeNewline.out ++ p.writeNewline.indentString = _
      rw [show p.writeNewline.indentString = p.indentString from rfl]
      simp [writeNewline]
  unfold room at hroom
  have hq : q = (p.writeNewline.writeIndent).basic next := by
    show (p.writeNewline.writeIndent).writeToken next = _
    unfold writeToken
    simp only
    rw [if_neg (show ¬ (p.writeNewline.writeIndent).column > (p.writeNewline.writeIndent).pageWidth by
      rw [hfresh, hpage]; omega), if_neg (by rw [hpage]; omega), if_neg (by rw [hfresh, hpage]; omega)]
  rw [hq]
  refine ⟨?_, ?_, hs.trans ⟨rfl, rfl, rfl, rfl⟩⟩
  · show p.writeNewline.writeIndent.out ++ next = _
    rw [hout]; simp [lineStart]
  · show p.writeNewline.writeIndent.column + utf8Len next = _
    rw [hfresh]

theorem SameLayout.room {p q : Printer} (h : SameLayout p q) (next : List Char) :
    Printer.room next q = Printer.room next p := by
  simp [Printer.room, h.indentLength, h.pageWidth]

theorem SameLayout.lineStart {p q : Printer} (h : SameLayout p q) (next : List Char) :
    Printer.lineStart next q = Printer.lineStart next p := by
  simp [Printer.lineStart, h.indentString]

theorem not_infix_left {a b pat : List Char} (h : ¬ pat <:+: (a ++ b)) : ¬ pat <:+: b := by
  intro hh
  exact h (hh.trans (List.suffix_append a b).isInfix)

/-- Progress is made on a line with enough room for the first word and not exactly one byte more. -/
theorem no_stuck {left : Nat} {t : List Char} (h1 : left < utf8Len t) (hn : '\n' ∉ t)
    (hd : ¬ [' ', ' '] <:+: t) (hw : ∀ w ∈ words t, utf8Len w ≤ left ∧ utf8Len w + 1 ≠ left)
    (hs1 : (cells t)[left]? ≠ some (some ' ')) (hs2 : (cells t)[0]? ≠ some (some ' '))
    (hs3 : (scanWords ((cells t).take left) 0 {}).start = 0) : False := by
  rcases first_word t hn [] with ⟨w, rfl, hsp, he⟩ | ⟨w, r, rfl, hsp, he⟩
  · have hne : t ≠ [] := by intro h; subst h; simp at h1
    simp only [List.nil_append, hne, if_false] at he
    have := (hw t (by rw [words, he]; simp)).1
    omega
  · have hne : w ≠ [] := by
      intro h; subst h
      exact hs2 (by rw [List.nil_append, cells_space]; rfl)
    simp only [List.nil_append, hne, if_false] at he
    obtain ⟨hle, hneq⟩ := hw w (by rw [words, he]; simp)
    have hg := getElem?_cells_append w (' ' :: r) 0
    rw [Nat.add_zero, cells_space] at hg
    simp only [List.getElem?_cons_zero] at hg
    by_cases heq : utf8Len w = left
    · rw [heq] at hg; exact hs1 hg
    · have hg2 := getElem?_cells_append w (' ' :: r) 1
      rw [cells_space] at hg2
      simp only [List.getElem?_cons_succ] at hg2
      have hr : (cells r)[0]? ≠ some (some ' ') := by
        cases r with
        | nil => simp [cells]
        | cons c cs =>
          intro hc
          simp [cells] at hc
          subst hc
          exact not_infix_left hd ⟨[], cs, rfl⟩
      have hlen : ((cells (w ++ ' ' :: r)).take left).length = left := by
        rw [List.length_take, cells_length]; omega
      have := scanWords_found ((cells (w ++ ' ' :: r)).take left) 0 {} (Nat.le_refl _) (utf8Len w)
        (by rw [List.getElem?_take_of_lt (by omega)]; exact hg)
        (by rw [hlen]; omega)
        (by rw [List.getElem?_take_of_lt (by omega), hg2]; exact hr)
      rw [hs3] at this
      omega

theorem utf8Len_pos {t : List Char} (h : t ≠ []) : 0 < utf8Len t := by
  cases t with
  | nil => exact absurd rfl h
  | cons c cs => have := c.utf8Size_pos; rw [utf8Len_cons]; omega

/-- What a call of `write_flowable_text` achieves. -/
structure Flowed (t next : List Char) (p q : Printer) : Prop where
  layout : SameLayout p q
  pieces : ∃ piece pieces, q.out = p.out ++ piece ++ (pieces.map (lineStart next p ++ ·)).flatten ∧
    (piece :: pieces).flatMap words = words t ∧ (∀ c ∈ piece :: pieces, '\n' ∉ c) ∧ piecesFit next p piece pieces

/-- One line, then the rest. -/
theorem Flowed.step {first t rest next : List Char} {p q : Printer} (hroom : 0 < room next p)
    (hcol : p.column + utf8Len first ≤ p.pageWidth) (hn : '\n' ∉ first)
    (hwords : words t = words first ++ words rest)
    (h : Flowed rest next (((p.basic first).writeNewline.writeIndent).writeToken next) q) : Flowed t next p q := by
  have hr : 0 < room next (p.basic first) := hroom
  obtain ⟨c1, c2, c3⟩ := continuation hr
  have c3' : SameLayout p (((p.basic first).writeNewline.writeIndent).writeToken next) :=
    (sameLayout_basic first p).trans c3
  obtain ⟨hl, piece, pieces, h1, h2, h3, h4⟩ := h
  refine ⟨c3'.trans hl, first, piece :: pieces, ?_, ?_, ?_, hcol, ?_⟩
  · rw [h1, c1, c3'.lineStart]
    show p.out ++ first ++ lineStart next p ++ piece ++ _ = _
    simp
  · rw [List.flatMap_cons, h2, hwords]
  · intro c hc
    rcases List.mem_cons.1 hc with rfl | hc
    · exact hn
    · exact h3 c hc
  · intro c hc
    rcases List.mem_cons.1 hc with rfl | hc
    · have := h4.1
      rw [c2, c3'.pageWidth] at this
      unfold room
      rw [show (p.basic first).indentLength = p.indentLength from rfl] at this
      omega
    · have := h4.2 c hc
      rwa [c3'.room] at this

theorem basic_nil (p : Printer) : p.basic [] = p := by
  simp [basic]

/-- The whole text on the current line. -/
theorem Flowed.one {t next : List Char} {p : Printer} (hn : '\n' ∉ t) (hcol : p.column + utf8Len t ≤ p.pageWidth) :
    Flowed t next p (p.basic t) := by
  refine ⟨⟨rfl, rfl, rfl, rfl⟩, t, [], by simp [basic], by simp, by simpa using hn, hcol, by simp⟩

/-- The nothing after the last line. -/
theorem Flowed.nothing {next : List Char} {p : Printer} (hcol : p.column ≤ p.pageWidth) :
    Flowed [] next p p := by
  have := Flowed.one (next := next) (t := []) (p := p) (by simp) (by simpa using hcol)
  rwa [basic_nil] at this

/-- On a continuation line. -/
theorem flow_continued (checks : Bool) (next : List Char) (fuel : Nat) (t : List Char) (p : Printer)
    (hf : utf8Len t < fuel) (hroom : 0 < room next p) (hcol : p.column = 1 + p.indentLength + utf8Len next)
    (hn : '\n' ∉ t) (hd : ¬ [' ', ' '] <:+: t)
    (hw : ∀ w ∈ words t, utf8Len w ≤ room next p ∧ utf8Len w + 1 ≠ room next p) :
    ∃ q, writeFlowable checks fuel t next p = .ok q ∧ Flowed t next p q := by
  induction fuel generalizing t p with
  | zero => omega
  | succ n ih =>
    have hleft : p.pageWidth - p.column = room next p := by rw [hcol]; rfl
    have hle : ¬ p.column > p.pageWidth := by unfold room at hroom; omega
    unfold writeFlowable
    rw [flowText_normal hn hd]
    simp only [hle, if_false]
    rw [hleft]
    by_cases hlong : utf8Len t > room next p
    · rw [if_pos hlong, if_neg (by omega)]
      -- after writing `first`, go on with `rest`
      have go : ∀ first rest : List Char, utf8Len rest < utf8Len t → words t = words first ++ words rest →
          '\n' ∉ first → '\n' ∉ rest → ¬ [' ', ' '] <:+: rest → utf8Len first ≤ room next p →
          ∃ q, (if (cells rest).isEmpty then
                Outcome.ok (((if (cells first).isEmpty then p
                  else p.basic (chars (cells first))).writeNewline.writeIndent).writeToken next)
              else writeFlowable checks n (chars (cells rest)) next
                (((if (cells first).isEmpty then p
                  else p.basic (chars (cells first))).writeNewline.writeIndent).writeToken next)) = .ok q ∧
            Flowed t next p q := by
        intro first rest hlt hwords hn1 hn2 hd2 hfit
        simp only [chars_cells, cells_eq_nil]
        have hp : (if first.isEmpty then p else p.basic first) = p.basic first := by
          split
          · rename_i h; rw [List.isEmpty_iff.1 h, basic_nil]
          · rfl
        rw [hp]
        have hr : 0 < room next (p.basic first) := hroom
        obtain ⟨c1, c2, c3⟩ := continuation hr
        have c3' : SameLayout p (((p.basic first).writeNewline.writeIndent).writeToken next) :=
          (sameLayout_basic first p).trans c3
        have hcol1 : p.column + utf8Len first ≤ p.pageWidth := by unfold room at hfit; omega
        split
        · rename_i hr'
          have : rest = [] := List.isEmpty_iff.1 hr'
          subst this
          refine ⟨_, rfl, Flowed.step hroom hcol1 hn1 hwords (Flowed.nothing ?_)⟩
          rw [c2, c3'.pageWidth]
          unfold room at hroom
          show 1 + p.indentLength + utf8Len next ≤ _
          omega
        · obtain ⟨q, h1, h2⟩ := ih rest _ (by omega) (by rw [c3'.room]; exact hroom)
            (by rw [c2, c3.indentLength]) hn2 hd2
            (by
              intro w hw'
              rw [c3'.room]
              exact hw w (by rw [hwords]; exact List.mem_append_right _ hw'))
          exact ⟨q, h1, Flowed.step hroom hcol1 hn1 hwords h2⟩
      rcases breakText_spec (room next p) t hroom hlong with ⟨a, b, rfl, h1, h2⟩ | ⟨a, b, rfl, h1, h2⟩ |
          ⟨b, rfl, h2⟩ | ⟨h2, h3, h4, h5⟩
      · simp only [List.mem_append, List.mem_cons, not_or] at hn
        rw [h2]
        exact go a b (by simp; omega) (words_append_space a b) hn.1 hn.2.2
          (not_infix_left (a := a ++ [' ']) (by simpa using hd)) (by omega)
      · simp only [List.mem_append, List.mem_cons, not_or] at hn
        have hsp : (' ').utf8Size = 1 := by decide
        rw [h2]
        exact go (a ++ [' ']) b (by simp; omega) (by rw [words_snoc_space, words_append_space])
          (by simp [hn.1]) hn.2.2
          (not_infix_left (a := a ++ [' ']) (by simpa using hd)) (by simp [hsp]; omega)
      · simp only [List.mem_cons, not_or] at hn
        have hsp : (' ').utf8Size = 1 := by decide
        rw [h2]
        exact go [] b (by simp [hsp]) (by rw [words_cons_space]; rfl) (by simp) hn.2
          (not_infix_left (a := [' ']) (by simpa using hd)) (by simp)
      · exact (no_stuck hlong hn hd hw h3 h4 h5).elim
    · rw [if_neg hlong]
      refine ⟨_, rfl, Flowed.one hn ?_⟩
      unfold room at hlong hroom
      omega

theorem flow_started (checks : Bool) (next s : List Char) (p : Printer) (hcol : p.column ≤ p.pageWidth)
    (hroom : 0 < room next p)
    (hw : ∀ w ∈ words s, utf8Len w ≤ room next p ∧ utf8Len w + 1 ≠ room next p) (fuel : Nat)
    (hfuel : utf8Len s + 3 ≤ fuel) :
    ∃ q, writeFlowable checks fuel s next p = .ok q ∧ Flowed s next p q := by
  obtain ⟨t, ht⟩ : ∃ t, flowText s = .ok t := ⟨_, flowText_eq s⟩
  have hlen := utf8Len_flowText ht
  have hwt := words_flowText ht
  have hn := flowText_no_newline s t ht
  have hd : ¬ [' ', ' '] <:+: t := by
    rw [flowText_eq] at ht
    cases ht
    exact collapse_no_double _
  rw [← hwt] at hw
  obtain ⟨n, rfl⟩ : ∃ n, fuel = n + 1 := ⟨fuel - 1, by omega⟩
  have conv : ∀ q, Flowed t next p q → Flowed s next p q := fun q h => ⟨h.layout, hwt ▸ h.pieces⟩
  unfold writeFlowable
  rw [ht]
  simp only [show ¬ p.column > p.pageWidth by omega, if_false]
  -- go to a continuation line after writing `first`
  have go : ∀ first rest : List Char, utf8Len rest ≤ utf8Len t → words t = words first ++ words rest →
      '\n' ∉ first → '\n' ∉ rest → ¬ [' ', ' '] <:+: rest → p.column + utf8Len first ≤ p.pageWidth →
      ∃ q, writeFlowable checks n rest next (((p.basic first).writeNewline.writeIndent).writeToken next) = .ok q ∧
        Flowed t next p q := by
    intro first rest hlt hwords hn1 hn2 hd2 hfit
    have hr : 0 < room next (p.basic first) := hroom
    obtain ⟨c1, c2, c3⟩ := continuation hr
    have c3' : SameLayout p (((p.basic first).writeNewline.writeIndent).writeToken next) :=
      (sameLayout_basic first p).trans c3
    obtain ⟨q, h1, h2⟩ := flow_continued checks next n rest _ (by omega) (by rw [c3'.room]; exact hroom)
      (by rw [c2, c3.indentLength]) hn2 hd2
      (by
        intro w hw'
        rw [c3'.room]
        exact hw w (by rw [hwords]; exact List.mem_append_right _ hw'))
    exact ⟨q, h1, Flowed.step hroom hfit hn1 hwords h2⟩
  by_cases hlong : utf8Len t > p.pageWidth - p.column
  · rw [if_pos hlong]
    by_cases hz : p.pageWidth - p.column = 0
    · rw [if_pos hz]
      obtain ⟨q, h1, h2⟩ := go [] t (Nat.le_refl _) rfl (by simp) hn hd (by simpa using hcol)
      rw [basic_nil] at h1
      exact ⟨q, h1, conv q h2⟩
    · rw [if_neg hz]
      have go' : ∀ first rest : List Char, utf8Len rest ≤ utf8Len t → words t = words first ++ words rest →
          '\n' ∉ first → '\n' ∉ rest → ¬ [' ', ' '] <:+: rest → p.column + utf8Len first ≤ p.pageWidth →
          ∃ q, (if (cells rest).isEmpty then
                Outcome.ok (((if (cells first).isEmpty then p
                  else p.basic (chars (cells first))).writeNewline.writeIndent).writeToken next)
              else writeFlowable checks n (chars (cells rest)) next
                (((if (cells first).isEmpty then p
                  else p.basic (chars (cells first))).writeNewline.writeIndent).writeToken next)) = .ok q ∧
            Flowed s next p q := by
        intro first rest hlt hwords hn1 hn2 hd2 hfit
        simp only [chars_cells, cells_eq_nil]
        have hp : (if first.isEmpty then p else p.basic first) = p.basic first := by
          split
          · rename_i h; rw [List.isEmpty_iff.1 h, basic_nil]
          · rfl
        rw [hp]
        split
        · rename_i hr'
          have : rest = [] := List.isEmpty_iff.1 hr'
          subst this
          have hr : 0 < room next (p.basic first) := hroom
          obtain ⟨c1, c2, c3⟩ := continuation hr
          refine ⟨_, rfl, conv _ (Flowed.step hroom hfit hn1 hwords (Flowed.nothing ?_))⟩
          rw [c2, c3.pageWidth]
          unfold room at hroom
          show 1 + p.indentLength + utf8Len next ≤ p.pageWidth
          omega
        · obtain ⟨q, h1, h2⟩ := go first rest hlt hwords hn1 hn2 hd2 hfit
          exact ⟨q, h1, conv q h2⟩
      rcases breakText_spec (p.pageWidth - p.column) t (by omega) hlong with ⟨a, b, rfl, h1, h2⟩ |
          ⟨a, b, rfl, h1, h2⟩ | ⟨b, rfl, h2⟩ | ⟨h2, h3, h4, h5⟩
      · simp only [List.mem_append, List.mem_cons, not_or] at hn
        rw [h2]
        exact go' a b (by simp; omega) (words_append_space a b) hn.1 hn.2.2
          (not_infix_left (a := a ++ [' ']) (by simpa using hd)) (by omega)
      · simp only [List.mem_append, List.mem_cons, not_or] at hn
        have hsp : (' ').utf8Size = 1 := by decide
        rw [h2]
        exact go' (a ++ [' ']) b (by simp; omega) (by rw [words_snoc_space, words_append_space])
          (by simp [hn.1]) hn.2.2
          (not_infix_left (a := a ++ [' ']) (by simpa using hd)) (by simp [hsp]; omega)
      · simp only [List.mem_cons, not_or] at hn
        rw [h2]
        exact go' [] b (by simp) (by rw [words_cons_space]; rfl) (by simp) hn.2
          (not_infix_left (a := [' ']) (by simpa using hd)) (by simpa using hcol)
      · rw [h2]
        exact go' [] t (Nat.le_refl _) rfl (by simp) hn hd (by simpa using hcol)
  · rw [if_neg hlong]
    exact ⟨_, rfl, conv _ (Flowed.one hn (by omega))⟩

/-! ## Property C46 -/

/-- **C46, in part.** Writing flowable text ends, writes a first piece and, on continuation lines starting with
the indentation and the prefix, further pieces, whose words together are the words of the text in order; every
piece fits on its line.  This is for every text, prefix and state of the printer such that the current column
is on the page, prefix and indentation leave room, and every word fits in that room without being exactly one
byte shorter.  What is missing: the other words, for which see the counterexamples. -/
theorem C46_flowable_partial (checks : Bool) (s next : List Char) (p : Printer) (hcol : p.column ≤ p.pageWidth)
    (hroom : 1 + p.indentLength + utf8Len next < p.pageWidth)
    (hw : ∀ w ∈ words s, utf8Len w ≤ room next p ∧ utf8Len w + 1 ≠ room next p) :
    ∃ q piece pieces, writeFlow checks s next p = .ok q ∧
      q.out = p.out ++ piece ++ (pieces.map fun c => '\n' :: p.indentString ++ next ++ c).flatten ∧
      (piece :: pieces).flatMap words = words s ∧ (∀ c ∈ piece :: pieces, '\n' ∉ c) ∧
      p.column + utf8Len piece ≤ p.pageWidth ∧ (∀ c ∈ pieces, utf8Len c ≤ room next p) ∧
      q.indent = p.indent := by
  obtain ⟨q, h1, ⟨hl, piece, pieces, h2, h3, h4, h5, h6⟩⟩ :=
    flow_started checks next s p hcol (by unfold room; omega) hw _ (Nat.le_refl _)
  exact ⟨q, piece, pieces, h1, h2, h3, h4, h5, h6, hl.indent⟩

/-- The hypotheses are satisfiable, with the text spread over three lines. -/
example : endsWith (fun q => q.out == "ab cd \n# efg \n# h i".toList)
    (writeFlow true "ab  cd\nefg h i".toList "# ".toList (new 4 9)) = true := by decide +kernel

example : ∀ w ∈ words "ab  cd\nefg h i".toList,
    utf8Len w ≤ room "# ".toList (new 4 9) ∧ utf8Len w + 1 ≠ room "# ".toList (new 4 9) := by decide +kernel

/-- Once stuck on a continuation line, always stuck. -/
theorem flow_stuck (checks : Bool) (next t : List Char) (fuel : Nat) (p : Printer) (hroom : 0 < room next p)
    (hcol : p.column = 1 + p.indentLength + utf8Len next) (ht : flowText t = .ok t)
    (hlong : room next p < utf8Len t) (hb : breakText (room next p) (cells t) = .ok ([], cells t)) :
    writeFlowable checks fuel t next p = .outOfFuel := by
  induction fuel generalizing p with
  | zero => rfl
  | succ n ih =>
    have hle : ¬ p.column > p.pageWidth := by unfold room at hroom; omega
    have hleft : p.pageWidth - p.column = room next p := by rw [hcol]; rfl
    have hne : t ≠ [] := by intro h; subst h; simp at hlong
    unfold writeFlowable
    rw [ht]
    simp only [hle, if_false]
    rw [hleft, if_pos hlong, if_neg (by omega), hb]
    simp only [List.isEmpty_nil, if_true, cells_eq_nil, chars_cells]
    rw [if_neg (by simpa using hne)]
    obtain ⟨_, c2, c3⟩ := continuation hroom
    exact ih _ (by rw [c3.room]; exact hroom) (by rw [c2, c3.indentLength]) (by rw [c3.room]; exact hlong)
      (by rw [c3.room]; exact hb)

/-! ### The bound on the depth of the recursion is no restriction -/

/-- The next line. -/
def nextLine (next : List Char) (p : Printer) : Printer := (p.writeNewline.writeIndent).writeToken next

theorem sameLayout_nextLine (next : List Char) (p : Printer) : SameLayout p (nextLine next p) :=
  ((sameLayout_elementary p).fresh p (.refl p)).trans (sameLayout_writeToken _ _)

/-- The column at the start of a continuation line is always the same. -/
theorem nextLine_column (next : List Char) {p q : Printer} (h : SameLayout p q) :
    (nextLine next q).column = (nextLine next p).column := by
  have e1 : q.writeNewline.writeIndent.column = p.writeNewline.writeIndent.column := by
    rw [fresh_column, fresh_column, h.indentLength]
  have e2 : q.writeNewline.writeIndent.pageWidth = p.writeNewline.writeIndent.pageWidth := by
    rw [fresh_pageWidth, fresh_pageWidth, h.pageWidth]
  have e3 : SameLayout p.writeNewline.writeIndent q.writeNewline.writeIndent :=
    SameLayout.trans (p := p.writeNewline.writeIndent) (q := p)
      ⟨((sameLayout_elementary p).fresh p (.refl p)).1.symm, ((sameLayout_elementary p).fresh p (.refl p)).2.symm,
       ((sameLayout_elementary p).fresh p (.refl p)).3.symm, ((sameLayout_elementary p).fresh p (.refl p)).4.symm⟩
      (h.trans ((sameLayout_elementary q).fresh q (.refl q)))
  have tok : ∀ a b : Printer, SameLayout a b → b.column = a.column →
      (b.writeToken next).column = (a.writeToken next).column := by
    intro a b hl hc
    have hfresh : ∀ a' b' : Printer, SameLayout a' b' →
        b'.writeNewline.writeIndent.column = a'.writeNewline.writeIndent.column := by
      intro a' b' h'
      rw [fresh_column, fresh_column, h'.indentLength]
    have h1 : (if b.column > b.pageWidth then b.writeNewline else b).column
        = (if a.column > a.pageWidth then a.writeNewline else a).column := by
      rw [hc, hl.pageWidth]
      split
      · rfl
      · exact hc
    have h2 : SameLayout (if a.column > a.pageWidth then a.writeNewline else a)
        (if b.column > b.pageWidth then b.writeNewline else b) := by
      rw [hc, hl.pageWidth]
      split
      · exact ⟨hl.1, hl.2, hl.3, hl.4⟩
      · exact hl
    unfold writeToken
    simp only
    generalize (if a.column > a.pageWidth then a.writeNewline else a) = a' at h1 h2 ⊢
    generalize (if b.column > b.pageWidth then b.writeNewline else b) = b' at h1 h2 ⊢
    rw [h1, h2.pageWidth, h2.indentLength]
    split
    · split
      · show b'.writeNewline.writeIndent.column + _ = a'.writeNewline.writeIndent.column + _
        rw [hfresh a' b' h2]
      · show b'.column + _ = a'.column + _
        rw [h1]
    · split
      · show b'.writeNewline.writeIndent.column + _ = a'.writeNewline.writeIndent.column + _
        rw [hfresh a' b' h2]
      · show b'.column + _ = a'.column + _
        rw [h1]
  exact tok _ _ e3 e1

/-- On a continuation line: if the bound runs out at a depth beyond the length of the text, it always does. -/
theorem flow_endless_continued (checks : Bool) (next : List Char) (fuel : Nat) (t : List Char) (p : Printer)
    (hf : utf8Len t < fuel) (hn : '\n' ∉ t) (hd : ¬ [' ', ' '] <:+: t)
    (hcol : p.column = (nextLine next p).column) (h : writeFlowable checks fuel t next p = .outOfFuel) (m : Nat) :
    writeFlowable checks m t next p = .outOfFuel := by
  induction fuel generalizing t p m with
  | zero => omega
  | succ n ih =>
    unfold writeFlowable at h
    rw [flowText_normal hn hd] at h
    simp only at h
    by_cases hle : p.column > p.pageWidth
    · rw [if_pos hle] at h
      split at h <;> cases h
    · rw [if_neg hle] at h
      by_cases hlong : utf8Len t > p.pageWidth - p.column
      · rw [if_pos hlong] at h
        -- the same line start again and again
        have again : ∀ (m : Nat) (p : Printer), ¬ p.column > p.pageWidth → utf8Len t > p.pageWidth - p.column →
            p.column = (nextLine next p).column →
            (p.pageWidth - p.column = 0 ∨ breakText (p.pageWidth - p.column) (cells t) = .ok ([], cells t)) →
            writeFlowable checks m t next p = .outOfFuel := by
          intro m
          induction m with
          | zero => intros; rfl
          | succ m ihm =>
            intro p h1 h2 h3 h4
            have hs := sameLayout_nextLine next p
            have hc := nextLine_column next hs
            have step : writeFlowable checks m t next (nextLine next p) = .outOfFuel :=
              ihm _ (by rw [hs.pageWidth, ← h3]; exact h1) (by rw [hs.pageWidth, ← h3]; exact h2)
                hc.symm
                (by rw [hs.pageWidth, ← h3]; exact h4)
            unfold writeFlowable
            rw [flowText_normal hn hd]
            simp only
            rw [if_neg h1, if_pos h2]
            by_cases hz : p.pageWidth - p.column = 0
            · rw [if_pos hz]; exact step
            · rw [if_neg hz]
              rcases h4 with h4 | h4
              · exact absurd h4 hz
              · rw [h4]
                have hne : t ≠ [] := by intro h; subst h; simp at h2
                simp only [List.isEmpty_nil, if_true, cells_eq_nil, chars_cells]
                rw [if_neg (by simpa using hne)]
                exact step
        by_cases hz : p.pageWidth - p.column = 0
        · exact again m p hle hlong hcol (Or.inl hz)
        · rw [if_neg hz] at h
          -- progress
          have go : ∀ first rest : List Char, utf8Len rest < utf8Len t → '\n' ∉ rest → ¬ [' ', ' '] <:+: rest →
              breakText (p.pageWidth - p.column) (cells t) = .ok (cells first, cells rest) →
              writeFlowable checks m t next p = .outOfFuel := by
            intro first rest hlt hn2 hd2 hb
            rw [hb] at h
            simp only [chars_cells, cells_eq_nil] at h
            have hp : (if first.isEmpty then p else p.basic first) = p.basic first := by
              split
              · rename_i h; rw [List.isEmpty_iff.1 h, basic_nil]
              · rfl
            rw [hp] at h
            split at h
            · cases h
            · rename_i hre
              have hs : SameLayout p (nextLine next (p.basic first)) :=
                (sameLayout_basic first p).trans (sameLayout_nextLine next _)
              have hc := nextLine_column next hs
              have hc' : (nextLine next (p.basic first)).column
                  = (nextLine next (nextLine next (p.basic first))).column :=
                (nextLine_column next (sameLayout_nextLine next (p.basic first))).symm
              cases m with
              | zero => rfl
              | succ m =>
                have hih := ih rest (nextLine next (p.basic first)) (by omega) hn2 hd2 hc' h m
                unfold writeFlowable
                rw [flowText_normal hn hd]
                simp only
                rw [if_neg hle, if_pos hlong, if_neg hz, hb]
                simp only [chars_cells, cells_eq_nil]
                rw [hp, if_neg hre]
                exact hih
          rcases breakText_spec (p.pageWidth - p.column) t (by omega) hlong with ⟨a, b, rfl, h1, h2⟩ |
              ⟨a, b, rfl, h1, h2⟩ | ⟨b, rfl, h2⟩ | ⟨h2, _⟩
          · simp only [List.mem_append, List.mem_cons, not_or] at hn
            exact go a b (by simp; omega) hn.2.2 (not_infix_left (a := a ++ [' ']) (by simpa using hd)) h2
          · simp only [List.mem_append, List.mem_cons, not_or] at hn
            have hsp : (' ').utf8Size = 1 := by decide
            exact go (a ++ [' ']) b (by simp; omega) hn.2.2 (not_infix_left (a := a ++ [' ']) (by simpa using hd)) h2
          · simp only [List.mem_cons, not_or] at hn
            have hsp : (' ').utf8Size = 1 := by decide
            exact go [] b (by simp [hsp]) hn.2 (not_infix_left (a := [' ']) (by simpa using hd)) h2
          · exact again m p hle hlong hcol (Or.inr h2)
      · rw [if_neg hlong] at h
        cases h

/-- **The bound used in `writeFlow` is no restriction**: if it runs out, every bound does, so the call of
`write_flowable_text` does not end. -/
theorem C46_bound_suffices (checks : Bool) (s next : List Char) (p : Printer)
    (h : writeFlow checks s next p = .outOfFuel) (m : Nat) : writeFlowable checks m s next p = .outOfFuel := by
  cases m with
  | zero => rfl
  | succ m =>
    obtain ⟨t, ht⟩ : ∃ t, flowText s = .ok t := ⟨_, flowText_eq s⟩
    have hlen := utf8Len_flowText ht
    have hn := flowText_no_newline s t ht
    have hd : ¬ [' ', ' '] <:+: t := by
      rw [flowText_eq] at ht
      cases ht
      exact collapse_no_double _
    unfold writeFlow writeFlowable at h
    unfold writeFlowable
    rw [ht] at h ⊢
    simp only at h ⊢
    by_cases hle : p.column > p.pageWidth
    · rw [if_pos hle] at h
      split at h <;> cases h
    · rw [if_neg hle] at h ⊢
      by_cases hlong : utf8Len t > p.pageWidth - p.column
      · rw [if_pos hlong] at h ⊢
        have later : ∀ (r : List Char) (q : Printer), utf8Len r ≤ utf8Len t → '\n' ∉ r → ¬ [' ', ' '] <:+: r →
            writeFlowable checks (utf8Len s + 2) r next (nextLine next q) = .outOfFuel →
            writeFlowable checks m r next (nextLine next q) = .outOfFuel := by
          intro r q h1 h2 h3 h4
          exact flow_endless_continued checks next _ r _ (by omega) h2 h3
            (nextLine_column next (sameLayout_nextLine next q)).symm h4 m
        by_cases hz : p.pageWidth - p.column = 0
        · rw [if_pos hz] at h ⊢
          exact later t p (Nat.le_refl _) hn hd h
        · rw [if_neg hz] at h ⊢
          have go : ∀ first rest : List Char, utf8Len rest ≤ utf8Len t → '\n' ∉ rest → ¬ [' ', ' '] <:+: rest →
              (if (cells rest).isEmpty then
                Outcome.ok (nextLine next (if (cells first).isEmpty then p else p.basic (chars (cells first))))
              else writeFlowable checks (utf8Len s + 2) (chars (cells rest)) next
                (nextLine next (if (cells first).isEmpty then p else p.basic (chars (cells first))))) = .outOfFuel →
              (if (cells rest).isEmpty then
                Outcome.ok (nextLine next (if (cells first).isEmpty then p else p.basic (chars (cells first))))
              else writeFlowable checks m (chars (cells rest)) next
                (nextLine next (if (cells first).isEmpty then p else p.basic (chars (cells first))))) = .outOfFuel := by
            intro first rest hlt hn2 hd2 h
            split at h
            · cases h
            · rename_i hre
              rw [if_neg hre]
              rw [chars_cells] at h ⊢
              exact later rest _ hlt hn2 hd2 h
          rcases breakText_spec (p.pageWidth - p.column) t (by omega) hlong with ⟨a, b, rfl, h1, h2⟩ |
              ⟨a, b, rfl, h1, h2⟩ | ⟨b, rfl, h2⟩ | ⟨h2, _⟩
          · rw [h2] at h ⊢
            simp only [List.mem_append, List.mem_cons, not_or] at hn
            exact go a b (by simp; omega) hn.2.2 (not_infix_left (a := a ++ [' ']) (by simpa using hd)) h
          · rw [h2] at h ⊢
            simp only [List.mem_append, List.mem_cons, not_or] at hn
            exact go (a ++ [' ']) b (by simp; omega) hn.2.2 (not_infix_left (a := a ++ [' ']) (by simpa using hd)) h
          · rw [h2] at h ⊢
            simp only [List.mem_cons, not_or] at hn
            exact go [] b (by simp) hn.2 (not_infix_left (a := [' ']) (by simpa using hd)) h
          · rw [h2] at h ⊢
            exact go [] t (Nat.le_refl _) hn hd h
      · rw [if_neg hlong] at h
        cases h

/-- **C46 fails: a word wider than the page is never written**, the call writes line starts without end.  For
every word without blanks that is longer than the page and every state on the page. -/
theorem C46_long_word_counterexample (checks : Bool) (w next : List Char) (p : Printer) (fuel : Nat)
    (h1 : ' ' ∉ w) (h2 : '\n' ∉ w) (hcol : p.column ≤ p.pageWidth)
    (hroom : 1 + p.indentLength + utf8Len next < p.pageWidth) (hlong : p.pageWidth < utf8Len w) :
    writeFlowable checks fuel w next p = .outOfFuel := by
  have hd : ¬ [' ', ' '] <:+: w := fun h => h1 (h.subset (by simp))
  have ht := flowText_normal h2 hd
  have hr : 0 < room next p := by unfold room; omega
  have hne : w ≠ [] := by intro h; subst h; simp at hlong
  have stuck : ∀ left, 0 < left → left < utf8Len w → breakText left (cells w) = .ok ([], cells w) := by
    intro left hl1 hl2
    rcases breakText_spec left w hl1 hl2 with ⟨a, b, rfl, _⟩ | ⟨a, b, rfl, _⟩ | ⟨b, rfl, _⟩ | ⟨h, _⟩
    · exact absurd (by simp) h1
    · exact absurd (by simp) h1
    · exact absurd (by simp) h1
    · exact h
  obtain ⟨_, c2, c3⟩ := continuation hr
  have next_line : ∀ fuel, writeFlowable checks fuel w next ((p.writeNewline.writeIndent).writeToken next) = .outOfFuel := by
    intro fuel
    have hroom' : room next p < utf8Len w := by unfold room; omega
    exact flow_stuck checks next w fuel _ (by rw [c3.room]; exact hr) (by rw [c2, c3.indentLength]) ht
      (by rw [c3.room]; exact hroom') (by rw [c3.room]; exact stuck _ hr hroom')
  cases fuel with
  | zero => rfl
  | succ n =>
    unfold writeFlowable
    rw [ht]
    simp only [show ¬ p.column > p.pageWidth by omega, if_false]
    rw [if_pos (by omega)]
    by_cases hz : p.pageWidth - p.column = 0
    · rw [if_pos hz]; exact next_line n
    · rw [if_neg hz, stuck _ (by omega) (by omega)]
      simp only [List.isEmpty_nil, if_true, cells_eq_nil, chars_cells]
      rw [if_neg (by simpa using hne)]
      exact next_line n

example : (new 4 8).column ≤ (new 4 8).pageWidth ∧ 1 + (new 4 8).indentLength + utf8Len "# ".toList < (new 4 8).pageWidth ∧
    (new 4 8).pageWidth < utf8Len "deposit(uint256)".toList := by decide +kernel

/-- **C46 fails: a word exactly one byte shorter than the room** with another word behind it is never written
either, although it fits. -/
theorem C46_one_short_counterexample (checks : Bool) (fuel : Nat) :
    writeFlowable checks fuel "abcd ef".toList "# ".toList ((new 4 8).writeToken "# ".toList) = .outOfFuel :=
  flow_stuck checks _ _ fuel _ (by decide +kernel) (by decide +kernel) (by decide +kernel) (by decide +kernel)
    (by decide +kernel)

/-- **C46 fails: beyond the right margin** a build with overflow checks crashes, whatever the text. -/
theorem C46_beyond_margin_counterexample (s next : List Char) (p : Printer) (h : p.pageWidth < p.column) :
    writeFlow true s next p = .panic := by
  unfold writeFlow writeFlowable
  rw [flowText_eq]
  simp [show p.column > p.pageWidth from h]

example : ((new 4 4).writeToken "abcdef".toList).pageWidth < ((new 4 4).writeToken "abcdef".toList).column := by
  decide +kernel

/-! ### Words that are wider than the page -/

theorem utf8Len_wordsFrom {cur t w : List Char} (h : w ∈ wordsFrom cur t) : utf8Len w ≤ utf8Len cur + utf8Len t := by
  induction t generalizing cur with
  | nil =>
    rw [wordsFrom] at h
    split at h
    · cases h
    · rw [List.mem_singleton.1 h]; omega
  | cons c cs ih =>
    rw [wordsFrom] at h
    split at h
    · rcases List.mem_append.1 h with h | h
      · split at h
        · cases h
        · rw [List.mem_singleton.1 h]; omega
      · have := ih h
        simp only [utf8Len_nil, utf8Len_cons] at *
        omega
    · have := ih h
      simp only [utf8Len_append, utf8Len_cons, utf8Len_nil] at *
      omega

/-- A stretch without blanks is part of a word. -/
theorem wordsFrom_stretch {cur a u b : List Char} (h1 : ' ' ∉ u) (h2 : '\n' ∉ u) (hu : u ≠ []) :
    ∃ w ∈ wordsFrom cur (a ++ u ++ b), utf8Len u ≤ utf8Len w := by
  induction a generalizing cur with
  | nil =>
    rw [List.nil_append]
    have : ∀ (u cur : List Char), ' ' ∉ u → '\n' ∉ u → cur ++ u ≠ [] →
        ∃ w ∈ wordsFrom cur (u ++ b), utf8Len cur + utf8Len u ≤ utf8Len w := by
      intro u
      induction u with
      | nil =>
        intro cur _ _ hne
        rw [List.nil_append]
        clear h1 h2
        have hcur : cur ≠ [] := by simpa using hne
        have : ∀ (b cur : List Char), cur ≠ [] → ∃ w ∈ wordsFrom cur b, utf8Len cur ≤ utf8Len w := by
          intro b
          induction b with
          | nil => intro cur h; exact ⟨cur, by rw [wordsFrom, if_neg h]; simp, Nat.le_refl _⟩
          | cons c cs ih =>
            intro cur h
            rw [wordsFrom]
            split
            · exact ⟨cur, by simp [h], Nat.le_refl _⟩
            · obtain ⟨w, hw, hl⟩ := ih (cur ++ [c]) (by simp)
              exact ⟨w, hw, by simp only [utf8Len_append] at hl; omega⟩
        simpa using this b cur hcur
      | cons c cs ih =>
        intro cur g1 g2 _
        simp only [List.mem_cons, not_or] at g1 g2
        obtain ⟨w, hw, hl⟩ := ih (cur ++ [c]) g1.2 g2.2 (by simp)
        refine ⟨w, ?_, ?_⟩
        · rw [List.cons_append, wordsFrom, if_neg (fun h => h.elim (fun h => g1.1 h.symm) fun h => g2.1 h.symm)]
          exact hw
        · simp only [utf8Len_append, utf8Len_cons, utf8Len_nil] at hl ⊢
          omega
    obtain ⟨w, hw, hl⟩ := this u cur h1 h2 (by simp [hu])
    exact ⟨w, hw, by omega⟩
  | cons c cs ih =>
    rw [List.cons_append, List.cons_append, wordsFrom]
    split
    · obtain ⟨w, hw, hl⟩ := ih (cur := [])
      exact ⟨w, List.mem_append_right _ hw, hl⟩
    · exact ih

/-- With a word wider than the page, writing running text does not end well. -/
theorem flow_wide (next : List Char) (fuel : Nat) (t : List Char) (p q : Printer)
    (h : ∃ w ∈ words t, p.pageWidth < utf8Len w) : writeFlowable true fuel t next p ≠ .ok q := by
  induction fuel generalizing t p with
  | zero => simp [writeFlowable]
  | succ n ih =>
    obtain ⟨t', ht⟩ : ∃ t', flowText t = .ok t' := ⟨_, flowText_eq t⟩
    rw [← words_flowText ht] at h
    obtain ⟨w, hw, hl⟩ := h
    have hlen : utf8Len w ≤ utf8Len t' := by
      have := utf8Len_wordsFrom hw
      simpa using this
    unfold writeFlowable
    rw [ht]
    simp only
    by_cases hc : p.column > p.pageWidth
    · simp [hc]
    · rw [if_neg hc, if_pos (by omega)]
      have go : ∀ (r : List Char) (p' : Printer), p'.pageWidth = p.pageWidth → w ∈ words r →
          writeFlowable true n r next ((p'.writeNewline.writeIndent).writeToken next) ≠ .ok q := by
        intro r p' hp hr
        refine ih r _ ⟨w, hr, ?_⟩
        have := (sameLayout_nextLine next p').pageWidth
        unfold nextLine at this
        omega
      by_cases hz : p.pageWidth - p.column = 0
      · rw [if_pos hz]
        exact go t' p rfl hw
      · rw [if_neg hz]
        have go' : ∀ first r : List Char, w ∈ words r →
            (if (cells r).isEmpty then
                Outcome.ok (((if (cells first).isEmpty then p
                  else p.basic (chars (cells first))).writeNewline.writeIndent).writeToken next)
              else writeFlowable true n (chars (cells r)) next
                (((if (cells first).isEmpty then p
                  else p.basic (chars (cells first))).writeNewline.writeIndent).writeToken next)) ≠ .ok q := by
          intro first r hr
          rw [if_neg, chars_cells]
          · refine go r _ ?_ hr
            split <;> rfl
          · rw [cells_eq_nil]
            intro he
            rw [List.isEmpty_iff.1 he] at hr
            cases hr
        have right : ∀ a b : List Char, utf8Len a < utf8Len w → w ∈ words (a ++ ' ' :: b) → w ∈ words b := by
          intro a b hab hm
          rw [words_append_space] at hm
          rcases List.mem_append.1 hm with hm | hm
          · have := utf8Len_wordsFrom hm
            simp only [utf8Len_nil] at this
            omega
          · exact hm
        rcases breakText_spec (p.pageWidth - p.column) t' (by omega) (by omega) with ⟨a, b, rfl, h1, h2⟩ |
            ⟨a, b, rfl, h1, h2⟩ | ⟨b, rfl, h2⟩ | ⟨h2, _⟩
        · rw [h2]; exact go' a b (right a b (by omega) hw)
        · rw [h2]; exact go' (a ++ [' ']) b (right a b (by omega) hw)
        · rw [h2]; exact go' [] b (by rwa [words_cons_space] at hw)
        · rw [h2]; exact go' [] t' hw

/-- **C46: what is needed for writing running text to end well.** Whatever the text, the prefix and the state of the printer,
if the call ends well then no stretch of the text without blanks is wider than the page. -/
theorem C46_needs (s next : List Char) (p q : Printer) (h : writeFlow true s next p = .ok q) (u : List Char)
    (hu : u <:+: s) (h1 : ' ' ∉ u) (h2 : '\n' ∉ u) : utf8Len u ≤ p.pageWidth := by
  by_cases hne : u = []
  · subst hne; simp
  obtain ⟨a, b, rfl⟩ := hu
  obtain ⟨w, hw, hl⟩ := wordsFrom_stretch (cur := []) (a := a) (b := b) h1 h2 hne
  exact Nat.le_of_not_lt fun hlong => flow_wide next _ _ p q ⟨w, hw, by omega⟩ h

/-- Example: such a call, and a stretch of its text. -/
example : endsWith (fun q => q.out == "ab cd \n# efg \n# h i".toList)
      (writeFlow true "ab  cd\nefg h i".toList "# ".toList (new 4 9)) = true ∧
    "efg".toList <:+: "ab  cd\nefg h i".toList := ⟨by decide +kernel, ⟨"ab  cd\n".toList, " h i".toList, by decide⟩⟩

end Printer
end Mutagenyx
