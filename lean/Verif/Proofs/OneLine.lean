import Verif.Proofs.Anchored
import Verif.Proofs.Fits

/-!
# Nodes printed on one line, and flowable text line by line
-/

namespace Mutagenyx
namespace Printer

/-- Calls that wrote a text without line breaks once write the same text wherever there is room for it. -/
theorem run_again {checks : Bool} {ops : List Op} {p q r : Printer} {text : List Char}
    (ha : Op.indent ∈ ops → Op.newline ∈ ops) (h : run checks ops p = .ok q) (ht : q.out = p.out ++ text)
    (hn : '\n' ∉ text) (hfit : r.column + utf8Len text ≤ r.pageWidth) :
    ∃ t, run checks ops r = .ok t ∧ t.out = r.out ++ text ∧ t.column = r.column + utf8Len text ∧
      t.pageWidth = r.pageWidth := by
  have hi : Op.indent ∉ ops := by
    intro hh
    obtain ⟨u, h1, h2⟩ := run_newline h (ha hh)
    rw [ht] at h1
    rw [List.append_cancel_left h1] at hn
    exact hn h2
  obtain ⟨u, h1, h2⟩ := run_oneLine h hi
  rw [ht] at h1
  have h1 := List.append_cancel_left h1
  subst h1
  exact run_fits checks (h2 hn).2 hfit

theorem breakText_rest {left : Nat} {bs first rest : List (Option Char)}
    (h : breakText left bs = .ok (first, rest)) : ∃ i, rest = bs.drop i := by
  unfold breakText cut at h
  simp only at h
  generalize (if bs[left]? = some (some ' ') then left else (scanWords (bs.take left) 0 {}).start) = i at h
  split at h
  · rename_i hc
    split at hc
    · cases hc
    · cases hc
      cases h
      split
      · exact ⟨i + 1, by simp⟩
      · exact ⟨i, rfl⟩
  all_goals cases h

theorem fresh_next {next : List Char} {p : Printer} (h : 1 + p.indentLength + utf8Len next ≤ p.pageWidth) :
    (p.writeNewline.writeIndent.writeToken next).out = p.out ++ ('\n' :: p.indentString ++ next) := by
  have hl : utf8Len p.indentString = p.indentLength := utf8Len_replicate_space _
  have h1 : p.writeNewline.writeIndent.column = 1 + p.indentLength := by
    unfold writeIndent
    split
    · rename_i he
      have he : p.indentString = [] := List.isEmpty_iff.1 he
      rw [he] at hl
      simp only [writeNewline]
      simp at hl
      omega
    · simp only [basic, writeNewline]
      show 1 + utf8Len p.indentString = _
      rw [hl]
  have h2 : p.writeNewline.writeIndent.pageWidth = p.pageWidth := (sameLayout_writeIndent _).pageWidth
  rw [writeToken_fits (by rw [h1, h2]; exact h)]
  have h3 : p.writeNewline.writeIndent.out = p.out ++ ('\n' :: p.indentString) := by
    unfold writeIndent
    split
    · rename_i he
      have he : p.indentString = [] := List.isEmpty_iff.1 he
      simp [writeNewline, he]
    · simp [basic, writeNewline]
      rfl
  simp [basic, h3]

/-- Every line of flowable text after the first starts with the indentation and the text for new lines. -/
theorem writeFlowable_lines (checks : Bool) (next : List Char) (fuel : Nat) (s : List Char) (p q : Printer)
    (hroom : 1 + p.indentLength + utf8Len next ≤ p.pageWidth) (h : writeFlowable checks fuel s next p = .ok q) :
    ∃ piece pieces, q.out = p.out ++ piece ++ (pieces.map fun c => '\n' :: p.indentString ++ next ++ c).flatten ∧
      ∀ c ∈ piece :: pieces, '\n' ∉ c := by
  induction fuel generalizing s p with
  | zero => cases h
  | succ n ih =>
    unfold Printer.writeFlowable at h
    cases hf : flowText s with
    | err _ => rw [hf] at h; cases h
    | panic => rw [hf] at h; cases h
    | outOfFuel => rw [hf] at h; cases h
    | ok t =>
      rw [hf] at h
      have hnt := flowText_no_newline s t hf
      simp only at h
      have same : ∀ {p : Printer}, SameLayout p (p.writeNewline.writeIndent.writeToken next) := fun {p} =>
        ((sameLayout_elementary p).newline _ (.refl p)).trans
          ((sameLayout_writeIndent _).trans (sameLayout_writeToken _ _))
      split at h
      · split at h
        · cases h
        · cases h
          exact ⟨t, [], by simp [basic], by simpa using hnt⟩
      · split at h
        · split at h
          · obtain ⟨piece, pieces, h1, h2⟩ := ih _ _ (by rw [same.indentLength, same.pageWidth]; exact hroom) h
            refine ⟨[], piece :: pieces, ?_, by simpa using h2⟩
            rw [h1, fresh_next hroom, same.indentString]
            simp
          · cases hb : breakText (p.pageWidth - p.column) (cells t) with
            | err _ => rw [hb] at h; cases h
            | panic => rw [hb] at h; cases h
            | outOfFuel => rw [hb] at h; cases h
            | ok fr =>
              obtain ⟨first, rest⟩ := fr
              rw [hb] at h
              have hfirst := breakText_no_newline hnt hb
              simp only at h
              have h1 : ∃ x, '\n' ∉ x ∧ (if first.isEmpty then p else p.basic (chars first)).out = p.out ++ x := by
                split
                · exact ⟨[], by simp, by simp⟩
                · exact ⟨_, hfirst, rfl⟩
              have h2 : SameLayout p (if first.isEmpty then p else p.basic (chars first)) := by
                split
                · exact .refl p
                · exact ⟨rfl, rfl, rfl, rfl⟩
              generalize (if first.isEmpty then p else p.basic (chars first)) = p' at h h1 h2
              obtain ⟨x, hx, h1⟩ := h1
              have hroom' : 1 + p'.indentLength + utf8Len next ≤ p'.pageWidth := by
                rw [h2.indentLength, h2.pageWidth]; exact hroom
              split at h
              · cases h
                refine ⟨x, [[]], ?_, by simpa using hx⟩
                rw [fresh_next hroom', h1, h2.indentString]
                simp
              · obtain ⟨piece, pieces, h3, h4⟩ := ih _ _ (by rw [same.indentLength, same.pageWidth]; exact hroom') h
                refine ⟨x, piece :: pieces, ?_, ?_⟩
                · rw [h3, fresh_next hroom', h1, same.indentString, h2.indentString]
                  simp
                · intro c hc
                  rcases List.mem_cons.1 hc with rfl | hc
                  · exact hx
                  · exact h4 c hc
        · cases h
          exact ⟨t, [], by simp [basic], by simpa using hnt⟩

end Printer
end Mutagenyx
