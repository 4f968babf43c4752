import Verif.Proofs.Fits
import Verif.Proofs.Spread
import Verif.Spec.VyperNodes

/-!
# Calls whose lines all fit on the page
-/

namespace Mutagenyx
namespace VyPrint

open Printer VyGrammar

/-- What calls write at a level of indentation if the page is wide enough, and the level afterwards. -/
def paint : Nat → List Op → Option (List Char × Nat)
  | d, [] => some ([], d)
  | d, o :: ops => match o with
    | .token t => if '\n' ∈ t then none else (paint d ops).map fun (u, e) => (t ++ u, e)
    | .string t => if '\n' ∈ t then none else (paint d ops).map fun (u, e) => ('"' :: (t ++ '"' :: u), e)
    | .space => (paint d ops).map fun (u, e) => (' ' :: u, e)
    | .newline => (paint d ops).map fun (u, e) => ('\n' :: u, e)
    | .indent => (paint d ops).map fun (u, e) => (blanks d ++ u, e)
    | .incr => if d < 36 then paint (d + 1) ops else none
    | .decr => match d with
      | 0 => none
      | d + 1 => paint d ops
    | .flow t _ => (paint d ops).map fun (u, e) => (onOneLine t ++ u, e)
    | _ => none

theorem paint_append {a b : List Op} {d e f : Nat} {t u : List Char} (ha : paint d a = some (t, e)) (hb : paint e b = some (u, f)) :
    paint d (a ++ b) = some (t ++ u, f) := by
  induction a generalizing d t with
  | nil => cases ha; simpa using hb
  | cons o a ih =>
    cases o <;> simp only [paint, reduceCtorEq] at ha
    case token s =>
      split at ha
      · cases ha
      · rename_i hn
        simp only [Option.map_eq_some_iff, Prod.mk.injEq, Prod.exists] at ha
        obtain ⟨v, g, h1, h2, rfl⟩ := ha
        simp [paint, hn, ih h1, ← h2]
    case string s =>
      split at ha
      · cases ha
      · rename_i hn
        simp only [Option.map_eq_some_iff, Prod.mk.injEq, Prod.exists] at ha
        obtain ⟨v, g, h1, h2, rfl⟩ := ha
        simp [paint, hn, ih h1, ← h2]
    case space =>
      simp only [Option.map_eq_some_iff, Prod.mk.injEq, Prod.exists] at ha
      obtain ⟨v, g, h1, h2, rfl⟩ := ha
      simp [paint, ih h1, ← h2]
    case newline =>
      simp only [Option.map_eq_some_iff, Prod.mk.injEq, Prod.exists] at ha
      obtain ⟨v, g, h1, h2, rfl⟩ := ha
      simp [paint, ih h1, ← h2]
    case indent =>
      simp only [Option.map_eq_some_iff, Prod.mk.injEq, Prod.exists] at ha
      obtain ⟨v, g, h1, h2, rfl⟩ := ha
      simp [paint, ih h1, ← h2]
    case incr =>
      split at ha
      · rename_i hd
        simp [paint, hd, ih ha]
      · cases ha
    case decr =>
      cases d with
      | zero => cases ha
      | succ d => simpa [paint] using ih ha
    case flow s n =>
      simp only [Option.map_eq_some_iff, Prod.mk.injEq, Prod.exists] at ha
      obtain ⟨v, g, h1, h2, rfl⟩ := ha
      simp [paint, ih h1, ← h2]

/-! ### Columns -/

/-- How many bytes of the last line there are, if `n` bytes are before the text. -/
def after : Nat → List Char → Nat
  | n, [] => n
  | n, c :: cs => if c = '\n' then after 0 cs else after (n + c.utf8Size) cs

theorem after_append (n : Nat) (a b : List Char) : after n (a ++ b) = after (after n a) b := by
  induction a generalizing n with
  | nil => rfl
  | cons c a ih =>
    simp only [List.cons_append, after]
    split <;> exact ih _

theorem fitsFrom_append (n : Nat) (a b : List Char) : fitsFrom n (a ++ b) = (fitsFrom n a && fitsFrom (after n a) b) := by
  induction a generalizing n with
  | nil => simp [fitsFrom, after]
  | cons c a ih =>
    simp only [List.cons_append, fitsFrom, after]
    split
    · exact ih _
    · rw [ih, Bool.and_assoc]

theorem after_line {t : List Char} (h : '\n' ∉ t) (n : Nat) : after n t = n + utf8Len t := by
  induction t generalizing n with
  | nil => simp [after, utf8Len]
  | cons c t ih =>
    rw [List.mem_cons, not_or] at h
    rw [after, if_neg fun hh => h.1 hh.symm, ih h.2, utf8Len_cons]
    omega

theorem fitsFrom_line {t : List Char} (h : '\n' ∉ t) {n : Nat} (hn : n ≤ 149) (hf : fitsFrom n t = true) : n + utf8Len t ≤ 149 := by
  induction t generalizing n with
  | nil => simpa [utf8Len] using hn
  | cons c t ih =>
    rw [List.mem_cons, not_or] at h
    rw [fitsFrom, if_neg fun hh => h.1 hh.symm] at hf
    simp only [Bool.and_eq_true, decide_eq_true_eq] at hf
    rw [utf8Len_cons]
    have := ih h.2 hf.1 hf.2
    omega

theorem after_le {t : List Char} {n : Nat} (hn : n ≤ 149) (hf : fitsFrom n t = true) : after n t ≤ 149 := by
  induction t generalizing n with
  | nil => exact hn
  | cons c t ih =>
    rw [fitsFrom] at hf
    rw [after]
    split at hf
    · rename_i hc
      rw [if_pos hc]
      exact ih (by omega) hf
    · rename_i hc
      rw [if_neg hc]
      simp only [Bool.and_eq_true, decide_eq_true_eq] at hf
      exact ih hf.1 hf.2

/-- The printer is at a level on a page of the usual size. -/
structure At (d : Nat) (p : Printer) : Prop where
  tab : p.tabWidth = 4
  width : p.pageWidth = 150
  max : p.maxIndent = 36
  level : p.indent = d

theorem at_new : At 0 (Printer.new 4 150) := ⟨rfl, rfl, rfl, rfl⟩

theorem At.basic {d : Nat} {p : Printer} (h : At d p) (t : List Char) : At d (p.basic t) := ⟨h.tab, h.width, h.max, h.level⟩

theorem At.newline {d : Nat} {p : Printer} (h : At d p) : At d p.writeNewline := ⟨h.tab, h.width, h.max, h.level⟩

theorem At.indentString {d : Nat} {p : Printer} (h : At d p) : p.indentString = blanks d := by
  unfold Printer.indentString indentLength blanks
  rw [h.level, h.tab, Nat.mul_comm]

theorem At.writeIndent {d : Nat} {p : Printer} (h : At d p) : p.writeIndent = p.basic (blanks d) := by
  unfold Printer.writeIndent
  rw [h.indentString]
  split
  · rename_i he
    rw [List.isEmpty_iff] at he
    simp [he, Printer.basic]
  · rfl

theorem blanks_line (d : Nat) : '\n' ∉ blanks d := by
  unfold blanks
  intro h
  have := List.eq_of_mem_replicate h
  exact absurd this (by decide)

theorem utf8Len_blanks (d : Nat) : utf8Len (blanks d) = 4 * d := utf8Len_replicate_space _

theorem single_collapse : (t : List Char) → single t = true → Text.collapse t = t
  | [], _ => rfl
  | [_], _ => rfl
  | c :: d :: t, h => by
    simp only [single, Bool.and_eq_true, Bool.not_eq_true', Bool.and_eq_false_iff, beq_eq_false_iff_ne] at h
    have ih := single_collapse (d :: t) h.2
    unfold Text.collapse
    rw [if_neg (by rintro ⟨rfl, rfl⟩; rcases h.1 with h | h <;> exact h rfl), ih]

theorem calm_iff {t : List Char} : calm (String.ofList t) = true ↔ '\n' ∉ t ∧ single t = true := by
  simp [calm]

theorem squeeze_collapse : (t : List Char) → squeeze t = Text.collapse t
  | [] => rfl
  | [_] => rfl
  | c :: d :: t => by
    unfold squeeze Text.collapse
    rw [squeeze_collapse (d :: t)]

/-- A calm text is on one line as it is. -/
theorem calm_line {t : List Char} (h : calm (String.ofList t) = true) : onOneLine t = t := by
  obtain ⟨h1, h2⟩ := calm_iff.1 h
  have : t.map (fun c => if c = '\n' then ' ' else c) = t := by
    rw [List.map_congr_left (g := id)]
    · simp
    · intro c hc
      rw [if_neg (by rintro rfl; exact h1 hc)]
      rfl
  rw [onOneLine, this, squeeze_collapse, single_collapse t h2]

theorem squeeze_mem {c : Char} : (t : List Char) → c ∈ squeeze t → c ∈ t
  | [], h => h
  | [_], h => h
  | d :: e :: t, h => by
    unfold squeeze at h
    split at h
    · exact List.mem_cons_of_mem _ (squeeze_mem (e :: t) h)
    · rcases List.mem_cons.1 h with rfl | h
      · exact List.mem_cons_self ..
      · exact List.mem_cons_of_mem _ (squeeze_mem (e :: t) h)

/-- There are no line breaks in it. -/
theorem line_onOneLine (t : List Char) : '\n' ∉ onOneLine t := by
  intro h
  obtain ⟨c, _, hc⟩ := List.mem_map.1 (squeeze_mem _ h)
  split at hc
  · exact absurd hc (by decide)
  · rename_i hn
    exact hn hc

theorem flow_fits (checks : Bool) {s next : List Char} {p : Printer} (h : p.column + utf8Len (onOneLine s) ≤ p.pageWidth) :
    exec checks (.flow s next) p = .ok (p.basic (onOneLine s)) := by
  rw [onOneLine, squeeze_collapse] at *
  rw [exec, writeFlow, writeFlowable, flowText_eq]
  simp only
  rw [if_neg (by omega), if_neg (by omega)]

/-- Calls whose lines all fit on the page write them. -/
theorem run_paint (checks : Bool) {ops : List Op} {d e n : Nat} {t : List Char} {p : Printer} (hd : At d p)
    (h : paint d ops = some (t, e)) (hn : p.column = n + 1) (hle : n ≤ 149) (hf : fitsFrom n t = true) :
    ∃ q, run checks ops p = .ok q ∧ q.out = p.out ++ t ∧ At e q ∧ q.column = after n t + 1 := by
  induction ops generalizing d n t p with
  | nil => cases h; exact ⟨p, rfl, by simp, hd, by simpa [after] using hn⟩
  | cons o ops ih =>
    -- one call that writes a part of a line
    have part : ∀ {s u : List Char}, '\n' ∉ s →
        (p.column + utf8Len s ≤ p.pageWidth → exec checks o p = .ok (p.basic s)) → t = s ++ u → paint d ops = some (u, e) →
        ∃ q, run checks (o :: ops) p = .ok q ∧ q.out = p.out ++ t ∧ At e q ∧ q.column = after n t + 1 := by
      rintro s u hs h1 rfl h2
      rw [fitsFrom_append, Bool.and_eq_true] at hf
      have hle' := fitsFrom_line hs hle hf.1
      have hx := h1 (by rw [hn, hd.width]; omega)
      obtain ⟨q, h3, h4, h5, h6⟩ := ih (hd.basic s) h2 (n := after n s) (by
        rw [after_line hs]
        simp only [Printer.basic, hn]
        omega) (after_le hle hf.1) hf.2
      exact ⟨q, by simp [run, hx, h3], by simp [h4, Printer.basic], h5, by rw [h6, after_append]⟩
    cases o <;> simp only [paint, reduceCtorEq] at h
    case token s =>
      split at h
      · cases h
      · rename_i hs
        simp only [Option.map_eq_some_iff, Prod.mk.injEq, Prod.exists] at h
        obtain ⟨v, g, h1, h2, rfl⟩ := h
        exact part (s := s) hs (fun hfit => by rw [exec, writeToken_fits hfit]) h2.symm h1
    case string s =>
      split at h
      · cases h
      · rename_i hs
        simp only [Option.map_eq_some_iff, Prod.mk.injEq, Prod.exists] at h
        obtain ⟨v, g, h1, h2, rfl⟩ := h
        exact part (s := '"' :: s ++ ['"']) (by simp [hs]) (fun hfit => by rw [exec, writeString, writeToken_fits hfit])
          (by simp [← h2]) h1
    case space =>
      simp only [Option.map_eq_some_iff, Prod.mk.injEq, Prod.exists] at h
      obtain ⟨v, g, h1, h2, rfl⟩ := h
      exact part (s := [' ']) (by decide) (fun hfit => by
        rw [exec, writeSpace_fits]
        exact hfit) h2.symm h1
    case newline =>
      simp only [Option.map_eq_some_iff, Prod.mk.injEq, Prod.exists] at h
      obtain ⟨v, g, h1, rfl, rfl⟩ := h
      obtain ⟨q, h3, h4, h5, h6⟩ := ih hd.newline h1 (n := 0) rfl (by omega) (by simpa [fitsFrom] using hf)
      exact ⟨q, by simp [run, exec, h3], by simp [h4, writeNewline], h5, by simp [h6, after]⟩
    case indent =>
      simp only [Option.map_eq_some_iff, Prod.mk.injEq, Prod.exists] at h
      obtain ⟨v, g, h1, h2, rfl⟩ := h
      exact part (s := blanks d) (blanks_line d) (fun _ => by rw [exec, hd.writeIndent]) h2.symm h1
    case incr =>
      split at h
      · rename_i hlt
        obtain ⟨q, h3, h4, h5, h6⟩ := ih (p := p.increaseIndent) (d := d + 1) (by
          unfold increaseIndent
          rw [if_neg (by rw [hd.level, hd.max]; omega)]
          exact ⟨hd.tab, hd.width, hd.max, by simp [hd.level]⟩) h (n := n) (by
          unfold increaseIndent
          split <;> exact hn) hle hf
        refine ⟨q, by simp [run, exec, h3], ?_, h5, h6⟩
        rw [h4]
        unfold increaseIndent
        split <;> rfl
      · cases h
    case decr =>
      cases d with
      | zero => cases h
      | succ d =>
        obtain ⟨q, h3, h4, h5, h6⟩ := ih (p := p.decreaseIndent) (d := d) (by
          unfold decreaseIndent
          rw [if_neg (by rw [hd.level]; omega)]
          exact ⟨hd.tab, hd.width, hd.max, by simp [hd.level]⟩) h (n := n) (by
          unfold decreaseIndent
          split <;> exact hn) hle hf
        refine ⟨q, by simp [run, exec, h3], ?_, h5, h6⟩
        rw [h4]
        unfold decreaseIndent
        split <;> rfl
    case flow s next =>
      simp only [Option.map_eq_some_iff, Prod.mk.injEq, Prod.exists] at h
      obtain ⟨v, g, h1, h2, rfl⟩ := h
      exact part (s := onOneLine s) (line_onOneLine s) (fun hfit => flow_fits checks hfit) h2.symm h1

end VyPrint
end Mutagenyx
