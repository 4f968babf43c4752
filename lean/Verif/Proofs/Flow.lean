import Verif.Props.Printer

/-!
# Lemmas about flowable text
-/

namespace Mutagenyx
namespace Printer

/-- The words of a text: what is between spaces and newlines; `cur` is the word begun before. -/
def wordsFrom (cur : List Char) : List Char → List (List Char)
  | [] => if cur = [] then [] else [cur]
  | c :: cs =>
    if c = ' ' ∨ c = '\n' then (if cur = [] then [] else [cur]) ++ wordsFrom [] cs
    else wordsFrom (cur ++ [c]) cs

/-- The words of a text. -/
def words (t : List Char) : List (List Char) := wordsFrom [] t

/-! ### Words -/

theorem wordsFrom_append_space (cur a b : List Char) :
    wordsFrom cur (a ++ ' ' :: b) = wordsFrom cur a ++ words b := by
  induction a generalizing cur with
  | nil => simp [wordsFrom, words]
  | cons c cs ih =>
    rw [List.cons_append, wordsFrom, wordsFrom]
    split
    · rw [ih, List.append_assoc]
    · exact ih _

theorem words_append_space (a b : List Char) : words (a ++ ' ' :: b) = words a ++ words b :=
  wordsFrom_append_space [] a b

theorem words_snoc_space (a : List Char) : words (a ++ [' ']) = words a := by
  rw [words_append_space]; simp [words, wordsFrom]

theorem words_cons_space (b : List Char) : words (' ' :: b) = words b := by
  have := words_append_space [] b
  simpa [words, wordsFrom] using this

theorem wordsFrom_map (cur s : List Char) :
    wordsFrom cur (s.map fun c => if c = '\n' then ' ' else c) = wordsFrom cur s := by
  induction s generalizing cur with
  | nil => rfl
  | cons c cs ih =>
    rw [List.map_cons, wordsFrom, wordsFrom]
    by_cases h : c = '\n'
    · simp [h, ih]
    · simp [h, ih]

theorem wordsFrom_collapse (cur t : List Char) : wordsFrom cur (Text.collapse t) = wordsFrom cur t := by
  induction t generalizing cur with
  | nil => rfl
  | cons c cs ih =>
    cases cs with
    | nil => rfl
    | cons d ds =>
      unfold Text.collapse
      split
      · rename_i h
        obtain ⟨rfl, rfl⟩ := h
        rw [ih]
        simp [wordsFrom]
      · rw [wordsFrom, wordsFrom, ih, ih]

theorem words_flowText {s t : List Char} (h : flowText s = .ok t) : words t = words s := by
  rw [flowText_eq] at h
  cases h
  rw [words, wordsFrom_collapse, wordsFrom_map, words]

theorem collapse_no_double (t : List Char) : ¬ [' ', ' '] <:+: Text.collapse t := by
  obtain ⟨r, h1, h2, _⟩ := Text.C52_remove_all_partial [' ', ' '] t (by simp)
  rw [Text.C52_double_spaces] at h1
  cases h1
  exact h2

theorem flowText_normal {t : List Char} (h1 : '\n' ∉ t) (h2 : ¬ [' ', ' '] <:+: t) : flowText t = .ok t := by
  rw [flowText_eq]
  have : (t.map fun c => if c = '\n' then ' ' else c) = t := by
    conv => rhs; rw [← List.map_id t]
    apply List.map_congr_left
    intro c hc
    split
    · rename_i h; subst h; exact absurd hc h1
    · rfl
  rw [this, Text.collapse_of_none t h2]

theorem utf8Len_collapse (t : List Char) : utf8Len (Text.collapse t) ≤ utf8Len t := by
  induction t with
  | nil => simp [Text.collapse]
  | cons c cs ih =>
    cases cs with
    | nil => simp [Text.collapse]
    | cons d ds =>
      unfold Text.collapse
      split
      · rw [utf8Len_cons]; omega
      · rw [utf8Len_cons, utf8Len_cons]; omega

theorem utf8Len_flowText {s t : List Char} (h : flowText s = .ok t) : utf8Len t ≤ utf8Len s := by
  rw [flowText_eq] at h
  cases h
  refine Nat.le_trans (utf8Len_collapse _) ?_
  induction s with
  | nil => simp
  | cons c cs ih =>
    simp only [List.map_cons, utf8Len_cons]
    split
    · rename_i h; subst h; simp only [show (' ').utf8Size = 1 from by decide, show ('\n').utf8Size = 1 from by decide]; omega
    · omega

/-- The first word of a text that does not begin with a blank. -/
theorem first_word (t : List Char) (hn : '\n' ∉ t) (cur : List Char) :
    (∃ w, t = w ∧ ' ' ∉ w ∧ wordsFrom cur t = if cur ++ w = [] then [] else [cur ++ w]) ∨
    (∃ w r, t = w ++ ' ' :: r ∧ ' ' ∉ w ∧
      wordsFrom cur t = (if cur ++ w = [] then [] else [cur ++ w]) ++ words r) := by
  induction t generalizing cur with
  | nil => left; exact ⟨[], rfl, by simp, by simp [wordsFrom]⟩
  | cons c cs ih =>
    simp only [List.mem_cons, not_or] at hn
    by_cases hc : c = ' '
    · right
      subst hc
      exact ⟨[], cs, rfl, by simp, by simp [wordsFrom, words]⟩
    · have hb : ¬ (c = ' ' ∨ c = '\n') := fun h => h.elim hc (Ne.symm hn.1)
      rcases ih hn.2 (cur ++ [c]) with ⟨w, rfl, hw, he⟩ | ⟨w, r, rfl, hw, he⟩
      · left
        refine ⟨c :: cs, rfl, by simp [Ne.symm hc, hw], ?_⟩
        rw [wordsFrom, if_neg hb, he]
        simp
      · right
        refine ⟨c :: w, r, rfl, by simp [Ne.symm hc, hw], ?_⟩
        rw [wordsFrom, if_neg hb, he]
        simp

/-! ### Bytes -/

theorem cells_append (a b : List Char) : cells (a ++ b) = cells a ++ cells b := by
  induction a with
  | nil => rfl
  | cons c cs ih => simp [cells, ih]

theorem cells_space (b : List Char) : cells (' ' :: b) = some ' ' :: cells b := by
  simp [cells, show (' ').utf8Size = 1 from by decide]

theorem cells_split (t : List Char) (k : Nat) (c : Char) (h : (cells t)[k]? = some (some c)) :
    ∃ a b, t = a ++ c :: b ∧ utf8Len a = k := by
  induction t generalizing k with
  | nil => simp [cells] at h
  | cons d ds ih =>
    have hpos := d.utf8Size_pos
    cases k with
    | zero =>
      simp [cells] at h
      subst h
      exact ⟨[], ds, rfl, rfl⟩
    | succ k =>
      simp only [cells, List.getElem?_cons_succ] at h
      by_cases hk : k < d.utf8Size - 1
      · rw [List.getElem?_append_left (by simpa using hk), List.getElem?_replicate, if_pos hk] at h
        cases h
      · rw [List.getElem?_append_right (by simpa using hk)] at h
        obtain ⟨a, b, h1, h2⟩ := ih _ h
        simp only [List.length_replicate] at h2
        exact ⟨d :: a, b, by rw [h1]; rfl, by rw [utf8Len_cons]; omega⟩

theorem cells_head (t : List Char) : (cells t)[0]? ≠ some none := by
  cases t with
  | nil => simp [cells]
  | cons c cs => simp [cells]

theorem take_cells (a b : List Char) : (cells (a ++ b)).take (utf8Len a) = cells a := by
  rw [cells_append, ← cells_length a, List.take_left']
  rfl

theorem drop_cells (a b : List Char) : (cells (a ++ b)).drop (utf8Len a) = cells b := by
  rw [cells_append, ← cells_length a, List.drop_left']
  rfl

theorem getElem?_cells_append (a b : List Char) (k : Nat) :
    (cells (a ++ b))[utf8Len a + k]? = (cells b)[k]? := by
  rw [cells_append, List.getElem?_append_right (by rw [cells_length]; omega), cells_length]
  congr 1; omega

theorem cells_eq_nil (t : List Char) : (cells t).isEmpty = t.isEmpty := by
  cases t <;> rfl

/-! ### The scan -/

/-- Where the scan may end up. -/
theorem scanWords_start (bs : List (Option Char)) (i : Nat) (s : Scan) :
    (scanWords bs i s).start = s.start ∨
    (∃ j, (scanWords bs i s).start = i + j ∧ j < bs.length ∧ bs[j]? ≠ some (some ' ') ∧
      ((j = 0 ∧ s.space = true) ∨ ∃ k, j = k + 1 ∧ bs[k]? = some (some ' '))) := by
  induction bs generalizing i s with
  | nil => left; rfl
  | cons b bs ih =>
    unfold scanWords
    split
    · rename_i hb
      rcases ih (i + 1) { s with space := true } with h | ⟨j, h1, h2, h3, h4⟩
      · left; exact h
      · right
        refine ⟨j + 1, by rw [h1]; omega, by simp; omega, by simpa using h3, Or.inr ?_⟩
        rcases h4 with ⟨rfl, _⟩ | ⟨k, rfl, hk⟩
        · exact ⟨0, rfl, by simp [hb]⟩
        · exact ⟨k + 1, rfl, by simpa using hk⟩
    · rename_i hb
      rcases ih (i + 1) { start := if s.space then i else s.start, space := false } with h | ⟨j, h1, h2, h3, h4⟩
      · by_cases hs : s.space = true
        · right
          refine ⟨0, by rw [h]; simp [hs], by simp, by simpa using hb, Or.inl ⟨rfl, hs⟩⟩
        · left
          rw [h]; simp [hs]
      · right
        refine ⟨j + 1, by rw [h1]; omega, by simp; omega, by simpa using h3, Or.inr ?_⟩
        rcases h4 with ⟨_, h4⟩ | ⟨k, rfl, hk⟩
        · cases h4
        · exact ⟨k + 1, rfl, by simpa using hk⟩

theorem scanWords_mono (bs : List (Option Char)) (i : Nat) (s : Scan) (h : s.start ≤ i) :
    s.start ≤ (scanWords bs i s).start := by
  rcases scanWords_start bs i s with h' | ⟨j, h1, _⟩
  · rw [h']; exact Nat.le_refl _
  · rw [h1]; omega

/-- A word that starts within the scanned bytes is noticed. -/
theorem scanWords_found (bs : List (Option Char)) (i : Nat) (s : Scan) (hi : s.start ≤ i) (k : Nat)
    (h1 : bs[k]? = some (some ' ')) (h2 : k + 1 < bs.length) (h3 : bs[k + 1]? ≠ some (some ' ')) :
    i + k < (scanWords bs i s).start := by
  induction bs generalizing i s k with
  | nil => simp at h1
  | cons b bs ih =>
    cases k with
    | zero =>
      simp at h1
      subst h1
      rw [scanWords, if_pos rfl]
      cases bs with
      | nil => simp at h2
      | cons c cs =>
        have hc : c ≠ some ' ' := by simpa using h3
        rw [scanWords, if_neg hc]
        have := scanWords_mono cs (i + 1 + 1) { start := if true = true then i + 1 else s.start, space := false } (by simp)
        simp at this
        simp
        omega
    | succ k =>
      simp only [List.getElem?_cons_succ, List.length_cons] at h1 h2 h3
      unfold scanWords
      split
      · have := ih (i + 1) { s with space := true } (by simp; omega) k h1 (by omega) h3
        omega
      · have := ih (i + 1) { start := if s.space then i else s.start, space := false } (by simp only; split <;> omega)
          k h1 (by omega) h3
        omega

/-! ### Where the text is broken -/

theorem breakText_spec (left : Nat) (t : List Char) (h0 : 0 < left) (h1 : left < utf8Len t) :
    (∃ a b, t = a ++ ' ' :: b ∧ utf8Len a = left ∧ breakText left (cells t) = .ok (cells a, cells b)) ∨
    (∃ a b, t = a ++ ' ' :: b ∧ utf8Len a + 1 < left ∧
      breakText left (cells t) = .ok (cells (a ++ [' ']), cells b)) ∨
    (∃ b, t = ' ' :: b ∧ breakText left (cells t) = .ok ([], cells b)) ∨
    (breakText left (cells t) = .ok ([], cells t) ∧ (cells t)[left]? ≠ some (some ' ') ∧
      (cells t)[0]? ≠ some (some ' ') ∧ (scanWords ((cells t).take left) 0 {}).start = 0) := by
  by_cases hs : (cells t)[left]? = some (some ' ')
  · left
    obtain ⟨a, b, rfl, hl⟩ := cells_split t left ' ' hs
    refine ⟨a, b, rfl, hl, ?_⟩
    unfold breakText cut
    simp only [hs, if_true]
    subst hl
    rw [take_cells, drop_cells, cells_space]
    simp
  · right
    rcases scanWords_start ((cells t).take left) 0 {} with h | ⟨j, hj1, hj2, hj3, hj4⟩
    · simp only at h
      by_cases hz : (cells t)[0]? = some (some ' ')
      · right; left
        obtain ⟨a, b, rfl, hl⟩ := cells_split t 0 ' ' hz
        have ha : a = [] := by
          cases a with
          | nil => rfl
          | cons c cs => have := c.utf8Size_pos; rw [utf8Len_cons] at hl; omega
        subst ha
        refine ⟨b, rfl, ?_⟩
        unfold breakText cut
        simp only [hs, if_false, h, hz, if_true]
        simp [cells_space]
      · right; right
        refine ⟨?_, hs, hz, h⟩
        unfold breakText cut
        simp only [hs, if_false, h, hz]
        have := cells_head t
        simp [this]
    · left
      simp only [Nat.zero_add] at hj1
      rcases hj4 with ⟨_, hj4⟩ | ⟨k, rfl, hk⟩
      · cases hj4
      · have hlt : k + 1 < left := by
          have := List.length_take_le left (cells t)
          omega
        rw [List.getElem?_take_of_lt (by omega)] at hk
        rw [List.getElem?_take_of_lt (by omega)] at hj3
        obtain ⟨a, b, rfl, hl⟩ := cells_split t k ' ' hk
        subst hl
        have hlen1 : utf8Len (a ++ [' ']) = utf8Len a + 1 := by
          rw [utf8Len_append]; simp [show (' ').utf8Size = 1 from by decide]
        have hassoc : a ++ ' ' :: b = (a ++ [' ']) ++ b := by simp
        have hget : (cells (a ++ ' ' :: b))[utf8Len a + 1]? ≠ some none := by
          have := getElem?_cells_append (a ++ [' ']) b 0
          rw [Nat.add_zero, hlen1, ← hassoc] at this
          rw [this]
          exact cells_head b
        refine ⟨a, b, rfl, hlt, ?_⟩
        unfold breakText cut
        simp only [hs, if_false, hj1, hget, hj3]
        rw [← hlen1, hassoc, take_cells, drop_cells]

end Printer
end Mutagenyx
