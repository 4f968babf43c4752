import Verif.Spec.Lex
import Verif.Proofs.Spread

/-!
# The tokens of a text that was written token by token
-/

namespace Mutagenyx
namespace Lex

open Printer

variable {L : Lexer}


theorem blank_gap {c : Char} (h : c = ' ' ∨ c = '\n') : blank c = true := by
  rcases h with rfl | rfl <;> decide

theorem tokens_gap {w : List Char} (h : isGap w) (text : List Char) : tokens L (w ++ text) [] = tokens L text [] := by
  induction w with
  | nil => rfl
  | cons c w ih =>
    have hc := blank_gap (h c (List.mem_cons_self ..))
    simp only [List.cons_append, tokens, hc, if_true, ne_eq, not_true_eq_false, false_and, if_false, emit, true_or, List.nil_append]
    exact ih fun d hd => h d (List.mem_cons_of_mem _ hd)

/-- The characters form one token after `cur`. -/
def solid (L : Lexer) (cur : List Char) : List Char → Bool
  | [] => true
  | c :: cs => (if cur.isEmpty then !blank c else L.joins cur c) && solid L (cur ++ [c]) cs

theorem tokens_solid {t cur : List Char} (h : solid L cur t = true) (text : List Char) :
    tokens L (t ++ text) cur = tokens L text (cur ++ t) := by
  induction t generalizing cur with
  | nil => simp
  | cons c t ih =>
    simp only [solid, Bool.and_eq_true] at h
    rw [List.cons_append, tokens]
    cases cur with
    | nil =>
      have hb : blank c = false := by simpa using h.1
      simp only [ne_eq, not_true_eq_false, false_and, if_false, emit, true_or, if_true, List.nil_append, hb, Bool.false_eq_true]
      simpa using ih h.2
    | cons d cur =>
      have hj : L.joins (d :: cur) c = true := by simpa using h.1
      rw [if_pos ⟨by simp, hj⟩, ih h.2]
      simp

/-- A blank ends every token but strings and comments. -/
def Ends (L : Lexer) (cur : List Char) : Prop := ∀ b, blank b = true → cur ≠ [] → L.joins cur b = false

theorem tokens_end {cur : List Char} {b : Char} (hb : blank b = true) (h : Ends L cur) (text : List Char) :
    tokens L (b :: text) cur = emit L cur ++ tokens L text [] := by
  rw [tokens, if_neg (fun ⟨h1, h2⟩ => by rw [h b hb h1] at h2; cases h2), if_pos hb]

/-- The text goes on with white space, one of these characters, or not at all. -/
def Next (P : Char → Prop) (rest : List Char) : Prop := ∀ c cs, rest = c :: cs → blank c = true ∨ (blank c = false ∧ P c)

theorem next_nil {P : Char → Prop} : Next P [] := fun _ _ h => by cases h

theorem Next.mono {P Q : Char → Prop} {rest : List Char} (h : Next P rest) (hpq : ∀ c, P c → Q c) : Next Q rest :=
  fun c cs hc => (h c cs hc).imp id fun ⟨a, b⟩ => ⟨a, hpq c b⟩

/-- The text that the calls write has these tokens, if it goes on in such a way. -/
def Lexes (L : Lexer) (ops : List Op) (ts : List String) (P : Char → Prop) : Prop :=
  ∀ text rest, Spread ops text → Next P rest → tokens L (text ++ rest) [] = ts ++ tokens L rest []

/-- The text that the calls write goes on from something in such a way. -/
def Starts (ops : List Op) (P : Char → Prop) : Prop := ∀ text rest, Spread ops text → Next P (text ++ rest)

theorem next_gap {P : Char → Prop} {w text : List Char} (hw : isGap w) (h : Next P text) : Next P (w ++ text) := by
  cases w with
  | nil => exact h
  | cons c w =>
    intro d ds hd
    cases hd
    exact Or.inl (blank_gap (hw _ (List.mem_cons_self ..)))

theorem starts_space {P : Char → Prop} (ops : List Op) : Starts ([Op.space] ++ ops) P := by
  intro text rest h
  cases h with
  | space w hw h =>
    rw [List.append_assoc]
    refine next_gap hw ?_
    intro c cs hc
    cases hc
    exact Or.inl rfl

theorem starts_token {P : Char → Prop} {t : String} {c : Char} {cs : List Char} (ht : t.toList = c :: cs)
    (hb : blank c = false) (hc : P c) (ops : List Op) : Starts ([Op.token t.toList] ++ ops) P := by
  intro text rest h
  cases h with
  | token w u hw h =>
    rw [ht, List.append_assoc]
    refine next_gap hw ?_
    intro d ds hd
    cases hd
    exact Or.inr ⟨hb, hc⟩

theorem lexes_append {a b : List Op} {ts us : List String} {P Q : Char → Prop} (ha : Lexes L a ts P)
    (hb : Lexes L b us Q) (hs : Starts b P) : Lexes L (a ++ b) (ts ++ us) Q := by
  intro text rest h hn
  obtain ⟨s, t, rfl, h1, h2⟩ := spread_append h
  rw [List.append_assoc, ha s (t ++ rest) h1 (hs t rest h2), hb t rest h2 hn]
  simp

theorem lexes_mono {a : List Op} {ts : List String} {P Q : Char → Prop} (h : Lexes L a ts P) (hpq : ∀ c, Q c → P c) :
    Lexes L a ts Q := fun text rest h1 h2 => h text rest h1 (h2.mono hpq)

theorem lexes_nil {P : Char → Prop} : Lexes L [] [] P := by
  intro text rest h _
  cases h
  rfl

theorem lexes_space {P : Char → Prop} : Lexes L [.space] [] P := by
  intro text rest h _
  cases h with
  | space w hw h =>
    cases h
    rw [List.append_assoc, tokens_gap hw]
    simp [tokens, blank, emit]

theorem tokens_blank (he : ∀ cur, Ends L cur) (t cur : List Char) {b : Char} (hb : blank b = true) (text : List Char) :
    tokens L (t ++ b :: text) cur = tokens L t cur ++ tokens L text [] := by
  induction t generalizing cur with
  | nil => exact tokens_end hb (he cur) text
  | cons c t ih =>
    simp only [List.cons_append, tokens]
    split
    · exact ih _
    · split <;> rw [ih] <;> simp

theorem lexes_word_space {P : Char → Prop} (he : ∀ cur, Ends L cur) (t : String) :
    Lexes L ([Op.token t.toList] ++ [.space]) (tokens L t.toList []) P := by
  intro text rest h _
  cases h with
  | token w u hw h =>
    cases h with
    | space v hv h =>
      cases h
      simp only [List.append_assoc, List.cons_append, List.nil_append]
      rw [tokens_gap hw]
      cases v with
      | nil => exact tokens_blank he _ _ (by decide) rest
      | cons c v =>
        have hc := blank_gap (hv c (List.mem_cons_self ..))
        have hv : isGap v := fun d hd => hv d (List.mem_cons_of_mem _ hd)
        rw [List.cons_append, tokens_blank he _ _ hc, tokens_gap hv]
        simp [tokens, blank, emit]

theorem tokens_one {P : Char → Prop} {t rest : List Char} (hs : solid L [] t = true) (hne : t ≠ [])
    (hk : L.comment t = false) (he : Ends L t) (hj : ∀ c, P c → L.joins t c = false) (hn : Next P rest) :
    tokens L (t ++ rest) [] = String.ofList t :: tokens L rest [] := by
  rw [tokens_solid hs, List.nil_append]
  have hm : emit L t = [String.ofList t] := by simp [emit, hne, hk]
  cases rest with
  | nil => simpa [tokens, emit] using hm
  | cons c cs =>
    rcases hn c cs rfl with hb | ⟨hb, hc⟩
    · rw [tokens_end hb he, hm]
      simp [tokens, hb, emit]
    · rw [tokens, if_neg (fun ⟨_, h2⟩ => by rw [hj c hc] at h2; cases h2), hm]
      simp [tokens, hb, emit]

theorem lexes_word {P : Char → Prop} {t : String} (hs : solid L [] t.toList = true) (hne : t.toList ≠ [])
    (hk : L.comment t.toList = false) (he : Ends L t.toList) (hj : ∀ c, P c → L.joins t.toList c = false) :
    Lexes L ([Op.token t.toList]) [t] P := by
  intro text rest h hn
  cases h with
  | token w u hw h =>
    cases h
    rw [List.append_nil, List.append_assoc, tokens_gap hw, tokens_one hs hne hk he hj hn]
    simp

theorem starts_word {P : Char → Prop} {t : String} {c : Char} {cs : List Char} (ht : t.toList = c :: cs)
    (hb : blank c = false) (hc : P c) : Starts ([Op.token t.toList]) P := by
  simpa using starts_token ht hb hc []

theorem Starts.append {P : Char → Prop} {a : List Op} (b : List Op) (h : Starts a P) : Starts (a ++ b) P := by
  intro text rest hs
  obtain ⟨s, t, rfl, h1, _⟩ := spread_append hs
  rw [List.append_assoc]
  exact h s (t ++ rest) h1

/-- Anything. -/
def Any (_ : Char) : Prop := True

theorem Starts.any {ops : List Op} {P : Char → Prop} (h : Starts ops P) : Starts ops Any :=
  fun text rest hs => (h text rest hs).mono fun _ _ => trivial

end Lex
end Mutagenyx
