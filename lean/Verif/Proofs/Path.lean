import Verif.Model.Driver
import Verif.Proofs.Json

/-! Helper lemmas about paths and output names. -/

namespace Mutagenyx
open Json
namespace Path

theorem splitSlash_ne_nil (cs : List Char) : splitSlash cs ≠ [] := by
  cases cs with
  | nil => simp [splitSlash]
  | cons c cs =>
    simp only [splitSlash]
    split
    · simp
    · split <;> simp

theorem splitSlash_append (l b : List Char) (hb : ∀ c ∈ b, c ≠ '/') :
    splitSlash (l ++ '/' :: b) = splitSlash l ++ [b] := by
  induction l with
  | nil => simp [splitSlash, splitSlash_plain b hb]
  | cons c l ih =>
    simp only [List.cons_append, splitSlash, ih]
    split
    · rfl
    · cases h : splitSlash l with
      | nil => exact absurd h (splitSlash_ne_nil l)
      | cons t ts => simp

theorem splitSlash_no_slash (l : List Char) : ∀ c ∈ splitSlash l, ∀ x ∈ c, x ≠ '/' := by
  induction l with
  | nil => simp [splitSlash]
  | cons y l ih =>
    intro c hc x hx
    simp only [splitSlash] at hc
    split at hc
    · rcases List.mem_cons.1 hc with rfl | hc
      · simp at hx
      · exact ih c hc x hx
    · rename_i hy
      split at hc
      · rename_i h; exact absurd h (splitSlash_ne_nil l)
      · rename_i t ts h
        rcases List.mem_cons.1 hc with rfl | hc
        · rcases List.mem_cons.1 hx with rfl | hx
          · exact hy
          · exact ih t (by rw [h]; simp) x hx
        · exact ih c (by rw [h]; simp [hc]) x hx

theorem lastNormal_mem {cs : List (List Char)} {c : List Char} (h : lastNormal cs = some c) :
    c ∈ cs ∧ c ≠ [] ∧ c ≠ ['.'] := by
  induction cs with
  | nil => cases h
  | cons d ds ih =>
    simp only [lastNormal] at h
    split at h
    · obtain ⟨h1, h2⟩ := ih h
      exact ⟨List.mem_cons_of_mem _ h1, h2⟩
    · rename_i hd
      cases h
      simp only [not_or] at hd
      exact ⟨by simp, hd.1, hd.2⟩

/-- A file name is not empty and has no separator in it. -/
theorem fileName_spec {p b : String} (h : fileName p = some b) :
    b.toList ≠ [] ∧ ∀ c ∈ b.toList, c ≠ '/' := by
  unfold fileName at h
  split at h
  · rename_i c hc
    split at h
    · cases h
    · cases h
      obtain ⟨h1, h2, -⟩ := lastNormal_mem hc
      rw [List.mem_reverse] at h1
      rw [String.toList_ofList]
      exact ⟨h2, fun x hx => splitSlash_no_slash _ _ h1 x hx⟩
  · cases h

/-- What `join` puts before a relative name. -/
def joinPrefix (d : String) : List Char :=
  match d.toList.getLast? with
  | none => []
  | some c => if c = '/' then d.toList else d.toList ++ ['/']

theorem join_toList (d f : String) (hne : f.toList ≠ []) (hf : ∀ c ∈ f.toList, c ≠ '/') :
    (join d f).toList = joinPrefix d ++ f.toList := by
  unfold join joinPrefix
  split
  · rename_i cs h
    exact absurd rfl (hf '/' (by rw [h]; simp))
  · cases h : d.toList.getLast? with
    | none => simp
    | some c =>
      simp only
      split <;> simp [String.toList_append]

theorem joinPrefix_cases (d : String) : joinPrefix d = [] ∨ ∃ l, joinPrefix d = l ++ ['/'] := by
  unfold joinPrefix
  cases h : d.toList.getLast? with
  | none => exact Or.inl rfl
  | some c =>
    right
    simp only
    split
    · rename_i hc
      subst hc
      have hne : d.toList ≠ [] := by intro e; rw [e] at h; cases h
      rcases List.eq_nil_or_concat d.toList with e | ⟨l, x, e⟩
      · exact absurd e hne
      · rw [List.concat_eq_append] at e
        rw [e, List.getLast?_append] at h
        simp at h
        exact ⟨l, by rw [e, h]⟩
    · exact ⟨_, rfl⟩

/-- The file name of a joined path is the name joined. -/
theorem fileName_join (d f : String) (hne : f.toList ≠ []) (hf : ∀ c ∈ f.toList, c ≠ '/')
    (h1 : f.toList ≠ ['.']) (h2 : f.toList ≠ ['.', '.']) : fileName (join d f) = some f := by
  have hsplit : ∃ l, (splitSlash (join d f).toList).reverse = f.toList :: l := by
    rw [join_toList d f hne hf]
    rcases joinPrefix_cases d with h | ⟨l, h⟩
    · rw [h, List.nil_append, splitSlash_plain _ hf]; exact ⟨[], rfl⟩
    · rw [h, List.append_assoc]
      have : ['/'] ++ f.toList = '/' :: f.toList := rfl
      rw [this, splitSlash_append _ _ hf, List.reverse_append]
      exact ⟨_, rfl⟩
  obtain ⟨l, hl⟩ := hsplit
  unfold fileName
  rw [hl]
  have hcond : ¬ (f.toList = [] ∨ f.toList = ['.']) := by
    intro h
    rcases h with h | h
    · exact hne h
    · exact h1 h
  simp only [lastNormal, if_neg hcond, if_neg h2, String.ofList_toList]

theorem join_inj {d f g : String} (hf0 : f.toList ≠ []) (hf : ∀ c ∈ f.toList, c ≠ '/')
    (hg0 : g.toList ≠ []) (hg : ∀ c ∈ g.toList, c ≠ '/') (h : join d f = join d g) : f = g := by
  have := congrArg String.toList h
  rw [join_toList d f hf0 hf, join_toList d g hg0 hg] at this
  exact String.toList_inj.1 (List.append_cancel_left this)

/-- Paths made from names end with these names. -/
theorem join_name {d e f g : String} (hf0 : f.toList ≠ []) (hf : ∀ c ∈ f.toList, c ≠ '/')
    (hg0 : g.toList ≠ []) (hg : ∀ c ∈ g.toList, c ≠ '/') (h : join d f = join e g) : f = g := by
  have key : ∀ (d f : String), f.toList ≠ [] → (∀ c ∈ f.toList, c ≠ '/') →
      (splitSlash (join d f).toList).reverse.head? = some f.toList := by
    intro d f hne hf
    rw [join_toList d f hne hf]
    rcases joinPrefix_cases d with h | ⟨l, h⟩
    · rw [h, List.nil_append, splitSlash_plain _ hf]; rfl
    · rw [h, List.append_assoc]
      have : ['/'] ++ f.toList = '/' :: f.toList := rfl
      rw [this, splitSlash_append _ _ hf, List.reverse_append]
      rfl
  have h1 := key d f hf0 hf
  rw [h, key e g hg0 hg] at h1
  exact String.toList_inj.1 (Option.some.inj h1).symm

end Path

theorem getLast?_append_ne {α : Type} (a : List α) {b : List α} (h : b ≠ []) :
    (a ++ b).getLast? = b.getLast? := by
  rw [List.getLast?_append]
  cases hb : b.getLast? with
  | none => exact absurd (List.getLast?_eq_none_iff.1 hb) h
  | some x => rfl

theorem toString_digits (n : Nat) : ∀ c ∈ (toString n).toList, c.isDigit = true := by
  intro c hc
  rw [Nat.toString_eq_ofList_toDigits, String.toList_ofList] at hc
  exact Nat.isDigit_of_mem_toDigits (by omega) (by omega) hc

theorem toString_ne_nil (n : Nat) : (toString n).toList ≠ [] := by
  rw [Nat.toString_eq_ofList_toDigits, String.toList_ofList]
  exact Nat.toDigits_ne_nil

theorem toString_inj {m n : Nat} (h : toString m = toString n) : m = n := by
  have := congrArg String.toList h
  rw [Nat.toString_eq_ofList_toDigits, Nat.toString_eq_ofList_toDigits, String.toList_ofList,
    String.toList_ofList] at this
  rw [← Nat.ofDigitChars_ten_toDigits (n := m), this, Nat.ofDigitChars_ten_toDigits]

/-- An extension such as `sol` or `vy`: not empty, no separator, not ending in a digit. -/
structure PlainExt (ext : String) : Prop where
  noSlash : ∀ c ∈ ext.toList, c ≠ '/'
  last : ∃ c, ext.toList.getLast? = some c ∧ c.isDigit = false

theorem mutantBase_chars {base : String} (hb : ∀ c ∈ base.toList, c ≠ '/') (n : Nat) :
    ∀ c ∈ (base ++ "_" ++ toString n).toList, c ≠ '/' := by
  intro c hc
  rw [String.toList_append, String.toList_append, List.mem_append, List.mem_append] at hc
  rcases hc with (hc | hc) | hc
  · exact hb c hc
  · rw [List.mem_singleton.1 hc]; decide
  · intro e
    have := toString_digits n c hc
    rw [e] at this
    cases this

/-- Where mutant number `n` goes. -/
theorem mutantTarget_eq {ext fileName outDir base : String} (hext : PlainExt ext)
    (hb : Path.fileName fileName = some base) (n : Nat) :
    mutantTarget ext fileName outDir n =
      some (Path.join outDir (base ++ "_" ++ toString n ++ "." ++ ext)) := by
  obtain ⟨hb0, hbs⟩ := Path.fileName_spec hb
  have hne : (base ++ "_" ++ toString n).toList ≠ [] := by simp
  have hslash := mutantBase_chars hbs n
  have hus : '_' ∈ (base ++ "_" ++ toString n).toList := by simp
  have h1 : (base ++ "_" ++ toString n).toList ≠ ['.'] := by
    intro h; rw [h] at hus; simp at hus
  have h2 : (base ++ "_" ++ toString n).toList ≠ ['.', '.'] := by
    intro h; rw [h] at hus; simp at hus
  have hends : Path.endsWith (Path.join outDir (base ++ "_" ++ toString n)) ("." ++ ext) = false := by
    unfold Path.endsWith
    rw [Path.join_toList _ _ hne hslash]
    rw [Bool.eq_false_iff]
    intro h
    rw [List.isSuffixOf_iff_suffix] at h
    obtain ⟨t, ht⟩ := h
    obtain ⟨c, hc, hd⟩ := hext.last
    have hl := congrArg List.getLast? ht
    have hextne : ext.toList ≠ [] := by intro e; rw [e] at hc; cases hc
    rw [String.toList_append, getLast?_append_ne _ (by simp), getLast?_append_ne _ hextne, hc] at hl
    rw [String.toList_append, ← List.append_assoc, getLast?_append_ne _ (toString_ne_nil n)] at hl
    have hmem : c ∈ (toString n).toList := List.mem_of_getLast? hl.symm
    rw [toString_digits n c hmem] at hd
    cases hd
  unfold mutantTarget mutantName
  rw [hb]
  simp only
  unfold printTarget
  rw [Path.fileName_join _ _ hne hslash h1 h2]
  rw [hends]
  simp only [Bool.false_eq_true, if_false, String.append_assoc]

theorem mutantFile_ok {ext base : String} (hext : PlainExt ext) (hbs : ∀ c ∈ base.toList, c ≠ '/') (n : Nat) :
    (base ++ "_" ++ toString n ++ "." ++ ext).toList ≠ [] ∧
    ∀ c ∈ (base ++ "_" ++ toString n ++ "." ++ ext).toList, c ≠ '/' := by
  refine ⟨by simp, ?_⟩
  intro c hc
  rw [String.toList_append, String.toList_append, List.mem_append, List.mem_append] at hc
  rcases hc with (hc | hc) | hc
  · exact mutantBase_chars hbs n c hc
  · rw [List.mem_singleton.1 hc]; decide
  · exact hext.noSlash c hc

/-- The text before the last character that satisfies `P` is determined. -/
theorem split_last_unique {α : Type} {P : α → Prop} {a b c d : List α} {x y : α}
    (h : a ++ x :: b = c ++ y :: d) (hx : P x) (hy : P y) (hb : ∀ z ∈ b, ¬ P z) (hd : ∀ z ∈ d, ¬ P z) :
    a = c ∧ b = d := by
  rcases List.append_eq_append_iff.1 h with ⟨e, h1, h2⟩ | ⟨e, h1, h2⟩
  · cases e with
    | nil => simp at h1 h2; exact ⟨h1.symm, h2.2⟩
    | cons z e =>
      simp only [List.cons_append, List.cons.injEq] at h2
      exact absurd hy (hb y (by rw [h2.2]; simp))
  · cases e with
    | nil => simp at h1 h2; exact ⟨h1, h2.2.symm⟩
    | cons z e =>
      simp only [List.cons_append, List.cons.injEq] at h2
      exact absurd hx (hd x (by rw [h2.2]; simp))

theorem mutantFile_inj {ext b1 b2 : String} {m n : Nat}
    (h : b1 ++ "_" ++ toString m ++ "." ++ ext = b2 ++ "_" ++ toString n ++ "." ++ ext) : b1 = b2 ∧ m = n := by
  have h := congrArg String.toList h
  simp only [String.toList_append, List.append_cancel_right_eq] at h
  have e : ("_" : String).toList = ['_'] := rfl
  rw [e] at h
  simp only [List.append_assoc, List.singleton_append] at h
  obtain ⟨h1, h2⟩ := split_last_unique (P := fun c : Char => c.isDigit = false) h rfl rfl
    (fun z hz => by simp [toString_digits m z hz]) (fun z hz => by simp [toString_digits n z hz])
  exact ⟨String.toList_inj.1 h1, toString_inj (String.toList_inj.1 h2)⟩

end Mutagenyx
