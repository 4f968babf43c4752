import Verif.Proofs.VyperText
import Verif.Proofs.VyperCalls

/-!
# The layout of Vyper statements: how it is printed, how it is cut into lines, and its tokens
-/

namespace Mutagenyx
namespace VyPrint

open NodePrinter Printer VyGrammar Lex

/-! ### Parts of a line -/

/-- The calls write the text, it is within a logical line, and it has these tokens. -/
structure Part (q p : Bool) (d : Nat) (ops : List Op) (t : List Char) (ts : List String) (P : Char → Prop) : Prop where
  paint : paint d ops = some (t, d)
  scans : Scans 0 q p t
  lex : ∀ rest, Next P rest → VyGrammar.tokens (t ++ rest) = ts ++ VyGrammar.tokens rest

variable {q p q' p' : Bool} {d : Nat} {a b : List Op} {t u : List Char} {ts us : List String} {P Q : Char → Prop}

theorem Part.mono (h : Part q p d a t ts P) (hq : q' = true → q = true) (hp : p = true → p' = true) (hP : ∀ c, Q c → P c) :
    Part q' p' d a t ts Q :=
  ⟨h.paint, h.scans.mono (Nat.le_refl _) hq hp, fun rest hr => h.lex rest (hr.mono hP)⟩

theorem Part.append (ha : Part q p d a t ts P) (hb : Part q' p' d b u us Q) (h : p = true → q' = true)
    (hn : ∀ rest, Next Q rest → Next P (u ++ rest)) : Part q p' d (a ++ b) (t ++ u) (ts ++ us) Q :=
  ⟨paint_append ha.paint hb.paint, ha.scans.append hb.scans h, fun rest hr => by
    rw [List.append_assoc, ha.lex _ (hn rest hr), hb.lex rest hr, List.append_assoc]⟩

theorem Part.of_lexes (h1 : VyPrint.paint d a = some (t, d)) (h2 : Scans 0 q p t) (h3 : Lexes lexer a ts P) : Part q p d a t ts P :=
  ⟨h1, h2, fun rest hr => h3 t rest (spread_paint h1) hr⟩

theorem next_any (rest : List Char) : Next Any rest := by
  intro c cs _
  cases h : blank c with
  | true => exact Or.inl rfl
  | false => exact Or.inr ⟨rfl, trivial⟩

theorem next_blank {c : Char} (h : blank c = true) (rest : List Char) : Next P (c :: rest) := by
  intro c' cs hc
  cases hc
  exact Or.inl h

theorem next_char {c : Char} (h : blank c = false) (hc : P c) (rest : List Char) : Next P (c :: rest) := by
  intro c' cs hc'
  cases hc'
  exact Or.inr ⟨h, hc⟩

theorem blank_imp (c : Char) (h : Blank c) : P c := h.elim

theorem part_E {e : Expr} (h : Plain e) (hd : d + depthE e ≤ 36) :
    Part false true d (opsE e) (textE d e) (strE e) (Follows (primary e)) :=
  .of_lexes (paint_opsE e h d hd) (scans_textE e h d) (lexes_opsE e h)

theorem fineAll_plain : {es : List Expr} → FineAll es → PlainAll "]" es
  | [], _ => by simp [PlainAll]
  | e :: es, h => by
    have he := h e (List.mem_cons_self ..)
    simp only [PlainAll]
    refine ⟨?_, he.1, fineAll_plain fun x hx => h x (List.mem_cons_of_mem _ hx)⟩
    cases e <;> first | rfl | cases he.2

theorem part_row {es : List Expr} (h : FineAll es) (hd : d + depthAll es ≤ 36) :
    Part false true d (opsArgs es) (textRow d es) (strArgs es) (Follows false) :=
  .of_lexes (paint_opsArgs _ es (fineAll_plain h) d hd) (scans_textRow _ es (fineAll_plain h) d) (lexes_opsArgs _ es (fineAll_plain h))

theorem part_name {n : String} (h : isName n = true) (d : Nat) : Part true false d (word n) n.toList [n] (Follows true) :=
  .of_lexes (paint_word (name_line h) d) (scans_name h) (by simpa [h] using lexes_leaf (isName_leaf h))

/-- A word of the language. -/
def isKey (t : String) : Bool := isWord t && t.toList.all plainChar && !t.toList.isEmpty

theorem key_line {t : String} (h : isKey t = true) : '\n' ∉ t.toList := by
  simp only [isKey, Bool.and_eq_true, List.all_eq_true] at h
  exact fun hm => absurd (h.1.2 _ hm) (by decide)

theorem part_key {t : String} (h : isKey t = true) (d : Nat) : Part true false d (word t) t.toList [t] Blank := by
  have hl := key_line h
  simp only [isKey, Bool.and_eq_true, Bool.not_eq_true', List.isEmpty_eq_false_iff] at h
  exact .of_lexes (paint_word hl d) (scans_all h.1.2 h.2) (lexes_isWord h.1.1 fun c hc => hc.elim)

theorem part_space (d : Nat) (P : Char → Prop) : Part true false d [.space] [' '] [] P :=
  .of_lexes rfl (scans_all (by decide) (by decide)) lexes_space

theorem part_symbol {t : String} {c : Char} (ht : t.toList = [c]) (hc : c ∈ symbols) (hp : plainChar c = true) (d : Nat) (P : Char → Prop) :
    Part true false d (word t) [c] [t] P :=
  .of_lexes (by
    rw [← ht]
    refine paint_word ?_ d
    rw [ht]
    intro hm
    rw [List.mem_singleton] at hm
    subst hm
    exact absurd hp (by decide)) (scans_all (by simpa using hp) (by simp)) (lexes_symbol ht hc P)

theorem part_colon (d : Nat) (P : Char → Prop) : Part true false d (word ":") [':'] [":"] P := part_symbol rfl (by decide) (by decide) d P

theorem part_comma (d : Nat) (P : Char → Prop) : Part true false d (word "," ++ [.space]) [',', ' '] [","] P :=
  (part_symbol (t := ",") (c := ',') rfl (by decide) (by decide) d Any).append (part_space d P) (by simp) (fun _ _ => next_any _)

theorem part_colonSpace (d : Nat) (P : Char → Prop) : Part true false d (word ":" ++ [.space]) [':', ' '] [":"] P :=
  (part_colon d Any).append (part_space d P) (by simp) (fun _ _ => next_any _)

theorem tokens_space (rest : List Char) : VyGrammar.tokens (' ' :: rest) = VyGrammar.tokens rest := by
  simp [VyGrammar.tokens, Lex.tokens, blank, emit]

theorem part_equals (d : Nat) (P : Char → Prop) : Part true false d (word " = ") " = ".toList ["="] P where
  paint := paint_word (by decide) d
  scans := scans_all (by decide) (by decide)
  lex rest _ := by
    have h := tokens_wordBlank (t := "=") (by decide) (next_blank (c := ' ') (by decide) rest)
    have h1 := tokens_space rest
    unfold VyGrammar.tokens at h1
    rw [h1] at h
    exact (tokens_space _).trans h

theorem part_arrow (d : Nat) (P : Char → Prop) : Part true false d ([.space] ++ (word "->" ++ [.space])) " -> ".toList ["->"] P :=
  (part_space d Any).append ((part_key (t := "->") (by decide) d).append (part_space d P) (by simp) (fun _ _ => next_blank (by decide) _))
    (by simp) (fun _ _ => next_any _)

theorem Part.cast {a' : List Op} {t' : List Char} {ts' : List String} (h : Part q p d a t ts P) (h1 : a = a') (h2 : t = t') (h3 : ts = ts') :
    Part q p d a' t' ts' P := by
  subst h1 h2 h3
  exact h

theorem part_eq (d : Nat) : Part true false d (word "=") ['='] ["="] Begin :=
  .of_lexes (paint_word (t := "=") (by decide) d) (scans_all (by decide) (by decide)) (lexes_isWord (by decide) fun c hc => by
    have : ¬ c = '=' := hc
    simp [joins, wordChar, pairs, this])

theorem part_aug {o : Operator} (ho : o ∈ augmented) (d : Nat) (P : Char → Prop) :
    Part true false d ([.space] ++ (word o.text ++ (word "=" ++ [.space]))) (' ' :: (o.text.toList ++ ['=', ' '])) [o.text ++ "="] P := by
  have key : ∀ (t : String) (rest : List Char), isWord t = true → VyGrammar.tokens (' ' :: (t.toList ++ ' ' :: rest)) = t :: VyGrammar.tokens rest := by
    intro t rest ht
    have h := tokens_wordBlank ht (next_blank (c := ' ') (by decide) rest)
    have h1 := tokens_space rest
    unfold VyGrammar.tokens at h1
    rw [h1] at h
    exact (tokens_space _).trans h
  simp only [augmented, List.mem_cons, List.not_mem_nil, or_false] at ho
  rcases ho with rfl | rfl | rfl | rfl | rfl | rfl | rfl | rfl | rfl
  · exact ⟨rfl, scans_all (by decide) (by decide), fun rest _ => key "+=" rest (by decide)⟩
  · exact ⟨rfl, scans_all (by decide) (by decide), fun rest _ => key "-=" rest (by decide)⟩
  · exact ⟨rfl, scans_all (by decide) (by decide), fun rest _ => key "*=" rest (by decide)⟩
  · exact ⟨rfl, scans_all (by decide) (by decide), fun rest _ => key "/=" rest (by decide)⟩
  · exact ⟨rfl, scans_all (by decide) (by decide), fun rest _ => key "%=" rest (by decide)⟩
  · exact ⟨rfl, scans_all (by decide) (by decide), fun rest _ => key "**=" rest (by decide)⟩
  · exact ⟨rfl, scans_all (by decide) (by decide), fun rest _ => key "&=" rest (by decide)⟩
  · exact ⟨rfl, scans_all (by decide) (by decide), fun rest _ => key "|=" rest (by decide)⟩
  · exact ⟨rfl, scans_all (by decide) (by decide), fun rest _ => key "^=" rest (by decide)⟩

/-- The tokens of names with dots between them. -/
def strPath : List String → List String
  | [] => []
  | [n] => [n]
  | n :: ns => n :: "." :: strPath ns

theorem name_chars {n : String} (h : isName n = true) : ∀ c ∈ n.toList, plainChar c = true := by
  obtain ⟨c, cs, ht, hc, hcs⟩ := leaf_chars (isName_leaf h)
  intro x hx
  rw [ht] at hx
  rcases List.mem_cons.1 hx with rfl | hx
  · exact wordChar_plain hc
  · rcases hcs x hx with h | ⟨_, rfl⟩
    · exact wordChar_plain h
    · decide

theorem path_chars : (p : List String) → Names p → ∀ c ∈ pathText p, plainChar c = true
  | [], _ => by simp [pathText]
  | [n], h => by
    rw [pathText]
    exact name_chars (h n (List.mem_cons_self ..))
  | n :: m :: ns, h => by
    have h2 := path_chars (m :: ns) fun x hx => h x (List.mem_cons_of_mem _ hx)
    intro x hx
    rw [pathText] at hx
    · simp only [List.mem_append, List.mem_cons] at hx
      rcases hx with hx | rfl | hx
      · exact name_chars (h n (List.mem_cons_self ..)) x hx
      · decide
      · exact h2 x hx
    · simp

theorem path_ne : (p : List String) → Names p → p ≠ [] → ∃ c cs, pathText p = c :: cs ∧ wordChar c = true
  | [], _, h => absurd rfl h
  | [n], h, _ => by
    obtain ⟨c, cs, ht, hc, _⟩ := leaf_chars (isName_leaf (h n (List.mem_cons_self ..)))
    exact ⟨c, cs, by rw [pathText, ht], hc⟩
  | n :: m :: ns, h, _ => by
    obtain ⟨c, cs, ht, hc, _⟩ := leaf_chars (isName_leaf (h n (List.mem_cons_self ..)))
    exact ⟨c, cs ++ '.' :: pathText (m :: ns), by rw [pathText, ht]; rfl; simp, hc⟩

theorem path_lex : (p : List String) → Names p → (rest : List Char) → Next Blank rest →
    VyGrammar.tokens (pathText p ++ rest) = strPath p ++ VyGrammar.tokens rest
  | [], _, _, _ => by simp [pathText, strPath]
  | [n], h, rest, hr => by
    rw [pathText, strPath]
    exact (part_name (h n (List.mem_cons_self ..)) 0).lex rest (hr.mono blank_imp)
  | n :: m :: ns, h, rest, hr => by
    have h1 := (part_name (h n (List.mem_cons_self ..)) 0).lex ('.' :: (pathText (m :: ns) ++ rest))
      (next_char (by decide) (Or.inr ⟨rfl, by decide⟩) _)
    have h2 := (part_symbol (t := ".") (c := '.') rfl (by decide) (by decide) 0 Any).lex (pathText (m :: ns) ++ rest) (next_any _)
    have h3 := path_lex (m :: ns) (fun x hx => h x (List.mem_cons_of_mem _ hx)) rest hr
    rw [pathText, strPath]
    · simp only [List.append_assoc, List.cons_append]
      rw [h1]
      simp only [List.cons_append, List.nil_append] at h2
      rw [h2, h3]
      simp
    · simp
    · simp

theorem part_path {p : List String} (h : Names p) (hne : p ≠ []) (d : Nat) :
    Part true false d [.token (pathText p)] (pathText p) (strPath p) Blank where
  paint := by
    have : '\n' ∉ pathText p := fun hm => absurd (path_chars p h _ hm) (by decide)
    simp [VyPrint.paint, this]
  scans := scans_chars (path_chars p h) fun _ => by
    obtain ⟨c, cs, h1, _⟩ := path_ne p h hne
    rw [h1]
    simp
  lex := path_lex p h

theorem part_as {a : String} (h : isName a = true) (d : Nat) :
    Part true false d ([.space] ++ (word "as" ++ ([.space] ++ word a))) (" as ".toList ++ a.toList) ["as", a] (Follows true) :=
  (part_space d Any).append ((part_key (t := "as") (by decide) d).append ((part_space d Any).append (part_name h d) (by simp)
    (fun _ _ => next_any _)) (by simp) (fun _ _ => next_blank (by decide) _)) (by simp) (fun _ _ => next_any _)

/-- The tokens of `as` and a name. -/
def strAlias : Option String → List String
  | none => []
  | some a => ["as", a]

/-- Followed by `as` and a name, or not. -/
theorem Part.alias {x : Option String} (h : Part q false d a t ts P) (hx : Names x.toList) :
    Part q true d (a ++ opsAlias x) (t ++ aliasText x) (ts ++ strAlias x) Blank := by
  cases x with
  | none => exact (h.mono (by simp) (by simp) blank_imp).cast (by simp [opsAlias]) (by simp [aliasText]) (by simp [strAlias])
  | some x =>
    exact (h.append (part_as (hx x (by simp)) d) (by simp) (fun _ _ => next_blank (by decide) _)).mono (by simp) (by simp) blank_imp

/-- The tokens of a separator and an expression, if there is one. -/
def strOption (sep : List String) : Option Expr → List String
  | none => []
  | some e => sep ++ strE e

theorem next_E {e : Expr} (h : Plain e) (hd : d + depthE e ≤ 36) (rest : List Char) : Next Begin (textE d e ++ rest) :=
  starts_opsE e h _ rest (spread_paint (paint_opsE e h d hd))

/-- Followed by a separator and an expression, or not. -/
theorem Part.option {x : Option Expr} {before : List Op} {sep : String} {ss : List String} {R : Char → Prop} (h : Part q true d a t ts P)
    (hs : Part true false d before sep.toList ss R) (hR : ∀ c, Begin c → R c) (hn : ∀ rest, Next P (sep.toList ++ rest))
    (hx : FineOption x) (hd : d + depthOption x ≤ 36) (hQ : ∀ c, Q c → P c) (hF : ∀ c, Q c → Follows false c) :
    Part q true d (a ++ opsOption before x) (t ++ textOption d sep x) (ts ++ strOption ss x) Q := by
  cases x with
  | none => exact (h.mono (by simp) (by simp) hQ).cast (by simp [opsOption]) (by simp [textOption]) (by simp [strOption])
  | some e =>
    have he := (hx e rfl).1
    exact (h.append (hs.append (part_E he hd) (by simp) fun rest _ => (next_E he hd rest).mono hR) (by simp) (fun rest _ => by
      rw [List.append_assoc]
      exact hn _)).mono (by simp) (by simp) fun c hc => follows_false (hF c hc)

/-- The tokens of a statement on one line. -/
def strSimple : Simple → List String
  | .expr e => strE e
  | .assign ts vs => strArgs ts ++ ("=" :: strArgs vs)
  | .aug t o v => strE t ++ ((o.text ++ "=") :: strE v)
  | .ann t ty v => strE t ++ (":" :: (strE ty ++ strOption ["="] v))
  | .ret vs => "return" :: strArgs vs
  | .raise e => "raise" :: strOption [] e
  | .assert e m => "assert" :: (strE e ++ strOption [","] m)
  | .pass => ["pass"]
  | .break => ["break"]
  | .continue => ["continue"]
  | .log e => "log" :: strE e
  | .import_ p a => "import" :: (strPath p ++ strAlias a)
  | .from_ level p n a => "from" :: (List.replicate level "." ++ (strPath p ++ ("import" :: n :: strAlias a)))

/-- A word and a space. -/
theorem part_keySpace {k : String} (h : isKey k = true) (d : Nat) (P : Char → Prop) :
    Part true false d (word k ++ [.space]) (k.toList ++ [' ']) [k] P :=
  (part_key h d).append (part_space d P) (by simp) (fun _ _ => next_blank (by decide) _)

theorem blank_follows {p : Bool} (c : Char) (h : Blank c) : Follows p c := h.elim

theorem text_aug (d : Nat) (t : Expr) (o : Operator) (v : Expr) :
    textSimple d (.aug t o v) = textE d t ++ ' ' :: (o.text.toList ++ '=' :: ' ' :: textE d v) := rfl
theorem text_ann (d : Nat) (t ty : Expr) (v : Option Expr) :
    textSimple d (.ann t ty v) = textE d t ++ ':' :: ' ' :: (textE d ty ++ textOption d " = " v) := rfl
theorem text_ret (d : Nat) (vs : List Expr) :
    textSimple d (.ret vs) = "return".toList ++ if vs = [] then [] else ' ' :: textRow d vs := rfl
theorem text_raise (d : Nat) (e : Option Expr) : textSimple d (.raise e) = "raise".toList ++ ' ' :: textOption d "" e := rfl
theorem text_assert (d : Nat) (e : Expr) (m : Option Expr) :
    textSimple d (.assert e m) = "assert".toList ++ ' ' :: (textE d e ++ textOption d ", " m) := rfl
theorem text_log (d : Nat) (e : Expr) : textSimple d (.log e) = "log".toList ++ ' ' :: textE d e := rfl
theorem text_import (d : Nat) (p : List String) (a : Option String) :
    textSimple d (.import_ p a) = "import".toList ++ ' ' :: (pathText p ++ aliasText a) := rfl
theorem text_from (d level : Nat) (p : List String) (n : String) (a : Option String) :
    textSimple d (.from_ level p n a) = "from".toList ++ ' ' :: (List.replicate level '.' ++ (pathText p ++ (" import ".toList ++
      (n.toList ++ aliasText a)))) := rfl

theorem part_simple {x : Simple} (hx : x.Ok) (hd : d + x.depth ≤ 36) :
    Part false true d (opsSimple x) (textSimple d x) (strSimple x) Blank := by
  cases x with
  | expr e => exact (part_E hx.1 hd).mono (by simp) (by simp) blank_follows
  | assign ts vs =>
    simp only [Simple.depth] at hd
    exact ((part_row hx.2.2.1 (by omega)).append ((part_equals d Any).append (part_row hx.2.2.2 (by omega)) (by simp) fun _ _ => next_any _) (by simp)
      fun _ _ => next_blank (by decide) _).mono (by simp) (by simp) blank_follows
  | aug t o v =>
    simp only [Simple.depth] at hd
    have h1 := (part_aug hx.2.1 d Any).append (part_E (d := d) (e := v) hx.2.2.1 (by omega)) (by simp) fun _ _ => next_any _
    have h2 := (part_E (d := d) (e := t) hx.1.1 (by omega)).append h1 (by simp) fun _ _ => next_blank (by decide) _
    have h3 := h2.mono (q' := false) (p' := true) (by simp) (by simp) blank_follows
    refine h3.cast ?_ ?_ ?_
    · simp only [opsSimple, List.append_assoc]
    · show _ = textE d t ++ ' ' :: (o.text.toList ++ '=' :: ' ' :: textE d v)
      simp only [List.append_assoc, List.cons_append, List.nil_append]
    · simp only [strSimple, List.cons_append, List.nil_append]
  | ann t ty v =>
    simp only [Simple.depth] at hd
    exact ((part_E hx.1.1 (by omega)).append ((part_colonSpace d Any).append ((part_E hx.2.1.1 (by omega)).option (part_equals d Any)
      (fun _ _ => trivial) (fun _ => next_blank (by decide) _) hx.2.2 (by omega) blank_follows blank_follows) (by simp) fun _ _ => next_any _)
      (by simp) fun _ _ => next_char (by decide) (Or.inl (by decide)) _).cast (by simp [opsSimple]) (by simp [text_ann]) (by simp [strSimple])
  | ret vs =>
    by_cases hv : vs = []
    · subst hv
      exact ((part_key (t := "return") (by decide) d).mono (by simp) (by simp) fun _ h => h).cast (by simp [opsSimple]) (by simp [text_ret])
        (by simp [strSimple, strArgs])
    · exact (((part_keySpace (k := "return") (by decide) d Any).append (part_row hx hd) (by simp) fun _ _ => next_any _).mono (by simp) (by simp)
        blank_follows).cast (by simp [opsSimple, hv]) (by simp [text_ret, hv]) (by simp [strSimple])
  | raise e =>
    cases e with
    | none =>
      exact ((part_keySpace (k := "raise") (by decide) d Blank).mono (by simp) (by simp) fun _ h => h).cast (by simp [opsSimple, opsOption])
        (by simp [text_raise, textOption]) (by simp [strSimple, strOption])
    | some e =>
      exact (((part_keySpace (k := "raise") (by decide) d Any).append (part_E (hx e rfl).1 hd) (by simp) fun _ _ => next_any _).mono (by simp)
        (by simp) blank_follows).cast (by simp [opsSimple, opsOption]) (by simp [text_raise, textOption]) (by simp [strSimple, strOption])
  | assert e m =>
    simp only [Simple.depth] at hd
    exact (((part_keySpace (k := "assert") (by decide) d Any).append ((part_E hx.1.1 (by omega)).option (sep := ", ") (part_comma d Any)
      (fun _ _ => trivial) (fun _ => next_char (by decide) (Or.inl (by decide)) _) hx.2 (by omega) blank_follows blank_follows) (by simp)
      fun _ _ => next_any _).mono (by simp) (by simp) fun _ h => h).cast (by simp [opsSimple]) (by simp [text_assert]) (by simp [strSimple])
  | pass => exact (part_key (t := "pass") (by decide) d).mono (by simp) (by simp) fun _ h => h
  | «break» => exact (part_key (t := "break") (by decide) d).mono (by simp) (by simp) fun _ h => h
  | «continue» => exact (part_key (t := "continue") (by decide) d).mono (by simp) (by simp) fun _ h => h
  | log e =>
    exact (((part_keySpace (k := "log") (by decide) d Any).append (part_E hx.1 hd) (by simp) fun _ _ => next_any _).mono (by simp)
        (by simp) blank_follows).cast (by simp [opsSimple]) (by simp [text_log]) (by simp [strSimple])
  | import_ p a =>
    exact ((((part_keySpace (k := "import") (by decide) d Any).append (part_path hx.2.1 hx.1 d) (by simp) fun _ _ => next_any _).alias
      hx.2.2).mono (by simp) (by simp) fun _ h => h).cast (by simp [opsSimple]) (by simp [text_import]) (by simp [strSimple])
  | from_ level p n a =>
    obtain ⟨h1, h2, h3, h4⟩ := hx
    have tail : Part true true d ([.space] ++ (word "import" ++ ([.space] ++ (word n ++ opsAlias a))))
        (" import ".toList ++ (n.toList ++ aliasText a)) ("import" :: n :: strAlias a) Blank :=
      ((((part_space d Any).append (part_keySpace (k := "import") (by decide) d Any) (by simp) fun _ _ => next_any _).append
        (part_name h3 d) (by simp) fun _ _ => next_any _).alias h4).cast (by simp) (by simp) (by simp)
    rcases h1 with ⟨rfl, h1⟩ | ⟨rfl, rfl⟩
    · exact (((part_keySpace (k := "from") (by decide) d Any).append ((part_path h2 h1 d).append tail (by simp)
        fun _ _ => next_blank (by decide) _) (by simp) fun _ _ => next_any _).mono (by simp) (by simp) fun _ h => h).cast
        (by simp [opsSimple, h1]) (by simp [text_from]) (by simp [strSimple])
    · exact (((part_keySpace (k := "from") (by decide) d Any).append ((part_symbol (t := ".") (c := '.') rfl (by decide) (by decide) d Any).append
        tail (by simp) fun _ _ => next_any _) (by simp) fun _ _ => next_any _).mono (by simp) (by simp) fun _ h => h).cast
        (by simp [opsSimple, word]) (by simp [text_from, pathText]) (by simp [strSimple, strPath])

end VyPrint
end Mutagenyx
