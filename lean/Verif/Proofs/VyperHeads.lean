import Verif.Proofs.VyperRows

/-!
# The first lines of Vyper statements and declarations, and documentation
-/

namespace Mutagenyx
namespace VyPrint

open NodePrinter Printer VyGrammar Lex

variable {q p q' p' : Bool} {d : Nat} {a b : List Op} {t u : List Char} {ts us : List String} {P Q : Char → Prop}

/-! ### Parts -/

theorem tokens_symbol {s : String} {c : Char} (hs : s.toList = [c]) (hc : c ∈ symbols) (hn : c ≠ '\n') (rest : List Char) :
    VyGrammar.tokens (c :: rest) = s :: VyGrammar.tokens rest := by
  have hp : VyPrint.paint 0 (word s) = some ([c], 0) := by
    rw [← hs]
    refine paint_word ?_ 0
    rw [hs, List.mem_singleton]
    exact fun h => hn h.symm
  exact lexes_symbol hs hc Any [c] rest (spread_paint hp) (next_any _)

/-- In parentheses. -/
theorem Part.enclosed (h : Part false p d a t ts P) (hP : P ')') (Q : Char → Prop) :
    Part true false d (word "(" ++ (a ++ word ")")) ('(' :: (t ++ [')'])) ("(" :: (ts ++ [")"])) Q where
  paint := paint_append (paint_word (t := "(") (by decide) d) (paint_append h.paint (paint_word (t := ")") (by decide) d))
  scans := scans_enclosed (by simp) (by simp) (h.scans.mono (Nat.zero_le 1) (by simp) (fun h => h))
  lex rest _ := by
    simp only [List.cons_append, List.append_assoc, List.nil_append]
    rw [tokens_symbol (s := "(") (c := '(') rfl (by decide) (by decide), h.lex _ (next_char (by decide) hP _),
      tokens_symbol (s := ")") (c := ')') rfl (by decide) (by decide)]

theorem part_nil (d : Nat) (P : Char → Prop) : Part false true d [] [] [] P :=
  ⟨rfl, scans_nil.mono (Nat.le_refl _) (by simp) (by simp : false = true → true = true), fun rest _ => by simp⟩

/-- The tokens of a parameter. -/
def strParam (p : Param) : List String := p.name :: ":" :: (strE p.type ++ strOption ["="] p.value)

/-- The tokens of parameters. -/
def strParams : List Param → List String
  | [] => []
  | [p] => strParam p
  | p :: ps => strParam p ++ "," :: strParams ps

theorem part_param {x : Param} (h : x.Ok) (hd : d + max (depthE x.type) (depthOption x.value) ≤ 36) :
    Part false true d (opsParam x) (textParam d x) (strParam x) (Follows false) :=
  (((part_name h.1 d).append ((part_colonSpace d Any).append ((part_E h.2.1.1 (by omega)).option (sep := "=") (part_eq d)
    (fun _ h => h) (fun _ => next_char (by decide) (Or.inl (by decide)) _) h.2.2 (by omega) (fun _ h => follows_false h) (fun _ h => h))
    (by simp) fun _ _ => next_any _) (by simp) fun _ _ => next_char (by decide) (Or.inl (by decide)) _).mono (by simp) (by simp)
    fun _ h => h).cast (by simp [opsParam]) (by simp [textParam]) (by simp [strParam])

theorem part_params : (ps : List Param) → (∀ x ∈ ps, x.Ok) → d + depthParams ps ≤ 36 →
    Part false true d (opsParams ps) (textParams d ps) (strParams ps) (Follows false)
  | [], _, _ => part_nil d _
  | [x], h, hd => by
    simp only [depthParams] at hd
    exact part_param (h x (List.mem_cons_self ..)) (by omega)
  | x :: y :: ps, h, hd => by
    have h1 := part_params (y :: ps) (fun z hz => h z (List.mem_cons_of_mem _ hz)) (by simp only [depthParams] at hd ⊢; omega)
    have h2 := part_param (d := d) (h x (List.mem_cons_self ..)) (by simp only [depthParams] at hd; omega)
    have h3 := h2.append ((part_comma d Any).append h1 (by simp) fun _ _ => next_any _) (by simp) fun _ _ =>
      next_char (by decide) (Or.inl (by decide)) _
    refine h3.cast ?_ ?_ ?_
    · simp [opsParams]
    · simp [textParams]
    · simp [strParams]

/-- The tokens of results. -/
def strResults : List Expr → List String
  | [] => []
  | [e] => "->" :: strE e
  | es => "->" :: "(" :: (strArgs es ++ [")"])

theorem part_results {es : List Expr} (h : FineAll es) (hd : d + depthAll es ≤ 36) :
    Part true false d (opsResults es ++ word ":") (textResults d es ++ [':']) (strResults es ++ [":"]) Any := by
  cases es with
  | nil => exact part_colon d Any
  | cons e es =>
    cases es with
    | nil =>
      simp only [depthAll] at hd
      exact ((part_arrow d Any).append ((part_E (h e (List.mem_cons_self ..)).1 (by omega)).append (part_colon d Any) (by simp) fun _ _ =>
        next_char (by decide) (Or.inl (by decide)) _) (by simp) fun _ _ => next_any _).cast (by simp [opsResults]) (by
          show _ = (" -> ".toList ++ textE d e) ++ [':']
          simp) (by simp [strResults])
    | cons f es =>
      exact ((part_arrow d Any).append (((part_row h hd).enclosed (Or.inl (by decide)) Any).append (part_colon d Any) (by simp)
        fun _ _ => next_any _) (by simp) fun _ _ => next_any _).cast (by simp [opsResults]) (by
          show _ = (" -> ".toList ++ '(' :: (textRow d (e :: f :: es) ++ [')'])) ++ [':']
          simp) (by simp [strResults])

/-- The tokens of a signature behind `def`. -/
def strSig (g : Sig) : List String := g.name :: "(" :: (strParams g.params ++ ")" :: (strResults g.results ++ [":"]))

theorem text_sig (d : Nat) (g : Sig) : textSig d g = "def ".toList ++ (g.name.toList ++ '(' :: (textParams d g.params ++ ')' ::
    (textResults d g.results ++ [':']))) := rfl

theorem part_sig {g : Sig} (h : g.Ok) (hd : d + g.depth ≤ 36) : Part true false d (opsSig g) (textSig d g) ("def" :: strSig g) Any := by
  unfold Sig.depth at hd
  exact ((part_keySpace (k := "def") (by decide) d Any).append ((part_name h.1 d).append (((part_params g.params h.2.1 (by omega)).enclosed
    (Or.inl (by decide)) Any).append (part_results h.2.2.1 (by omega)) (by simp) fun _ _ => next_any _) (by simp) fun _ _ =>
    next_char (by decide) (Or.inr ⟨rfl, by decide⟩) _) (by simp) fun _ _ => next_any _).cast (by simp [opsSig]) (by simp [text_sig])
    (by simp [strSig])

/-- The tokens of the function of an interface. -/
def strFunction (f : Sig × String) : List String := "def" :: (strSig f.1 ++ [f.2])

theorem part_function {f : Sig × String} (h : f.1.Ok) (hm : isName f.2 = true) (hd : d + f.1.depth ≤ 36) :
    Part true false d (opsSig f.1 ++ ([.space] ++ word f.2)) (textSig d f.1 ++ ' ' :: f.2.toList) (strFunction f) Blank :=
  (((part_sig h hd).append ((part_space d Any).append (part_name hm d) (by simp) fun _ _ => next_any _) (by simp) fun _ _ =>
    next_any _).mono (by simp) (by simp) blank_follows).cast rfl rfl (by simp [strFunction])

theorem part_mark {e : Expr} (h : Fine e) (hd : d + depthE e ≤ 36) :
    Part true true d (word "@" ++ opsE e) ('@' :: textE d e) ("@" :: strE e) Blank :=
  ((part_symbol (t := "@") (c := '@') rfl (by decide) (by decide) d Any).append (part_E h.1 hd) (by simp) fun _ _ => next_any _).mono
    (by simp) (by simp) blank_follows

theorem part_head {k n : String} (hk : isKey k = true) (hn : isName n = true) (d : Nat) :
    Part true false d (word k ++ ([.space] ++ (word n ++ word ":"))) (k.toList ++ ' ' :: (n.toList ++ [':'])) [k, n, ":"] Any :=
  ((part_keySpace hk d Any).append ((part_name hn d).append (part_colon d Any) (by simp) fun _ _ => next_char (by decide)
    (Or.inl (by decide)) _) (by simp) fun _ _ => next_any _).cast (by simp) (by simp) (by simp)

/-- The tokens of the first line of `for`. -/
def strFor (x : String) (ty : Option Expr) (it : Expr) : List String := "for" :: x :: (strOption [":"] ty ++ "in" :: (strE it ++ [":"]))

/-- The text of the first line of `for`. -/
def textFor (d : Nat) (x : String) (ty : Option Expr) (it : Expr) : List Char :=
  "for ".toList ++ (x.toList ++ (textOption d ": " ty ++ (" in ".toList ++ (textE d it ++ [':']))))

theorem part_for {x : String} {ty : Option Expr} {it : Expr} (hx : isName x = true) (hty : FineOption ty) (hit : Fine it)
    (hd : d + max (depthOption ty) (depthE it) ≤ 36) :
    Part true false d (word "for" ++ ([.space] ++ (word x ++ (opsOption (word ":" ++ [.space]) ty ++ ([.space] ++ (word "in" ++ ([.space] ++
      (opsE it ++ word ":")))))))) (textFor d x ty it) (strFor x ty it) Any := by
  have h1 : Part true false d ([.space] ++ (word "in" ++ ([.space] ++ (opsE it ++ word ":")))) (" in ".toList ++ (textE d it ++ [':']))
      ("in" :: (strE it ++ [":"])) Any :=
    ((part_space d Any).append ((part_keySpace (k := "in") (by decide) d Any).append ((part_E hit.1 (by omega)).append (part_colon d Any)
      (by simp) fun _ _ => next_char (by decide) (Or.inl (by decide)) _) (by simp) fun _ _ => next_any _) (by simp)
      fun _ _ => next_any _).cast (by simp) (by simp) (by simp)
  have h2 := ((part_name hx d).mono (q' := true) (p' := true) (by simp) (by simp) fun _ h => h).option (sep := ": ") (x := ty) (Q := Blank)
    (part_colonSpace d Any) (fun _ _ => trivial) (fun _ => next_char (by decide) (Or.inl (by decide)) _) hty (by omega) blank_follows
    blank_follows
  exact ((part_keySpace (k := "for") (by decide) d Any).append (h2.append h1 (by simp) fun _ _ => next_blank (by decide) _) (by simp)
    fun _ _ => next_any _).cast (by simp) (by simp [textFor]) (by simp [strFor])

theorem part_if {c : Expr} (h : Fine c) (hd : d + depthE c ≤ 36) :
    Part true false d (word "if" ++ ([.space] ++ (opsE c ++ word ":"))) ("if ".toList ++ (textE d c ++ [':'])) ("if" :: (strE c ++ [":"])) Any :=
  ((part_keySpace (k := "if") (by decide) d Any).append ((part_E h.1 hd).append (part_colon d Any) (by simp) fun _ _ =>
    next_char (by decide) (Or.inl (by decide)) _) (by simp) fun _ _ => next_any _).cast (by simp) (by simp) (by simp)

theorem part_else (d : Nat) : Part true false d (word "else:") "else:".toList ["else", ":"] Any where
  paint := paint_word (by decide) d
  scans := scans_all (by decide) (by decide)
  lex rest _ := by
    have h1 := lexes_isWord (t := "else") (P := (· = ':')) (by decide) (fun c hc => by subst hc; decide) "else".toList (':' :: rest)
      (spread_paint (paint_word (by decide) 0)) (next_char (c := ':') (P := (· = ':')) (by decide) rfl _)
    have h2 := tokens_symbol (s := ":") (c := ':') rfl (by decide) (by decide) rest
    exact h1.trans (congrArg ("else" :: ·) h2)

/-! ### Documentation -/

theorem rows_blank (d : Nat) : Rows (blanks d) [] := by
  obtain ⟨s1, h1, h2⟩ := scans_blanks (m := 0) (d := d) 0 {} (by omega) (ready_code 0)
  have := tokens_blanks d []
  rw [List.append_nil] at this
  have hw := wholeLine_code (d := d) (t := []) (by simp)
  rw [List.append_nil] at hw
  exact rows_of h1 (ready_ends h2) (by simp [matters, VyGrammar.lineOf, this, tokens_nil])
    (by rw [hw]; simp [VyGrammar.lineOf, this, tokens_nil])

theorem inDoc_clean : (u v : List Char) → (∀ c ∈ u, c ≠ '"' ∧ c ≠ '\\') → inDoc v = true → inDoc (u ++ v) = true
  | [], _, _, h => h
  | c :: u, v, hu, h => by
    have hc := hu c (List.mem_cons_self ..)
    have ih := inDoc_clean u v (fun x hx => hu x (List.mem_cons_of_mem _ hx)) h
    rw [List.cons_append, inDoc]
    · exact ih
    · rintro _ _ rfl; exact absurd rfl hc.2
    · rintro _ rfl; exact absurd rfl hc.1

theorem solid_doc : (u v : List Char) → (∀ c ∈ u, c ≠ '"' ∧ c ≠ '\\') → (∀ c ∈ v, c ≠ '"' ∧ c ≠ '\\') →
    solid lexer ('"' :: '"' :: '"' :: u) (v ++ ['"', '"', '"']) = true
  | u, [], hu, _ => by
    have key : ∀ w x, joins ('"' :: '"' :: '"' :: w) x = inDoc w := fun _ _ => rfl
    have h0 : inDoc u = true := by simpa using inDoc_clean u [] hu rfl
    have h1 : inDoc (u ++ ['"']) = true := inDoc_clean u _ hu rfl
    have h2 : inDoc (u ++ ['"'] ++ ['"']) = true := by
      rw [List.append_assoc]
      exact inDoc_clean u _ hu rfl
    simp only [List.nil_append, solid, List.isEmpty_cons, Bool.false_eq_true, if_false, List.cons_append, lexer, key, h0, h1, h2,
      Bool.true_and]
  | u, c :: v, hu, hv => by
    have h0 : inDoc u = true := by simpa using inDoc_clean u [] hu rfl
    have hc := hv c (List.mem_cons_self ..)
    have ih := solid_doc (u ++ [c]) v (by
      intro x hx
      rcases List.mem_append.1 hx with hx | hx
      · exact hu x hx
      · rw [List.mem_singleton.1 hx]
        exact hc) fun x hx => hv x (List.mem_cons_of_mem _ hx)
    have key : ∀ w x, joins ('"' :: '"' :: '"' :: w) x = inDoc w := fun _ _ => rfl
    simp only [List.cons_append, solid, List.isEmpty_cons, Bool.false_eq_true, if_false, lexer, key, h0, Bool.true_and]
    exact ih

theorem tokens_tripled {v : List Char} (hv : ∀ c ∈ v, c ≠ '"' ∧ c ≠ '\\') : VyGrammar.tokens (tripled v) = [String.ofList (tripled v)] := by
  have hs : solid lexer [] (tripled v) = true := by
    have := solid_doc [] v (by simp) hv
    unfold tripled
    simpa [solid, lexer, joins, quotes, wordChar, inString, blank] using this
  have := tokens_solid hs []
  rw [List.append_nil] at this
  unfold VyGrammar.tokens
  rw [this]
  rfl

theorem pass_tripled {v : List Char} (hv : ∀ c ∈ v, c ≠ '"' ∧ c ≠ '\\') : pass {} (tripled v) = some {} := by
  have key : ∀ v : List Char, (∀ c ∈ v, c ≠ '"' ∧ c ≠ '\\') → pass ⟨0, .doc 0⟩ (v ++ ['"', '"', '"']) = some {} := by
    intro v
    induction v with
    | nil => intro _; decide
    | cons c v ih =>
      intro hv
      have hc := hv c (List.mem_cons_self ..)
      have he : Scanner.ends ⟨0, .doc 0⟩ = false := by decide
      simp only [List.cons_append, pass, he, Bool.false_eq_true, and_false, if_false, Scanner.step, hc.1, hc.2]
      exact ih fun x hx => hv x (List.mem_cons_of_mem _ hx)
  exact key v hv

theorem rows_tripled {v : List Char} (hv : ∀ c ∈ v, c ≠ '"' ∧ c ≠ '\\') (d : Nat) :
    Rows (blanks d ++ tripled v) [(4 * d, [String.ofList (tripled v)])] := by
  obtain ⟨s1, h1, h2⟩ := scans_blanks (m := 0) (d := d) 0 {} (by omega) (ready_code 0)
  have hs : s1 = {} := by
    rcases h2 with h | ⟨h, _⟩
    · exact h
    · cases h
  subst hs
  have hh : Heads (tripled v) := ⟨'"', _, rfl, by decide⟩
  have hl : VyGrammar.lineOf (blanks d ++ tripled v) = (4 * d, [String.ofList (tripled v)]) := by
    unfold VyGrammar.lineOf
    rw [takeWhile_blanks hh, tokens_blanks, tokens_tripled hv]
  have hdoc : isDoc [String.ofList (tripled v)] = true := by
    simp only [isDoc, String.toList_ofList]
    rfl
  refine rows_of (s := {}) (by rw [pass_append h1, pass_tripled hv]) (by decide) ?_ ?_
  · rw [hl]
    simp [matters, isCode, hdoc]
  · rw [wholeLine_code hh.head, hl]
    rfl

theorem rows_doc {t : String} {d : Nat} (h : DocOk d t) :
    Rows (blanks d ++ textDoc d t) [(4 * d, [String.ofList (tripled t.toList)])] := by
  unfold textDoc
  split
  · exact (rows_blank d).append (rows_tripled h.1 d)
  · exact rows_tripled h.1 d

end VyPrint
end Mutagenyx
