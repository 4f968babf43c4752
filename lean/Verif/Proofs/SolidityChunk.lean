import Verif.Props.NodePrinter
import Verif.Proofs.SolidityGrammar
import Verif.Proofs.Lex
import Verif.Spec.SolidityProgram

/-!
# Parts of a printed Solidity text and their tokens
-/

namespace Mutagenyx
namespace SolPrint

open NodePrinter SolGrammar Printer Lex

theorem printOps_around {checks : Bool} {s : PrintSettings} {node : Json} {entry body exit : Ps}
    (h : layout s node = { entry := entry, body := body, exit := exit }) :
    printOps checks s node = expand checks (printOps checks) (entry ++ (body ++ exit)) := by
  unfold printOps
  rw [ops_eq good_layout, pieces_eq, h]
  simp [around]

theorem printOps_of {checks : Bool} {s : PrintSettings} {node : Json} {body : Ps}
    (h : layout s node = { body := body }) :
    printOps checks s node = expand checks (printOps checks) body := by
  rw [printOps_around (entry := []) (body := body) (exit := []) h]
  simp

/-- A token. -/
def word (t : String) : List Op := [.token t.toList]

/-! ### Words -/

theorem ends_of {t : List Char} (h1 : joins t ' ' = false) (h2 : joins t '\n' = false) : Ends lexer t := by
  intro b hb _
  unfold blank at hb
  simp only [Bool.or_eq_true, beq_iff_eq] at hb
  rcases hb with rfl | rfl
  · exact h1
  · exact h2

/-- The text is one token, which blanks end. -/
def isWord (t : String) : Bool :=
  solid lexer [] t.toList && !t.toList.isEmpty && !SolGrammar.comment t.toList && !joins t.toList ' ' && !joins t.toList '\n'

theorem lexes_isWord {P : Char → Prop} {t : String} (h : isWord t = true) (hj : ∀ c, P c → joins t.toList c = false) :
    Lexes lexer (word t) [t] P := by
  simp only [isWord, Bool.and_eq_true, Bool.not_eq_true', List.isEmpty_eq_false_iff] at h
  exact lexes_word h.1.1.1.1 h.1.1.1.2 h.1.1.2 (ends_of h.1.2 h.2) hj

theorem isWord_starts {t : String} (h : isWord t = true) : Starts (word t) Any := by
  simp only [isWord, Bool.and_eq_true, Bool.not_eq_true', List.isEmpty_eq_false_iff] at h
  have hs := h.1.1.1.1
  cases ht : t.toList with
  | nil => exact absurd ht h.1.1.1.2
  | cons c cs =>
    rw [ht] at hs
    simp only [solid, List.isEmpty_nil, if_true, Bool.and_eq_true, Bool.not_eq_true'] at hs
    exact starts_word ht hs.1 trivial

theorem lexes_symbol {t : String} {d : Char} (ht : t.toList = [d])
    (hd : d ∈ ['(', ')', '[', ']', ',', '.', '~', '?', ';', '{', '}']) (P : Char → Prop) : Lexes lexer (word t) [t] P := by
  simp only [List.mem_cons, List.not_mem_nil, or_false] at hd
  have hj : ∀ c, joins [d] c = false := by
    intro c
    rcases hd with rfl | rfl | rfl | rfl | rfl | rfl | rfl | rfl | rfl | rfl | rfl <;> simp [joins, wordChar, pairs]
  refine lexes_isWord ?_ (by simpa [ht] using fun c _ => hj c)
  unfold isWord
  rw [ht]
  rcases hd with rfl | rfl | rfl | rfl | rfl | rfl | rfl | rfl | rfl | rfl | rfl <;> decide

/-- What may follow an expression without white space. -/
def Follows (p : Bool) (c : Char) : Prop :=
  c ∈ [')', ']', ';', ',', '}'] ∨ (p = true ∧ c ∈ ['(', '[', '.', '+', '-', '{', ':'])

theorem leaf_chars {t : String} (h : isLeaf t = true) : ∃ c cs, t.toList = c :: cs ∧ wordChar c = true ∧
    (∀ d ∈ cs, wordChar d = true ∨ (c.isDigit = true ∧ d = '.')) ∧ cs.count '.' ≤ 1 := by
  unfold isLeaf at h
  simp only [Bool.and_eq_true] at h
  obtain ⟨⟨h, _⟩, _⟩ := h
  cases ht : t.toList with
  | nil => rw [ht] at h; cases h
  | cons c cs =>
    rw [ht] at h
    simp only [Bool.and_eq_true, List.all_eq_true, Bool.or_eq_true, beq_iff_eq, decide_eq_true_eq] at h
    exact ⟨c, cs, rfl, h.1.1, h.1.2, h.2⟩

theorem wordChar_not_blank {c : Char} (h : wordChar c = true) : blank c = false := by
  cases hb : blank c with
  | false => rfl
  | true =>
    unfold blank at hb
    simp only [Bool.or_eq_true, beq_iff_eq] at hb
    rcases hb with rfl | rfl <;> exact absurd h (by decide)

theorem leaf_solid {t : String} (h : isLeaf t = true) : solid lexer [] t.toList = true := by
  obtain ⟨c, cs, ht, hc, hcs, hone⟩ := leaf_chars h
  have key : ∀ ds cur, (∀ d ∈ ds, wordChar d = true ∨ (c.isDigit = true ∧ d = '.')) → cur.count '.' + ds.count '.' ≤ 1 →
      solid lexer (c :: cur) ds = true := by
    intro ds
    induction ds with
    | nil => intros; rfl
    | cons d ds ih =>
      intro cur hds hn
      have hd := hds d (List.mem_cons_self ..)
      simp only [solid, lexer, List.isEmpty_cons, Bool.false_eq_true, if_false, joins, hc, if_true, Bool.and_eq_true, Bool.or_eq_true, beq_iff_eq,
        Bool.not_eq_true']
      refine ⟨?_, ih (cur ++ [d]) (fun e he => hds e (List.mem_cons_of_mem _ he)) ?_⟩
      · rcases hd with hd | ⟨h1, rfl⟩
        · exact Or.inl hd
        · refine Or.inr ⟨⟨h1, rfl⟩, ?_⟩
          rw [List.count_cons_self] at hn
          rw [Bool.eq_false_iff]
          simp only [ne_eq, List.contains_iff_mem]
          intro hm
          have := List.count_pos_iff.2 hm
          omega
      · rw [List.count_cons] at hn
        rw [List.count_append, List.count_singleton]
        omega
  rw [ht]
  simp only [solid, wordChar_not_blank hc, List.isEmpty_nil, if_true, Bool.not_false, Bool.true_and]
  exact key cs [] hcs (by simpa using hone)

theorem leaf_joins {c d : Char} {cs : List Char} (hc : wordChar c = true) (hd : wordChar d = false)
    (hx : d = '.' → c.isDigit = false) : joins (c :: cs) d = false := by
  simp only [joins, hc, if_true, hd, Bool.false_or]
  by_cases h2 : d = '.'
  · simp [hx h2]
  · simp [h2]

theorem wordChar_slash {c : Char} (h : wordChar c = true) : c ≠ '/' := by
  rintro rfl
  exact absurd h (by decide)

theorem tokens_leaf {t : String} (h : isLeaf t = true) {rest : List Char} (hn : Next (Follows (isName t)) rest) :
    Lex.tokens lexer (t.toList ++ rest) [] = t :: Lex.tokens lexer rest [] := by
  obtain ⟨c, cs, ht, hc, hcs⟩ := leaf_chars h
  have hdigit : isName t = true → c.isDigit = false := by
    intro hn
    unfold isName at hn
    rw [ht] at hn
    simpa [h] using hn
  have hk : SolGrammar.comment t.toList = false := by
    rw [ht]
    unfold SolGrammar.comment
    split
    · rename_i he; cases he; exact absurd hc (by decide)
    · rename_i he; cases he; exact absurd hc (by decide)
    · rfl
  have := tokens_one (L := lexer) (P := Follows (isName t)) (t := t.toList) (rest := rest) (leaf_solid h) (by simp [ht]) hk
    (ends_of (by rw [ht]; exact leaf_joins hc (by decide) (fun h => absurd h (by decide))) (by rw [ht]; exact leaf_joins hc (by decide) (fun h => absurd h (by decide))))
    (fun d hd => ?_) hn
  · simpa using this
  · show joins t.toList d = false
    rw [ht]
    simp only [Follows, List.mem_cons, List.not_mem_nil, or_false] at hd
    rcases hd with (rfl | rfl | rfl | rfl | rfl) | ⟨hp, rfl | rfl | rfl | rfl | rfl | rfl | rfl⟩
    all_goals first
      | exact leaf_joins hc (by decide) (fun h => absurd h (by decide))
      | exact leaf_joins hc (by decide) fun _ => hdigit hp

theorem lexes_leaf {t : String} (h : isLeaf t = true) : Lexes lexer (word t) [t] (Follows (isName t)) := by
  intro text rest hs hn
  cases hs with
  | token w u hw hs =>
    cases hs
    rw [List.append_nil, List.append_assoc, tokens_gap hw, tokens_leaf h hn]
    rfl

theorem follows_false {p : Bool} {c : Char} (h : Follows false c) : Follows p c := by
  rcases h with h | ⟨h, _⟩
  · exact Or.inl h
  · cases h

theorem tokens_dot (rest : List Char) : Lex.tokens lexer ('.' :: rest) [] = "." :: Lex.tokens lexer rest [] := by
  have := tokens_one (L := lexer) (P := Any) (t := ['.']) (rest := rest) (by decide) (by decide) (by decide)
    (ends_of (by decide) (by decide)) (fun c _ => by simp [lexer, joins, wordChar, pairs])
    (fun c cs _ => by cases blank c <;> simp [Any])
  simpa using this

theorem tokens_path : (p : List String) → p ≠ [] → (∀ n ∈ p, isName n = true) → {rest : List Char} → Next (Follows true) rest →
    Lex.tokens lexer ((dotted p).toList ++ rest) [] = pathToks p ++ Lex.tokens lexer rest []
  | [], h, _, _, _ => absurd rfl h
  | [n], _, h, rest, hn => by
    have hname := h n (List.mem_cons_self ..)
    simpa [dotted, pathToks, sepBy] using tokens_leaf (isName_leaf hname) (rest := rest) (by rw [hname]; exact hn)
  | n :: m :: p, _, h, rest, hn => by
    have hname := h n (List.mem_cons_self ..)
    have ih := tokens_path (m :: p) (by simp) (fun x hx => h x (List.mem_cons_of_mem _ hx)) hn
    have h1 := tokens_leaf (isName_leaf hname) (rest := '.' :: ((dotted (m :: p)).toList ++ rest)) (by
      rw [hname]
      intro c cs hc
      cases hc
      exact Or.inr ⟨by decide, Or.inr ⟨rfl, by decide⟩⟩)
    rw [tokens_dot, ih] at h1
    simpa [dotted, pathToks, sepBy] using h1

/-! ### Parts of a text -/

/-- What may stand at a place where two parts of a text meet without white space. -/
inductive Edge where
  | blank | expr | name | any
  deriving DecidableEq

/-- The characters that may follow. -/
def Edge.allows : Edge → Char → Prop
  | .blank => fun _ => False
  | .expr => Follows false
  | .name => Follows true
  | .any => Any

/-- How much it allows. -/
def Edge.rank : Edge → Nat
  | .blank => 0 | .expr => 1 | .name => 2 | .any => 3

theorem Edge.mono {a b : Edge} (h : a.rank ≤ b.rank) (c : Char) (hc : a.allows c) : b.allows c := by
  cases a <;> cases b <;> first
    | exact hc
    | exact trivial
    | exact hc.elim
    | exact follows_false hc
    | exact absurd h (by decide)

variable {flows : Bool}

/-- The calls write text with these tokens, if it goes on as `q` tells, and it begins as `p` tells.  There is flowable
text only if `flows` is set. -/
def Chunk (flows : Bool) (ops : List Op) (ts : List String) (q p : Edge) : Prop :=
  Written flows ops ∧ ∀ text rest, Spread ops text → Next q.allows rest →
    Lex.tokens lexer (text ++ rest) [] = ts ++ Lex.tokens lexer rest [] ∧ Next p.allows (text ++ rest)

theorem Chunk.append {a b : List Op} {ts us : List String} {p q r s : Edge} (ha : Chunk flows a ts r p) (hb : Chunk flows b us q s)
    (h : s.rank ≤ r.rank := by decide) : Chunk flows (a ++ b) (ts ++ us) q p := by
  refine ⟨ha.1.append hb.1, fun text rest hs hn => ?_⟩
  obtain ⟨x, y, rfl, h1, h2⟩ := spread_append hs
  obtain ⟨h3, h4⟩ := hb.2 y rest h2 hn
  obtain ⟨h5, h6⟩ := ha.2 x (y ++ rest) h1 (h4.mono (Edge.mono h))
  rw [List.append_assoc, h5, h3]
  exact ⟨by simp, h6⟩

theorem Chunk.mono {a : List Op} {ts : List String} {p q p' q' : Edge} (h : Chunk flows a ts q p)
    (hq : q'.rank ≤ q.rank := by decide) (hp : p.rank ≤ p'.rank := by decide) : Chunk flows a ts q' p' :=
  ⟨h.1, fun text rest hs hn => by
    obtain ⟨h1, h2⟩ := h.2 text rest hs (hn.mono (Edge.mono hq))
    exact ⟨h1, h2.mono (Edge.mono hp)⟩⟩

theorem chunk_nil {p q : Edge} (h : q.rank ≤ p.rank := by decide) : Chunk flows [] [] q p := by
  refine ⟨fun _ ho => (by cases ho), ?_⟩
  intro text rest hs hn
  cases hs
  exact ⟨rfl, hn.mono (Edge.mono h)⟩

theorem chunk_of {ops : List Op} {ts : List String} {p q : Edge} (hw : Written flows ops) (hl : Lexes lexer ops ts q.allows)
    (hs : Starts ops p.allows) : Chunk flows ops ts q p :=
  ⟨hw, fun text rest h hn => ⟨hl text rest h hn, hs text rest h⟩⟩

theorem written_word (t : String) : Written flows (word t) := (simple_token _).written

theorem chunk_space : Chunk flows [.space] [] .any .blank :=
  chunk_of simple_space.written lexes_space (starts_space [])

theorem starts_leaf {t : String} (h : isLeaf t = true) : Starts (word t) fun c => wordChar c = true := by
  obtain ⟨c, cs, ht, hc, _⟩ := leaf_chars h
  exact starts_word ht (wordChar_not_blank hc) hc

theorem chunk_leaf {t : String} (h : isLeaf t = true) : Chunk flows (word t) [t] (if isName t then .name else .expr) .any := by
  refine chunk_of (written_word t) ?_ (starts_leaf h).any
  have := lexes_leaf h
  cases hn : isName t <;> rw [hn] at this <;> exact this

theorem chunk_name {t : String} (h : isName t = true) : Chunk flows (word t) [t] .name .any := by
  simpa [h] using chunk_leaf (isName_leaf h)

theorem name_starts {n : String} (h : isName n = true) (s : String) : Starts (word (n ++ s)) fun c => wordChar c = true := by
  obtain ⟨c, cs, ht, hc, _⟩ := leaf_chars (isName_leaf h)
  exact starts_word (cs := cs ++ s.toList) (by simp [ht]) (wordChar_not_blank hc) hc

theorem path_starts {p : List String} (h0 : p ≠ []) (h : ∀ n ∈ p, isName n = true) :
    Starts (word (dotted p)) fun c => wordChar c = true := by
  cases p with
  | nil => exact absurd rfl h0
  | cons n p =>
    have hn := h n (List.mem_cons_self ..)
    cases p with
    | nil => simpa [dotted] using name_starts hn ""
    | cons m p => simpa [dotted, String.append_assoc] using name_starts hn ("." ++ dotted (m :: p))

theorem chunk_path {p : List String} (h0 : p ≠ []) (h : ∀ n ∈ p, isName n = true) :
    Chunk flows (word (dotted p)) (pathToks p) .name .any := by
  refine chunk_of (written_word _) (fun text rest hs hn => ?_) (path_starts h0 h).any
  cases hs with
  | token w u hw hs =>
    cases hs
    rw [List.append_nil, List.append_assoc, tokens_gap hw, tokens_path p h0 h hn]

theorem chunk_symbol {t : String} {d : Char} (ht : t.toList = [d]) (p : Edge)
    (hd : d ∈ ['(', ')', '[', ']', ',', '.', '~', '?', ';', '{', '}']) (hp : p.allows d) : Chunk flows (word t) [t] .any p := by
  refine chunk_of (written_word t) (lexes_symbol ht hd _) (starts_word ht ?_ hp)
  simp only [List.mem_cons, List.not_mem_nil, or_false] at hd
  rcases hd with rfl | rfl | rfl | rfl | rfl | rfl | rfl | rfl | rfl | rfl | rfl <;> decide

theorem chunk_word {t : String} (h : isWord t = true) : Chunk flows (word t) [t] .blank .any :=
  chunk_of (written_word t) (lexes_isWord h fun _ hc => hc.elim) (isWord_starts h)

theorem chunk_colon : Chunk flows (word ":") [":"] .blank .name :=
  chunk_of (written_word _) (lexes_isWord (by decide) fun _ hc => hc.elim)
    (starts_word (c := ':') rfl (by decide) (Or.inr ⟨rfl, by decide⟩))

theorem inString_unescaped : (t : List Char) → (∀ c ∈ t, unescaped c = true) → inString t = true
  | [], _ => rfl
  | c :: t, h => by
    have hc := h c (List.mem_cons_self ..)
    have ih := inString_unescaped t fun d hd => h d (List.mem_cons_of_mem _ hd)
    simp only [unescaped, Bool.and_eq_true, bne_iff_ne] at hc
    rw [inString.eq_def]
    split
    · rfl
    · rename_i he; cases he; exact absurd rfl hc.2
    · rename_i he
      cases he
      simp [ih, hc.1.2]

theorem inString_closed : (t : List Char) → (∀ c ∈ t, unescaped c = true) → inString (t ++ ['"']) = false
  | [], _ => by decide
  | c :: t, h => by
    have hc := h c (List.mem_cons_self ..)
    have ih := inString_closed t fun d hd => h d (List.mem_cons_of_mem _ hd)
    simp only [unescaped, Bool.and_eq_true, bne_iff_ne] at hc
    rw [List.cons_append, inString.eq_def]
    split
    · rename_i he; cases he
    · rename_i he; injection he with he; exact absurd he hc.2
    · rename_i he
      cases he
      simp [ih]

theorem solid_string : (t cur : List Char) → (∀ c ∈ cur, unescaped c = true) → (∀ c ∈ t, unescaped c = true) →
    solid lexer ('"' :: cur) (t ++ ['"']) = true
  | [], cur, hc, _ => by
    simp [solid, lexer, joins, wordChar, inString_unescaped cur hc]
  | c :: t, cur, hc, h => by
    have ih := solid_string t (cur ++ [c]) (fun d hd => by
      rcases List.mem_append.1 hd with hd | hd
      · exact hc d hd
      · exact h d (by simp_all)) fun d hd => h d (List.mem_cons_of_mem _ hd)
    simp only [List.cons_append, solid, Bool.and_eq_true]
    exact ⟨by simp [lexer, joins, wordChar, inString_unescaped cur hc], ih⟩

theorem joins_string {t : List Char} (h : ∀ c ∈ t, unescaped c = true) (c : Char) : joins ('"' :: (t ++ ['"'])) c = false := by
  simp [joins, wordChar, inString_closed t h]

theorem chunk_string {t : String} (h : ∀ c ∈ t.toList, unescaped c = true) : Chunk flows [.string t.toList] [quoted t] .any .any := by
  refine chunk_of (fun o ho => by simp at ho; simp [ho]) (fun text rest hs hn => ?_) fun text rest hs => ?_
  · cases hs with
    | string w u hw hs =>
      cases hs
      have := tokens_one (L := lexer) (P := Any) (t := '"' :: (t.toList ++ ['"'])) (rest := rest)
        (by simpa [solid, blank] using solid_string t.toList [] (by simp) h) (by simp) (by simp [lexer, SolGrammar.comment])
        (fun b _ _ => joins_string h b) (fun c _ => joins_string h c) (fun c cs hc => by cases hb : blank c <;> simp [Any])
      rw [List.append_nil, List.append_assoc, tokens_gap hw]
      simpa [quoted, String.append_assoc] using this
  · cases hs with
    | string w u hw hs =>
      rw [List.append_assoc]
      refine next_gap hw ?_
      intro c cs hc
      cases hc
      exact Or.inr ⟨by decide, trivial⟩

theorem chunk_newline : Chunk flows [.newline] [] .any .blank := by
  refine ⟨fun o ho => by simp at ho; simp [ho], fun text rest hs _ => ?_⟩
  cases hs with
  | newline w hw _ h =>
    cases h
    rw [List.append_assoc, tokens_gap hw]
    refine ⟨by simp [Lex.tokens, blank, emit], next_gap hw fun c cs hc => ?_⟩
    cases hc
    exact Or.inl rfl

theorem chunk_indent {q : Edge} : Chunk flows [.indent] [] q q := by
  refine ⟨fun o ho => by simp at ho; simp [ho], fun text rest hs hn => ?_⟩
  cases hs with
  | indent w hw h =>
    cases h
    rw [List.append_assoc, tokens_gap hw]
    exact ⟨rfl, next_gap hw hn⟩

theorem chunk_incr {q : Edge} : Chunk flows [.incr] [] q q := by
  refine ⟨fun o ho => by simp at ho; simp [ho], fun text rest hs hn => ?_⟩
  cases hs with
  | incr h => cases h; exact ⟨rfl, hn⟩

theorem chunk_decr {q : Edge} : Chunk flows [.decr] [] q q := by
  refine ⟨fun o ho => by simp at ho; simp [ho], fun text rest hs hn => ?_⟩
  cases hs with
  | decr h => cases h; exact ⟨rfl, hn⟩

theorem chunk_forParen : Chunk flows (word "for(") ["for", "("] .any .any := by
  refine ⟨written_word _, fun text rest hs _ => ⟨?_, (starts_word (P := Any) (t := "for(") (c := 'f') rfl (by decide) trivial) text rest hs⟩⟩
  cases hs with
  | token w u hw h =>
    cases h
    rw [List.append_nil, List.append_assoc, tokens_gap hw]
    have h1 := tokens_leaf (t := "for") (by decide) (rest := '(' :: rest) (by
      intro c cs hc
      cases hc
      exact Or.inr ⟨by decide, Or.inr ⟨by decide, by decide⟩⟩)
    have h2 := tokens_one (L := lexer) (P := Any) (t := ['(']) (rest := rest) (by decide) (by decide) (by decide)
      (ends_of (by decide) (by decide)) (fun c _ => by simp [lexer, joins, wordChar, pairs])
      (fun c cs _ => by cases blank c <;> simp [Any])
    simp only [List.cons_append, List.nil_append] at h2
    rw [h2] at h1
    exact h1

/-! ### Pieces -/

/-- Whether overflow crashes, and whether there may be flowable text. -/
structure Mode where
  checks : Bool
  flows : Bool

variable {m : Mode}

/-- The pieces write text with these tokens. -/
def PC (m : Mode) (ps : Ps) (ts : List String) (q p : Edge) : Prop :=
  Chunk m.flows (expand m.checks (printOps m.checks) ps) ts q p

theorem PC.append {a b : Ps} {ts us : List String} {p q r s : Edge} (ha : PC m a ts r p) (hb : PC m b us q s)
    (h : s.rank ≤ r.rank := by decide) : PC m (a ++ b) (ts ++ us) q p := by
  unfold PC
  rw [expand_append]
  exact Chunk.append ha hb h

theorem PC.mono {a : Ps} {ts : List String} {p q p' q' : Edge} (h : PC m a ts q p)
    (hq : q'.rank ≤ q.rank := by decide) (hp : p.rank ≤ p'.rank := by decide) : PC m a ts q' p' := Chunk.mono h hq hp

theorem PC.cast {a : Ps} {ts us : List String} {p q : Edge} (h : PC m a ts q p) (e : ts = us) : PC m a us q p := e ▸ h

/-- One part after another. -/
infixl:65 " +++ " => PC.append

theorem c_nil {p q : Edge} (h : q.rank ≤ p.rank := by decide) : PC m [] [] q p := chunk_nil h
theorem c_sp : PC m sp [] .any .blank := chunk_space
theorem c_nl : PC m nl [] .any .blank := chunk_newline
theorem c_ind : PC m ind [] .any .any := chunk_indent
theorem c_inc : PC m inc [] .any .any := chunk_incr
theorem c_decName : PC m dec [] .name .name := chunk_decr
theorem c_dec : PC m dec [] .any .any := chunk_decr
theorem c_name {t : String} (h : isName t = true) : PC m (tok t) [t] .name .any := chunk_name h
theorem c_leaf {t : String} (h : isLeaf t = true) : PC m (tok t) [t] (if isName t then .name else .expr) .any := chunk_leaf h
theorem c_path {p : List String} (h0 : p ≠ []) (h : ∀ n ∈ p, isName n = true) :
    PC m (tok (dotted p)) (pathToks p) .name .any := chunk_path h0 h
theorem c_string {t : String} (h : ∀ c ∈ t.toList, unescaped c = true) :
    PC m [.op (.string t.toList)] [quoted t] .any .any := chunk_string h
theorem c_word {t : String} (h : isWord t = true := by decide) : PC m (tok t) [t] .blank .any := chunk_word h
theorem c_colon : PC m (tok ":") [":"] .blank .name := chunk_colon
theorem c_dot : PC m (tok ".") ["."] .any .name :=
  chunk_symbol (d := '.') rfl .name (by decide) (Or.inr ⟨rfl, by decide⟩)
theorem c_open : PC m (tok "(") ["("] .any .name :=
  chunk_symbol (d := '(') rfl .name (by decide) (Or.inr ⟨rfl, by decide⟩)
theorem c_openB : PC m (tok "[") ["["] .any .name :=
  chunk_symbol (d := '[') rfl .name (by decide) (Or.inr ⟨rfl, by decide⟩)
theorem c_close : PC m (tok ")") [")"] .any .expr :=
  chunk_symbol (d := ')') rfl .expr (by decide) (Or.inl (by decide))
theorem c_closeB : PC m (tok "]") ["]"] .any .expr :=
  chunk_symbol (d := ']') rfl .expr (by decide) (Or.inl (by decide))
theorem c_semi : PC m (tok ";") [";"] .any .expr :=
  chunk_symbol (d := ';') rfl .expr (by decide) (Or.inl (by decide))
theorem c_comma : PC m (tok ",") [","] .any .expr :=
  chunk_symbol (d := ',') rfl .expr (by decide) (Or.inl (by decide))
theorem c_brace : PC m (tok "{") ["{"] .any .name :=
  chunk_symbol (d := '{') rfl .name (by decide) (Or.inr ⟨rfl, by decide⟩)
theorem c_unbrace : PC m (tok "}") ["}"] .any .expr :=
  chunk_symbol (d := '}') rfl .expr (by decide) (Or.inl (by decide))
theorem c_for : PC m (tok "for(") ["for", "("] .any .any := chunk_forParen
theorem c_between {t : String} (ht : isWord t = true) : PC m (sp ++ tok t ++ sp) [t] .any .blank :=
  c_sp +++ c_word ht +++ c_sp

/-- The node is printed as text with these tokens. -/
def Prints (m : Mode) (s : PrintSettings) (j : Json) (ts : List String) (q : Edge) : Prop :=
  Chunk m.flows (printOps m.checks s j) ts q .any

theorem c_sub {s : PrintSettings} {j : Json} {ts : List String} {q : Edge} (h : Prints m s j ts q) :
    PC m [.sub s j] ts q .any := by
  unfold PC
  unfold Prints at h
  simpa [expand] using h

theorem c_onField {key : String} {j v : Json} {f : Json → Ps} {ts : List String} {q p : Edge}
    (hk : Json.field? key j = some v) (h : PC m (f v) ts q p) : PC m (onField key j f) ts q p := by
  simpa [onField, hk, onSome] using h

theorem c_noField {key : String} {j : Json} {f : Json → Ps} {q p : Edge}
    (hk : Json.field? key j = none) (h : q.rank ≤ p.rank := by decide) : PC m (onField key j f) [] q p := by
  simpa [onField, hk, onSome] using c_nil h

theorem c_field {key : String} {s : PrintSettings} {j v : Json} {ts : List String} {q : Edge}
    (hk : Json.field? key j = some v) (h : Prints m s v ts q) : PC m (field s key j) ts q .any :=
  c_onField hk (c_sub h)

theorem c_onArray {key : String} {j : Json} {js : List Json} {f : List Json → Ps} {ts : List String} {q p : Edge}
    (hk : Json.field? key j = some (.arr js)) (h : PC m (f js) ts q p) : PC m (onArray key j f) ts q p :=
  c_onField hk (by simpa [Json.asArray, onSome] using h)

theorem c_onStr {key t : String} {j : Json} {f : String → Ps} {ts : List String} {q p : Edge}
    (hk : j.getStrForKey key = some t) (h : PC m (f t) ts q p) : PC m (onStr key j f) ts q p := by
  simpa [onStr, hk, onSome] using h

theorem c_strTok {key t : String} {j : Json} (hk : j.getStrForKey key = some t) (h : isName t = true) :
    PC m (strTok key j) [t] .name .any := c_onStr hk (c_name h)

/-- A word after a space, if there is one. -/
theorem c_opt {o : Option String} (h : NameOpt o) : PC m (onSome o fun t => sp ++ tok t) o.toList .name .name := by
  cases o with
  | none => exact c_nil
  | some t => exact (c_sp +++ c_name (h t rfl)).mono

/-- A word after a space, if the flag is set. -/
theorem c_flag {b : Bool} {t : String} (h : isName t = true) :
    PC m (when b (sp ++ tok t)) (flag b t) .name .name := by
  cases b with
  | false => exact c_nil
  | true => exact (c_sp +++ c_name h).mono

theorem c_when {b : Bool} {ps : Ps} {ts : List String} {q p : Edge} (h : PC m ps ts q p)
    (hr : q.rank ≤ p.rank := by decide) : PC m (when b ps) (if b then ts else []) q p := by
  cases b with
  | false => exact c_nil hr
  | true => exact h

/-! ### Arrays -/

/-- The parts, with tokens between each two. -/
def joined (us : List String) : List (List String) → List String
  | [] => []
  | [ts] => ts
  | ts :: vs :: rest => ts ++ (us ++ joined us (vs :: rest))

theorem joined_one (t : String) (l : List (List String)) : joined [t] l = sepBy t l := by
  induction l with
  | nil => rfl
  | cons a l ih => cases l with
    | nil => rfl
    | cons b l => simp only [joined, sepBy, ih]; simp

theorem joined_none (l : List (List String)) : joined [] l = l.flatten := by
  induction l with
  | nil => rfl
  | cons a l ih => cases l with
    | nil => simp [joined]
    | cons b l => simp only [joined, ih]; simp

theorem c_loop {f : Json → Ps} {between : Ps} {us : List String} {q p q' p' : Edge} (hb : PC m between us q' p')
    (h1 : p'.rank ≤ q.rank) (h2 : p.rank ≤ q'.rank) (h3 : q.rank ≤ p.rank) {len : Nat} :
    (js : List Json) → (tss : List (List String)) → Pairwise₂ (fun ts j => PC m (f j) ts q p) tss js →
    (i : Nat) → i + js.length = len → PC m (arrayLoop f between len i js) (joined us tss) q p
  | [], [], _, _, _ => c_nil h3
  | [], _ :: _, h, _, _ => by simp [Pairwise₂] at h
  | _ :: _, [], h, _, _ => by simp [Pairwise₂] at h
  | [j], [ts], h, i, hi => by
    simp only [List.length_cons, List.length_nil] at hi
    have hn : ¬ i < len - 1 := by omega
    simp only [Pairwise₂] at h
    simpa [arrayLoop, when, hn, joined] using h.1
  | [_], _ :: _ :: _, h, _, _ => by simp [Pairwise₂] at h
  | _ :: _ :: _, [_], h, _, _ => by simp [Pairwise₂] at h
  | j :: k :: js, ts :: vs :: tss, h, i, hi => by
    rw [Pairwise₂] at h
    have ih := c_loop (len := len) hb h1 h2 h3 (k :: js) (vs :: tss) h.2 (i + 1) (by simp only [List.length_cons] at hi ⊢; omega)
    simp only [List.length_cons] at hi
    have hn : i < len - 1 := by omega
    rw [arrayLoop, joined]
    simp only [when, hn, decide_true, if_true]
    exact PC.append h.1 (PC.append hb ih h2) h1

theorem c_arrayWith {f : Json → Ps} {between : Ps} {us : List String} {q p q' p' : Edge} (hb : PC m between us q' p')
    {js : List Json} {tss : List (List String)} (h : Pairwise₂ (fun ts j => PC m (f j) ts q p) tss js)
    (h1 : p'.rank ≤ q.rank := by decide) (h2 : p.rank ≤ q'.rank := by decide) (h3 : q.rank ≤ p.rank := by decide) :
    PC m (arrayWith f between js) (joined us tss) q p := c_loop hb h1 h2 h3 js tss h 0 (by simp)

theorem c_array {s : PrintSettings} {q : Edge} {js : List Json} {tss : List (List String)}
    (h : Pairwise₂ (fun ts j => Prints m s j ts q) tss js) (hq : Edge.rank .expr ≤ q.rank := by decide) :
    PC m (array s js) (sepBy "," tss) q .any := by
  rw [← joined_one]
  refine c_arrayWith (q' := .any) (p' := .expr) (by simpa using c_comma +++ c_sp) ?_ hq (by decide) (by cases q <;> decide)
  revert h
  induction js generalizing tss with
  | nil => cases tss <;> simp [Pairwise₂]
  | cons j js ih =>
    cases tss with
    | nil => simp [Pairwise₂]
    | cons ts tss => exact fun h => ⟨c_sub h.1, ih h.2⟩

theorem pairwise_map {α : Type} {r : α → Json → Prop} {g : α → List String} {r' : List String → Json → Prop} :
    (as : List α) → (js : List Json) → Pairwise₂ r as js → (∀ a ∈ as, ∀ j, r a j → r' (g a) j) → Pairwise₂ r' (as.map g) js
  | [], [], _, _ => trivial
  | [], _ :: _, h, _ => h
  | _ :: _, [], h, _ => h
  | _ :: as, _ :: js, h, hf =>
    ⟨hf _ (List.mem_cons_self ..) _ h.1, pairwise_map as js h.2 fun a ha => hf a (List.mem_cons_of_mem _ ha)⟩

theorem prints_of {s : PrintSettings} {node : Json} {body : Ps} {ts : List String} {q : Edge}
    (h : layout s node = { body := body }) (hc : PC m body ts q .any) : Prints m s node ts q := by
  unfold Prints
  rw [printOps_of h]
  exact hc

theorem prints_around {s : PrintSettings} {node : Json} {entry body exit : Ps} {ts : List String} {q : Edge}
    (h : layout s node = { entry := entry, body := body, exit := exit }) (hc : PC m (entry ++ (body ++ exit)) ts q .any) :
    Prints m s node ts q := by
  unfold Prints
  rw [printOps_around h]
  exact hc

/-- What is printed for a node that is written in such a way. -/
theorem printText_of {checks : Bool} {j : Json} {ts : List String} {q : Edge} (h : Prints ⟨checks, false⟩ {} j ts q) :
    ∃ text, printText checks j = .ok text ∧ SolGrammar.tokens text = ts := by
  obtain ⟨p, text, h1, h2, h3⟩ := run_written checks h.1 roomy_new
  refine ⟨text, ?_, ?_⟩
  · rw [printText, h1]
    simp only [Outcome.ok.injEq]
    rw [h2]
    rfl
  · have := (h.2 text [] h3 Lex.next_nil).1
    simpa [Lex.tokens, emit, SolGrammar.tokens] using this

/-- The same with flowable text, if printing ends. -/
theorem printText_flows {checks flows : Bool} {j : Json} {ts : List String} {q : Edge} {text : List Char}
    (h : Prints ⟨checks, flows⟩ {} j ts q) (ht : printText checks j = .ok text) : SolGrammar.tokens text = ts := by
  unfold printText at ht
  cases hr : run checks (printOps checks {} j) (Printer.new 4 150) with
  | ok p =>
    rw [hr] at ht
    cases ht
    obtain ⟨text, h2, h3⟩ := run_flows checks h.1 roomy_new hr
    have := (h.2 text [] h3 Lex.next_nil).1
    have h4 : p.out = text := by rw [h2]; rfl
    rw [h4]
    simpa [Lex.tokens, emit, SolGrammar.tokens] using this
  | err _ => rw [hr] at ht; cases ht
  | panic => rw [hr] at ht; cases ht
  | outOfFuel => rw [hr] at ht; cases ht

end SolPrint
end Mutagenyx
