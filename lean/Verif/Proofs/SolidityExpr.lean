import Verif.Proofs.SolidityChunk

/-!
# The text printed for a Solidity expression consists of its tokens
-/

namespace Mutagenyx
namespace SolPrint

open NodePrinter SolGrammar Printer Lex

variable {m : Mode} {s : PrintSettings}

/-! ### Beginnings -/

/-- The first character of a prefix operator. -/
def _root_.Mutagenyx.SolGrammar.Prefix.first : Prefix → Char
  | .neg | .dec => '-' | .not => '!' | .bitNot => '~' | .inc => '+' | .delete => 'd'

/-- The first character of an expression. -/
def Head : Expr → Char → Prop
  | .leaf _, c => wordChar c = true
  | .unit _ _, c => wordChar c = true
  | .new_ _ _, c => wordChar c = true
  | .str _, c => c = '"'
  | .hole, _ => False
  | .paren _, c => c = '('
  | .tuple _, c => c = '('
  | .member e _, c => Head e c
  | .index e _, c => Head e c
  | .emptyIndex e, c => Head e c
  | .call e _, c => Head e c
  | .named e _ _, c => Head e c
  | .options e _ _, c => Head e c
  | .post e _, c => Head e c
  | .pre u _, c => c = u.first
  | .bin l _ _, c => Head l c
  | .cond e _ _, c => Head e c

theorem leadsMinus_primary {e : Expr} (h : primary e = true) : leadsMinus e = false := by
  cases e <;> first | rfl | cases h

mutual
theorem legible_of_plain : (e : Expr) → Plain e → Legible e
  | .leaf _, h => by simpa only [Plain, Legible] using h
  | .unit _ _, h => by simpa only [Plain, Legible] using h
  | .str _, h => by simpa only [Plain, Legible] using h
  | .new_ _ _, h => by simpa only [Plain, Legible] using h
  | .hole, h => by simp only [Plain] at h
  | .paren e, h => by
    simp only [Plain, Legible] at h ⊢
    exact legible_of_plain e h
  | .tuple es, h => by
    simp only [Plain, Legible] at h ⊢
    exact ⟨h.1, legiblePlaces_of_plain es h.2⟩
  | .member e _, h => by
    simp only [Plain, Legible] at h ⊢
    exact ⟨h.1, h.2.2.1, legible_of_plain e h.2.2.2⟩
  | .index e i, h => by
    simp only [Plain, Legible] at h ⊢
    exact ⟨h.1, legible_of_plain e h.2.2.1, legible_of_plain i h.2.2.2⟩
  | .emptyIndex e, h => by
    simp only [Plain, Legible] at h ⊢
    exact ⟨h.1, legible_of_plain e h.2.2⟩
  | .call f args, h => by
    simp only [Plain, Legible] at h ⊢
    exact ⟨h.1, legible_of_plain f h.2.1, legibleAll_of_plain args h.2.2⟩
  | .named f _ args, h => by
    simp only [Plain, Legible] at h ⊢
    exact ⟨h.1, h.2.1, h.2.2.1, h.2.2.2.1, legible_of_plain f h.2.2.2.2.1, legibleAll_of_plain args h.2.2.2.2.2⟩
  | .options f _ args, h => by
    simp only [Plain, Legible] at h ⊢
    exact ⟨h.1, h.2.1, h.2.2.1, h.2.2.2.1, legible_of_plain f h.2.2.2.2.1, legibleAll_of_plain args h.2.2.2.2.2⟩
  | .post e _, h => by
    simp only [Plain, Legible] at h ⊢
    exact ⟨h.1, legible_of_plain e h.2.2⟩
  | .pre u e, h => by
    simp only [Plain, Legible] at h ⊢
    refine ⟨fun hu => h.2.1 ⟨hu.1, ?_⟩, legible_of_plain e h.2.2⟩
    have hs := h.1
    have hm := hu.2
    cases e with
    | bin l o r =>
      simp only [strength, prefixLevel] at hs
      have := (level_bounds o).2
      omega
    | cond a b c => simp [strength, prefixLevel] at hs
    | pre v e => cases v <;> first | rfl | cases hm
    | _ => cases hm
  | .bin l _ r, h => by
    simp only [Plain, Legible] at h ⊢
    exact ⟨legible_of_plain l h.2.2.1, legible_of_plain r h.2.2.2⟩
  | .cond c a b, h => by
    simp only [Plain, Legible] at h ⊢
    exact ⟨legible_of_plain c h.2.1, legible_of_plain a h.2.2.1, legible_of_plain b h.2.2.2⟩
theorem legibleAll_of_plain : (es : List Expr) → PlainAll es → LegibleAll es
  | [], _ => by simp only [LegibleAll]
  | e :: es, h => by
    simp only [PlainAll, LegibleAll] at h ⊢
    exact ⟨legible_of_plain e h.1, legibleAll_of_plain es h.2⟩
theorem legiblePlaces_of_plain : (es : List Expr) → PlainPlaces es → LegiblePlaces es
  | [], _ => by simp only [LegiblePlaces]
  | e :: es, h => by
    simp only [PlainPlaces, LegiblePlaces] at h ⊢
    exact ⟨h.1.imp_right (legible_of_plain e), legiblePlaces_of_plain es h.2⟩
end

/-- The first character is no part of an operator, or that of a prefix operator. -/
theorem head_legible : (e : Expr) → Legible e → ∀ c, Head e c →
    (wordChar c = true ∨ c = '(' ∨ c = '"') ∨ (∃ u : Prefix, c = u.first) ∧ primary e = false ∧ (c = '-' → leadsMinus e = true)
  | .leaf _, _, _, hc => .inl (.inl hc)
  | .unit _ _, _, _, hc => .inl (.inl hc)
  | .new_ _ _, _, _, hc => .inl (.inl hc)
  | .str _, _, _, hc => .inl (.inr (.inr hc))
  | .hole, _, _, hc => hc.elim
  | .paren _, _, _, hc => .inl (.inr (.inl hc))
  | .tuple _, _, _, hc => .inl (.inr (.inl hc))
  | .member e _, h, c, hc => by
    simp only [Legible] at h
    exact .inl ((head_legible e h.2.2 c hc).resolve_right fun x => by rw [x.2.1] at h; cases h.1)
  | .index e _, h, c, hc => by
    simp only [Legible] at h
    exact .inl ((head_legible e h.2.1 c hc).resolve_right fun x => by rw [x.2.1] at h; cases h.1)
  | .emptyIndex e, h, c, hc => by
    simp only [Legible] at h
    exact .inl ((head_legible e h.2 c hc).resolve_right fun x => by rw [x.2.1] at h; cases h.1)
  | .call e _, h, c, hc => by
    simp only [Legible] at h
    exact .inl ((head_legible e h.2.1 c hc).resolve_right fun x => by rw [x.2.1] at h; cases h.1)
  | .named e _ _, h, c, hc => by
    simp only [Legible] at h
    exact .inl ((head_legible e h.2.2.2.2.1 c hc).resolve_right fun x => by rw [x.2.1] at h; cases h.1)
  | .options e _ _, h, c, hc => by
    simp only [Legible] at h
    exact .inl ((head_legible e h.2.2.2.2.1 c hc).resolve_right fun x => by rw [x.2.1] at h; cases h.1)
  | .post e _, h, c, hc => by
    simp only [Legible] at h
    exact .inl ((head_legible e h.2 c hc).resolve_right fun x => by rw [x.2.1] at h; cases h.1)
  | .pre u e, _, c, hc => .inr ⟨⟨u, hc⟩, rfl, fun hm => by
      subst hm
      cases u <;> first | rfl | exact absurd (show '-' = Prefix.first _ from hc) (by decide)⟩
  | .bin l o r, h, c, hc => by
    simp only [Legible] at h
    exact (head_legible l h.1 c hc).imp_right fun x => ⟨x.1, rfl, x.2.2⟩
  | .cond a _ _, h, c, hc => by
    simp only [Legible] at h
    exact (head_legible a h.1 c hc).imp_right fun x => ⟨x.1, rfl, x.2.2⟩

theorem joins_prefix {u : Prefix} {e : Expr} (h : Legible (.pre u e)) (c : Char) (hc : Head e c) (hu : u ≠ .delete) :
    joins u.text.toList c = false := by
  simp only [Legible] at h
  have key := head_legible e h.2 c hc
  have hne : c ≠ '=' ∧ c ≠ '>' ∧ c ≠ '*' := by
    rcases key with (hw | rfl | rfl) | ⟨⟨v, rfl⟩, _⟩
    · refine ⟨?_, ?_, ?_⟩ <;> (rintro rfl; exact absurd hw (by decide))
    · decide
    · decide
    · cases v <;> decide
  cases u with
  | neg =>
    have hm : c ≠ '-' := by
      rintro rfl
      rcases key with (hw | hw | hw) | ⟨_, _, hl⟩
      · exact absurd hw (by decide)
      · exact absurd hw (by decide)
      · exact absurd hw (by decide)
      · exact h.1 ⟨rfl, hl rfl⟩
    simp [joins, Prefix.text, wordChar, pairs, hm, hne]
  | not => simp [joins, Prefix.text, wordChar, pairs, hne]
  | bitNot => simp [joins, Prefix.text, wordChar, pairs]
  | inc => simp [joins, Prefix.text, wordChar]
  | dec => simp [joins, Prefix.text, wordChar]
  | delete => exact absurd rfl hu

/-! ### Pieces -/

/-- The text of the pieces begins with such a character. -/
def PS (m : Mode) (ps : Ps) (P : Char → Prop) : Prop := Starts (expand m.checks (printOps m.checks) ps) P

theorem PS.append {a : Ps} (b : Ps) {P : Char → Prop} (h : PS m a P) : PS m (a ++ b) P := by
  unfold PS at h ⊢
  rw [expand_append]
  exact Starts.append _ h

theorem ps_sub {j : Json} {P : Char → Prop} (h : Starts (printOps m.checks s j) P) : PS m [.sub s j] P := by
  unfold PS
  simpa [expand] using h

theorem ps_field {key : String} {j v : Json} {P : Char → Prop} (hk : Json.field? key j = some v)
    (h : Starts (printOps m.checks s v) P) : PS m (field s key j) P := by
  simpa [field, onField, hk, onSome] using ps_sub h

theorem ps_tok {t : String} {P : Char → Prop} (h : Starts (word t) P) : PS m (tok t) P := by
  unfold PS
  simpa [expand, tok, word] using h

/-- What may follow the expression. -/
def edge (e : Expr) : Edge := if primary e then .name else .expr

theorem edge_primary {e : Expr} (h : primary e = true) : edge e = .name := if_pos h

theorem edge_rank (e : Expr) : Edge.rank .expr ≤ (edge e).rank := by unfold edge; split <;> decide

/-- The node is printed as the tokens of the expression. -/
def Good (m : Mode) (s : PrintSettings) (e : Expr) (j : Json) : Prop :=
  Prints m s j (strE e) (edge e) ∧ Starts (printOps m.checks s j) (Head e)

theorem good_of {e : Expr} {j : Json} {body : Ps} {ts : List String} {q p : Edge} (h : layout s j = { body := body })
    (hc : PC m body ts q p) (ht : ts = strE e) (hs : PS m body (Head e)) (hq : (edge e).rank ≤ q.rank := by simp [edge, primary, Edge.rank]) :
    Good m s e j := by
  subst ht
  refine ⟨prints_of h (hc.mono hq (by cases p <;> decide)), ?_⟩
  rw [printOps_of h]
  exact hs

theorem good_around {e : Expr} {j : Json} {entry body exit : Ps} {ts : List String} {q p : Edge}
    (h : layout s j = { entry := entry, body := body, exit := exit })
    (hc : PC m (entry ++ (body ++ exit)) ts q p) (ht : ts = strE e) (hs : PS m entry (Head e))
    (hq : (edge e).rank ≤ q.rank := by simp [edge, primary, Edge.rank]) : Good m s e j := by
  subst ht
  refine ⟨prints_around h (hc.mono hq (by cases p <;> decide)), ?_⟩
  rw [printOps_around h]
  exact hs.append _

theorem Good.expr {e : Expr} {j : Json} (h : Good m s e j) : Prints m s j (strE e) .expr :=
  Chunk.mono h.1 (edge_rank e) (by decide)

theorem Good.name {e : Expr} {j : Json} (h : Good m s e j) (hp : primary e = true) : Prints m s j (strE e) .name := by
  have := h.1
  rwa [edge_primary hp] at this

/-! ### Types behind `new` -/

theorem bracketToks_snoc : (n : Nat) → bracketToks (n + 1) = bracketToks n ++ ["[", "]"]
  | 0 => rfl
  | n + 1 => by
    have := bracketToks_snoc n
    show "[" :: "]" :: bracketToks (n + 1) = ("[" :: "]" :: bracketToks n) ++ ["[", "]"]
    rw [this]
    rfl

theorem p_new {p : List String} (h0 : p ≠ []) (hp : ∀ n ∈ p, isName n = true) : (n : Nat) → (j : Json) → ShowsNew p n j →
    Prints m s j (pathToks p ++ bracketToks n) .name
  | 0, j, h => by
    rcases h with ⟨t, rfl, h, h1, h2⟩ | ⟨h, v, h1, h2⟩
    · refine prints_of (body := elementaryType j) (by simp [layout, show _ = _ from h]) ?_
      exact (c_strTok h1 (hp t (List.mem_cons_self ..)) +++ c_when (q := .name) (p := .name)
        ((c_sp +++ c_name (t := "payable") (by decide)).mono)).cast (by simp [pathToks, sepBy, bracketToks, h2])
    · refine prints_of (body := userType j) (by simp [layout, show _ = _ from h]) ?_
      simp only [userType, h1]
      exact (c_onStr h2.2 (c_path h0 hp)).cast (by simp [bracketToks])
  | n + 1, j, h => by
    obtain ⟨h, ⟨v, h1, h2⟩, h3⟩ := h
    refine prints_of (body := field s "baseType" j ++ tok "[" ++ field s "length" j ++ tok "]") (by simp [layout, show _ = _ from h]) ?_
    have := c_field (s := s) h1 (p_new h0 hp n v h2) +++ c_openB +++ c_noField (m := m) (f := fun n => [.sub s n]) (q := .any) (p := .any) h3 +++ c_closeB
    exact (this.mono (q' := .name)).cast (by rw [bracketToks_snoc]; simp)

/-! ### Literals -/

theorem unencodeChar_unescaped {c : Char} (h : unescaped c = true) : unencodeChar c = [c] := by
  simp only [unescaped, Bool.and_eq_true, decide_eq_true_eq, bne_iff_ne] at h
  unfold unencodeChar
  have h1 : ¬ c.toNat < 32 := by omega
  simp [h1, h.1.1.2]

theorem unencode_unescaped {t : List Char} (h : ∀ c ∈ t, unescaped c = true) : unencode t = t := by
  unfold unencode
  induction t with
  | nil => rfl
  | cons c t ih =>
    rw [List.flatMap_cons, unencodeChar_unescaped (h c (List.mem_cons_self ..)), ih fun d hd => h d (List.mem_cons_of_mem _ hd)]
    rfl

theorem units_name {u : String} (h : u ∈ units) : isName u = true := by
  simp only [units, List.mem_cons, List.not_mem_nil, or_false] at h
  rcases h with rfl | rfl | rfl | rfl | rfl | rfl | rfl | rfl | rfl | rfl | rfl <;> decide

theorem strArgs_sepBy : (es : List Expr) → strArgs es = sepBy "," (es.map strE)
  | [] => rfl
  | [e] => by simp [strArgs, strRest, sepBy]
  | e :: f :: es => by
    have := strArgs_sepBy (f :: es)
    simp only [strArgs, strRest, List.map_cons, sepBy] at this ⊢
    rw [this]

theorem showAll_length : (es : List Expr) → (js : List Json) → ShowAll es js → es.length = js.length
  | [], [], _ => rfl
  | [], _ :: _, h => by simp [ShowAll] at h
  | _ :: _, [], h => by simp [ShowAll] at h
  | _ :: es, _ :: js, h => by
    simp only [ShowAll] at h
    simpa using showAll_length es js h.2

theorem isWord_operator (o : Operator) : isWord o.text = true := by cases o <;> decide

theorem printOps_null {s : PrintSettings} : printOps m.checks s .null = [] := rfl

theorem c_null {s : PrintSettings} : PC m [.sub s .null] [] .expr .any := by
  unfold PC
  simpa [expand, printOps_null] using chunk_nil

/-! ### Expressions -/

/-- A token may be written in two parts. -/
theorem spread_parts {a b : String} {text : List Char} (h : Spread (word (a ++ b)) text) : Spread (word a ++ word b) text := by
  unfold word at h ⊢
  cases h with
  | token w t hw hs =>
    cases hs
    rw [String.toList_append, List.append_nil]
    have := Spread.token w a.toList hw (Spread.token [] b.toList (by intro c hc; cases hc) .nil)
    simpa using this

theorem c_parts {a b : String} {ts : List String} {q p : Edge} (h : PC m (tok a ++ tok b) ts q p) : PC m (tok (a ++ b)) ts q p := by
  refine ⟨by simpa [expand, tok, word] using written_word (flows := m.flows) (a ++ b), fun text rest hs hn => h.2 text rest ?_ hn⟩
  have hs : Spread (word (a ++ b)) text := by simpa [expand, tok, word] using hs
  simpa [expand, tok, word] using spread_parts hs

theorem c_minus {t : String} (h : isLeaf t = true) : PC m (tok ("-" ++ t)) ["-", t] .expr .any := by
  refine c_parts ?_
  have h1 : Lexes lexer (word "-") ["-"] fun c => wordChar c = true :=
    lexes_isWord (by decide) fun c hc => by
      have : Legible (.pre .neg (.leaf t)) := by simp only [Legible]; exact ⟨by simp [leadsMinus], h⟩
      exact joins_prefix this c (by simpa [Head] using hc) (by decide)
  have h2 : PC m (tok t) [t] .expr .any := (c_leaf h).mono (by cases isName t <;> decide) (by decide)
  have h3 := lexes_append h1 (fun x r a b => (h2.2 x r (by simpa [expand, tok, word] using a) b).1) (starts_leaf h)
  refine ⟨by rw [expand_append]; exact Written.append (written_word _) h2.1, fun text rest hx hn => ?_⟩
  have hx : Spread (word "-" ++ word t) text := by simpa [expand, tok, word] using hx
  exact ⟨h3 text rest hx hn, ((starts_word (c := '-') (t := "-") rfl (by decide) trivial).append _) text rest hx⟩

theorem p_negative {e : Expr} {j : Json} (h : NegativeLiteral e j) (hp : Legible e) : Good m s (.pre .neg e) j := by
  obtain ⟨h, hk, t, hv, h1⟩ := h
  unfold IsA at h
  have hs : Starts (word ("-" ++ t)) (Head (.pre .neg e)) :=
    starts_word (c := '-') (cs := t.toList) (by rw [String.toList_append]; rfl) (by decide) rfl
  rcases h1 with ⟨rfl, h2⟩ | ⟨u, rfl, h2⟩
  · simp only [Legible] at hp
    exact good_of (body := tok ("-" ++ t)) (by simp [layout, h, literal, onStr, hv, h2, hk, onSome]) (c_minus hp)
      (by simp [strE, Prefix.text]) (ps_tok hs)
  · simp only [Legible] at hp
    exact good_of (body := tok ("-" ++ t) ++ (sp ++ tok u)) (by simp [layout, h, literal, onStr, hv, h2, hk, onSome])
      (c_minus hp.1 +++ (c_sp +++ c_name (units_name hp.2))) (by simp [strE, Prefix.text]) ((ps_tok hs).append _)

mutual
theorem p_shows : (e : Expr) → (j : Json) → Shows e j → Legible e → Good m s e j
  | .leaf t, j, h, hp => by
    have hl : isLeaf t = true := by simpa [Legible] using hp
    have hs : PS m (tok t) (Head (.leaf t)) := ps_tok (starts_leaf hl)
    have hc : PC m (tok t) [t] (edge (.leaf t)) .any := c_leaf hl
    simp only [Shows, IsA] at h
    rcases h with ⟨h, h1⟩ | ⟨h, h1, h2, h3⟩ | ⟨h, h1, v, h2, h3, h4⟩
    · refine good_of (body := tok t) (q := edge (.leaf t)) (by simp [layout, h, strTok, onStr, h1, onSome]) hc rfl hs (Nat.le_refl _)
    · refine good_of (body := tok t) (q := edge (.leaf t)) ?_ hc rfl hs (Nat.le_refl _)
      rcases h3 with h3 | h3 <;> simp [layout, h, literal, onStr, h1, h2, h3, onSome]
    · rcases h4 with ⟨h4, h5⟩ | ⟨rfl, h5⟩
      · have hv : printOps m.checks s v = word t := by
          rw [printOps_of (body := elementaryType v) (by simp [layout, h3])]
          simp [elementaryType, strTok, onStr, h4, h5, onSome, tok, expand, word, when]
        have hb : layout s j = { body := [.sub s v] } := by
          simp [layout, h, typeNameExpression, onField, h1, h2, h5, onSome, when]
        exact good_of (q := edge (.leaf t)) hb (ts := [t]) (p := .any) (by unfold PC; simp only [expand, hv, List.append_nil]; exact chunk_leaf hl) rfl
          (by unfold PS; simp only [expand, hv, List.append_nil]; exact starts_leaf hl) (Nat.le_refl _)
      · refine good_of (body := tok "payable") (q := edge (.leaf "payable")) ?_ hc rfl hs (Nat.le_refl _)
        simp [layout, h, typeNameExpression, onField, h1, h2, h5, onSome, when]
  | .unit n u, j, h, hp => by
    simp only [Legible] at hp
    simp only [Shows, IsA] at h
    obtain ⟨h, h1, h2, h3⟩ := h
    refine good_of (body := tok n ++ (sp ++ tok u)) (by simp [layout, h, literal, onStr, h1, h2, h3, onSome])
      (PC.append (c_leaf hp.1) (c_sp +++ c_name (units_name hp.2)) (Nat.zero_le _)) rfl ((ps_tok (starts_leaf hp.1)).append _)
  | .str t, j, h, hp => by
    simp only [Legible] at hp
    simp only [Shows, IsA] at h
    obtain ⟨h, h1, h2, h3⟩ := h
    refine good_of (body := [.op (.string t.toList)])
      (by simp [layout, h, literal, onStr, h1, h2, h3, onSome, unencode_unescaped hp]) (c_string hp) rfl ?_
    intro text rest hs
    simp only [expand] at hs
    cases hs with
    | string w u hw hs =>
      rw [List.append_assoc]
      refine next_gap hw ?_
      intro c cs hc
      cases hc
      exact Or.inr ⟨by decide, rfl⟩
  | .new_ p n, j, h, hp => by
    simp only [Legible] at hp
    simp only [Shows, IsA] at h
    obtain ⟨h, v, h1, h2⟩ := h
    refine good_of (body := tok "new" ++ onField "typeName" j fun n => sp ++ [.sub s n]) (by simp [layout, h])
      (c_word +++ c_onField h1 (c_sp +++ c_sub (p_new hp.1 hp.2 n v h2))) rfl
      ((ps_tok (starts_word (c := 'n') rfl (by decide) (by simp [Head]; decide))).append _)
  | .hole, _, _, hp => by simp [Legible] at hp
  | .paren e, j, h, hp => by
    have he : Legible e := by simpa [Legible] using hp
    simp only [Shows, IsA] at h
    obtain ⟨h, v, h1, h2⟩ := h
    have ih := (p_shows e v h2 he).expr
    refine good_of (body := tok "(" ++ [.sub s v] ++ tok ")")
      (by simp [layout, h, tuple, onArray, onField, h1, Json.asArray, onSome, when, nullableList])
      (c_open +++ c_sub ih +++ c_close) (by simp [strE])
      (((ps_tok (starts_word (c := '(') rfl (by decide) (by simp [Head]))).append _).append _)
  | .tuple es, j, h, hp => by
    simp only [Legible] at hp
    simp only [Shows, IsA] at h
    obtain ⟨h, vs, h1, h2⟩ := h
    have ih := p_places es vs h2 hp.2
    have hl := showAll_length es vs h2
    have hv : vs.isEmpty = false := by
      cases vs with
      | nil => simp only [List.length_nil] at hl; omega
      | cons => rfl
    refine good_of (body := tok "(" ++ nullableList s vs ++ tok ")")
      (by simp [layout, h, tuple, onArray, onField, h1, Json.asArray, onSome, when, hv])
      (c_open +++ ih +++ c_close) (by simp [strE])
      (((ps_tok (starts_word (c := '(') rfl (by decide) (by simp [Head]))).append _).append _)
  | .member e id, j, h, hp => by
    simp only [Legible] at hp
    obtain ⟨hp1, hid, he⟩ := hp
    simp only [Shows, IsA] at h
    obtain ⟨h, h1, v, h2, h3⟩ := h
    have ih := p_shows e v h3 he
    exact good_of (body := field s "expression" j ++ tok "." ++ strTok "memberName" j) (by simp [layout, h])
      (c_field h2 (ih.name hp1) +++ c_dot +++ c_strTok h1 hid) (by simp [strE]) (((ps_field h2 ih.2).append _).append _)
  | .index e i, j, h, hp => by
    simp only [Legible] at hp
    obtain ⟨hp1, he, hi⟩ := hp
    simp only [Shows, IsA] at h
    obtain ⟨h, ⟨v, h1, h2⟩, x, h3, h4⟩ := h
    have ih := p_shows e v h2 he
    have ih2 := p_shows i x h4 hi
    exact good_of (body := field s "baseExpression" j ++ tok "[" ++ field s "indexExpression" j ++ tok "]") (by simp [layout, h])
      (c_field h1 (ih.name hp1) +++ c_openB +++ c_field h3 ih2.expr +++ c_closeB) (by simp [strE])
      ((((ps_field h1 ih.2).append _).append _).append _)
  | .emptyIndex e, j, h, hp => by
    simp only [Legible] at hp
    obtain ⟨hp1, he⟩ := hp
    simp only [Shows, IsA] at h
    obtain ⟨h, ⟨v, h1, h2⟩, h3⟩ := h
    have ih := p_shows e v h2 he
    exact good_of (body := field s "baseExpression" j ++ tok "[" ++ field s "indexExpression" j ++ tok "]") (by simp [layout, h])
      (c_field h1 (ih.name hp1) +++ c_openB +++
        c_noField (m := m) (f := fun n => [.sub s n]) (q := .any) (p := .any) h3 +++ c_closeB) (by simp [strE])
      ((((ps_field h1 ih.2).append _).append _).append _)
  | .call f args, j, h, hp => by
    simp only [Legible] at hp
    obtain ⟨hp1, he, ha⟩ := hp
    simp only [Shows, IsA] at h
    obtain ⟨h, ⟨v, h1, h2⟩, ⟨vs, h3, h4⟩, h5, h6⟩ := h
    have ih := p_shows f v h2 he
    have ih2 := p_all args vs h4 ha
    have c1 : PC m (functionCall s j).entry (strE f ++ ["("]) .any .any :=
      c_onField h1 (c_sub (ih.name hp1) +++ c_open)
    have c2 : PC m (functionCall s j).body (strArgs args) .expr .any := by
      rw [strArgs_sepBy]
      simp only [functionCall, h5, arguments]
      exact c_onArray h3 (c_array ih2)
    have c3 : PC m (functionCall s j).exit [")"] .any .expr := by
      simpa [functionCall, h6, when] using c_close
    exact good_around (entry := (functionCall s j).entry) (body := (functionCall s j).body)
      (exit := (functionCall s j).exit) (by simp [layout, h, functionCall]) (c1 +++ (c2 +++ c3)) (by simp [strE])
      (by simp only [functionCall, onField, h1, onSome]; exact (ps_sub ih.2).append _)
  | .named f ns args, j, h, hp => by
    simp only [Legible] at hp
    obtain ⟨hp1, hn0, hlen, hn, he, ha⟩ := hp
    simp only [Shows, IsA] at h
    obtain ⟨h, ⟨v, h1, h2⟩, ⟨vs, h3, h4⟩, h5, h6⟩ := h
    have ih := p_shows f v h2 he
    have ih2 := p_named args vs ns h4 ha hn hlen (len := ns.length) 0 (by simp)
    have hl := showAll_length args vs h4
    have c1 : PC m (functionCall s j).entry (strE f ++ ["("]) .any .any :=
      c_onField h1 (c_sub (ih.name hp1) +++ c_open)
    have c2 : PC m (functionCall s j).body ("{" :: (strNamed ns args ++ ["}"])) .any .any := by
      cases ns with
      | nil => exact absurd rfl hn0
      | cons n ns =>
        simp only [functionCall, h5, List.map_cons, h3, onSome, List.length_cons, List.length_map] at hlen ⊢
        rw [if_neg (by omega)]
        simp only [List.map_cons, List.length_cons] at ih2
        have hd : PC m dec [] .expr .expr := chunk_decr
        have := c_brace +++ (c_inc +++ ih2 +++ hd) +++ c_nl +++ c_ind +++ c_unbrace
        exact (this.mono).cast (by simp)
    have c3 : PC m (functionCall s j).exit [")"] .any .expr := by
      simpa [functionCall, h6, when] using c_close
    exact good_around (entry := (functionCall s j).entry) (body := (functionCall s j).body)
      (exit := (functionCall s j).exit) (by simp [layout, h, functionCall]) (c1 +++ (c2 +++ c3)) (by simp [strE])
      (by simp only [functionCall, onField, h1, onSome]; exact (ps_sub ih.2).append _)
  | .options f ns args, j, h, hp => by
    simp only [Legible] at hp
    obtain ⟨hp1, hn0, hlen, hn, he, ha⟩ := hp
    simp only [Shows, IsA] at h
    obtain ⟨h, ⟨v, h1, h2⟩, ⟨vs, h3, h4⟩, h5⟩ := h
    have ih := p_shows f v h2 he
    have ih2 := p_options args vs ns h4 ha hn hlen (len := ns.length) 0 (by simp)
    have hl := showAll_length args vs h4
    refine good_of (body := functionCallOptions s j) (by simp [layout, h]) (ts := strE f ++ ("{" :: (strNamed ns args ++ ["}"]))) (q := .any) (p := .any) ?_
      (by simp [strE]) ((ps_field h1 ih.2).append _)
    have : PC m (tok "{" ++ optionLoop s ns.length 0 (ns.map .str) vs ++ tok "}") ("{" :: (strNamed ns args ++ ["}"])) .any .name :=
      (c_brace +++ ih2 +++ c_unbrace).cast (by simp)
    simp only [functionCallOptions, h3, h5, onSome, List.length_map]
    rw [if_neg (by omega)]
    have hne : (List.map Json.str ns).isEmpty = false := by cases ns with
      | nil => exact absurd rfl hn0
      | cons => rfl
    simp only [when, hne, Bool.not_false, if_true]
    exact c_field h1 (ih.name hp1) +++ this
  | .post e u, j, h, hp => by
    simp only [Legible] at hp
    obtain ⟨hp1, he⟩ := hp
    simp only [Shows, IsA] at h
    obtain ⟨h, h1, h2, v, h3, h4⟩ := h
    have ih := p_shows e v h4 he
    have hu : PC m (tok u.text) [u.text] .any .name := by
      refine chunk_of (written_word _) (lexes_isWord (by cases u <;> decide) fun c _ => ?_) ?_
      · cases u <;> simp [joins, Postfix.text, wordChar]
      · cases u
        · exact starts_word (c := '+') rfl (by decide) (Or.inr ⟨rfl, by decide⟩)
        · exact starts_word (c := '-') rfl (by decide) (Or.inr ⟨rfl, by decide⟩)
    exact good_of (body := field s "subExpression" j ++ tok u.text)
      (by simp [layout, h, unaryOperation, strTok, onStr, h1, h2, onSome, when]) (c_field h3 (ih.name hp1) +++ hu) (by simp [strE])
      ((ps_field h3 ih.2).append _)
  | .pre u e, j, h, hp => by
    have hp' := hp
    simp only [Legible] at hp'
    simp only [Shows, IsA] at h
    rcases h with h | ⟨rfl, h⟩
    rotate_left
    · exact p_negative h hp'.2
    obtain ⟨h, h1, h2, v, h3, h4⟩ := h
    have ih := p_shows e v h4 hp'.2
    have hs : Starts (word u.text) (Head (.pre u e)) := by
      cases u
      · exact starts_word (c := '-') rfl (by decide) rfl
      · exact starts_word (c := '!') rfl (by decide) rfl
      · exact starts_word (c := '~') rfl (by decide) rfl
      · exact starts_word (c := '+') rfl (by decide) rfl
      · exact starts_word (c := '-') rfl (by decide) rfl
      · exact starts_word (c := 'd') rfl (by decide) rfl
    by_cases hu : u = .delete
    · subst hu
      exact good_of (body := tok "delete" ++ sp ++ field s "subExpression" j)
        (by simp [layout, h, unaryOperation, onStr, h1, h2, onSome, when, Prefix.text])
        (c_word +++ c_sp +++ c_field h3 ih.expr) (by simp [strE, Prefix.text]) (((ps_tok hs).append _).append _)
    · have hb : layout s j = { body := tok u.text ++ field s "subExpression" j } := by
        cases u <;> first | exact absurd rfl hu | simp [layout, h, unaryOperation, onStr, h1, h2, onSome, when, Prefix.text]
      refine good_of hb (ts := u.text :: strE e) (q := .expr) (p := .any) ?_ (by simp [strE]) ((ps_tok hs).append _)
      refine ⟨?_, fun text rest hx hn => ?_⟩
      · rw [expand_append]
        exact Written.append (written_word _) (c_field (m := m) h3 ih.expr).1
      · have h5 : Starts (expand m.checks (printOps m.checks) (field s "subExpression" j)) (Head e) := ps_field h3 ih.2
        have h6 := lexes_append (lexes_isWord (t := u.text) (by cases u <;> decide) fun c hc => joins_prefix hp c hc hu)
          (fun t r a b => ((c_field (m := m) h3 ih.expr).2 t r a b).1) h5
        rw [expand_append] at hx
        exact ⟨h6 text rest hx hn, ((hs.append _) text rest hx).mono fun _ _ => trivial⟩
  | .bin l o r, j, h, hp => by
    simp only [Legible] at hp
    obtain ⟨hl, hr⟩ := hp
    simp only [Shows, IsA] at h
    obtain ⟨h1, h⟩ := h
    split at h
    · obtain ⟨h, ⟨a, h2, h3⟩, b, h4, h5⟩ := h
      have ih := p_shows l a h3 hl
      have ih2 := p_shows r b h5 hr
      have := c_field (m := m) h2 ih.expr +++ c_between (isWord_operator o) +++ c_field h4 ih2.expr
      exact good_of (by simp [layout, h, assignment, operator, onStr, h1, onSome]) this (by simp [strE]) (((ps_field h2 ih.2).append _).append _)
    · obtain ⟨h, ⟨a, h2, h3⟩, b, h4, h5⟩ := h
      have ih := p_shows l a h3 hl
      have ih2 := p_shows r b h5 hr
      have := c_field (m := m) h2 ih.expr +++ c_between (isWord_operator o) +++ c_field h4 ih2.expr
      exact good_of (by simp [layout, h, binaryOperation, operator, onStr, h1, onSome]) this (by simp [strE]) (((ps_field h2 ih.2).append _).append _)
  | .cond c a b, j, h, hp => by
    simp only [Legible] at hp
    obtain ⟨hc, ha, hb⟩ := hp
    simp only [Shows, IsA] at h
    obtain ⟨h, ⟨x, h1, h2⟩, ⟨y, h3, h4⟩, z, h5, h6⟩ := h
    have ih := p_shows c x h2 hc
    have ih2 := p_shows a y h4 ha
    have ih3 := p_shows b z h6 hb
    have := c_field (m := m) h1 ih.expr +++ c_between (t := "?") (by decide) +++ c_field h3 ih2.expr +++
      c_between (t := ":") (by decide) +++ c_field h5 ih3.expr
    exact good_of (by simp [layout, h, conditional]) this (by simp [strE])
      (((((ps_field h1 ih.2).append _).append _).append _).append _)
theorem p_all : (es : List Expr) → (js : List Json) → ShowAll es js → LegibleAll es →
    Pairwise₂ (fun ts j => Prints m s j ts .expr) (es.map strE) js
  | [], [], _, _ => trivial
  | [], _ :: _, h, _ => by simp [ShowAll] at h
  | _ :: _, [], h, _ => by simp [ShowAll] at h
  | e :: es, j :: js, h, hp => by
    simp only [ShowAll] at h
    simp only [LegibleAll] at hp
    exact ⟨(p_shows e j h.1 hp.1).expr, p_all es js h.2 hp.2⟩
theorem p_places : (es : List Expr) → (js : List Json) → ShowAll es js → LegiblePlaces es →
    PC m (nullableList s js) (strArgs es) .expr .any
  | [], [], _, _ => by rw [strArgs]; exact c_nil
  | [], _ :: _, h, _ => by simp [ShowAll] at h
  | _ :: _, [], h, _ => by simp [ShowAll] at h
  | e :: es, j :: js, h, hp => by
    simp only [ShowAll] at h
    simp only [LegiblePlaces] at hp
    have ihe := p_shows e j h.1
    have ih := p_places es js h.2 hp.2
    have hj : PC m [.sub s j] (strE e) .expr .any := by
      rcases hp.1 with rfl | hp
      · have := h.1
        simp only [Shows] at this
        subst this
        rw [strE]
        exact c_null
      · exact c_sub (ihe hp).expr
    cases js with
    | nil =>
      cases es with
      | nil => simpa [nullableList, strArgs, strRest] using hj
      | cons => simp [ShowAll] at h
    | cons k js =>
      cases es with
      | nil => simp [ShowAll] at h
      | cons f es =>
        have hs : PC m (when (decide (k ≠ .null)) sp) [] .any .any := by
          cases decide (k ≠ .null)
          · exact c_nil
          · exact c_sp.mono
        exact (hj +++ (c_comma +++ (hs +++ ih))).cast (by simp [strArgs, strRest])
theorem p_named : (es : List Expr) → (js : List Json) → (ns : List String) → ShowAll es js → LegibleAll es →
    (∀ n ∈ ns, isName n = true) → ns.length = es.length → {len : Nat} → (i : Nat) → i + ns.length = len →
    PC m (namedLoop s len i (ns.map .str) js) (strNamed ns es) .expr .any
  | [], js, ns, h, _, _, hl, _, _, _ => by
    cases ns with
    | nil => cases js <;> exact c_nil
    | cons => simp at hl
  | _ :: _, [], _, h, _, _, _, _, _, _ => by simp [ShowAll] at h
  | e :: es, j :: js, ns, h, hp, hn, hl, len, i, hi => by
    simp only [ShowAll] at h
    simp only [LegibleAll] at hp
    cases ns with
    | nil => simp at hl
    | cons n ns =>
      have hj := (p_shows e j h.1 hp.1).expr
      have ih := p_named es js ns h.2 hp.2 (fun x hx => hn x (List.mem_cons_of_mem _ hx)) (by simpa using hl)
        (len := len) (i + 1) (by simp only [List.length_cons] at hi; omega)
      have h1 := c_nl +++ c_ind +++ c_name (m := m) (hn n (List.mem_cons_self ..)) +++ c_colon +++ c_sp +++ c_sub hj
      simp only [List.map_cons, namedLoop, Json.asStr, List.length_cons] at hi ⊢
      cases ns with
      | nil =>
        have : ¬ i < len - 1 := by simp only [List.length_nil] at hi; omega
        cases es with
        | cons => simp at hl
        | nil =>
          have h2 := (h1.mono (q' := .expr) (p' := .any)).cast (us := strNamed [n] [e]) (by simp [strNamed, strNamedRest])
          cases js <;> simpa [this, when, namedLoop] using h2
      | cons m ns =>
        have : i < len - 1 := by simp only [List.length_cons] at hi; omega
        cases es with
        | nil => simp at hl
        | cons f es =>
          simp only [this, when, decide_true, if_true]
          exact ((h1 +++ c_comma +++ ih).mono).cast (by simp [strNamed, strNamedRest])
theorem p_options : (es : List Expr) → (js : List Json) → (ns : List String) → ShowAll es js → LegibleAll es →
    (∀ n ∈ ns, isName n = true) → ns.length = es.length → {len : Nat} → (i : Nat) → i + ns.length = len →
    PC m (optionLoop s len i (ns.map .str) js) (strNamed ns es) .expr .any
  | [], js, ns, h, _, _, hl, _, _, _ => by
    cases ns with
    | nil => cases js <;> exact c_nil
    | cons => simp at hl
  | _ :: _, [], _, h, _, _, _, _, _, _ => by simp [ShowAll] at h
  | e :: es, j :: js, ns, h, hp, hn, hl, len, i, hi => by
    simp only [ShowAll] at h
    simp only [LegibleAll] at hp
    cases ns with
    | nil => simp at hl
    | cons n ns =>
      have hj := (p_shows e j h.1 hp.1).expr
      have ih := p_options es js ns h.2 hp.2 (fun x hx => hn x (List.mem_cons_of_mem _ hx)) (by simpa using hl)
        (len := len) (i + 1) (by simp only [List.length_cons] at hi; omega)
      have h1 := c_name (m := m) (hn n (List.mem_cons_self ..)) +++ c_colon +++ c_sp +++ c_sub hj
      simp only [List.map_cons, optionLoop, Json.asStr, List.length_cons] at hi ⊢
      cases ns with
      | nil =>
        have : ¬ i < len - 1 := by simp only [List.length_nil] at hi; omega
        cases es with
        | cons => simp at hl
        | nil =>
          have h2 := h1.cast (us := strNamed [n] [e]) (by simp [strNamed, strNamedRest])
          cases js <;> simpa [this, when, optionLoop] using h2
      | cons m ns =>
        have : i < len - 1 := by simp only [List.length_cons] at hi; omega
        cases es with
        | nil => simp at hl
        | cons f es =>
          simp only [this, when, decide_true, if_true]
          exact (h1 +++ (c_comma +++ c_sp) +++ ih).cast (by simp [strNamed, strNamedRest])
end

theorem p_expr {e : Expr} {j : Json} (h : Shows e j) (hp : Legible e) : Prints m s j (strE e) .expr :=
  (p_shows e j h hp).expr

end SolPrint
end Mutagenyx
