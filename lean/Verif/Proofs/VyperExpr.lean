import Verif.Props.VyperPrinter
import Verif.Proofs.VyperGrammar
import Verif.Proofs.Lex

/-!
# The text printed for a Vyper expression consists of its tokens
-/

namespace Mutagenyx
namespace VyPrint

open NodePrinter VyGrammar Printer Lex

/-! ### The calls -/

/-- In parentheses if needed. -/
def wrapO (b : Bool) (ops : List Op) : List Op := if b then word "(" ++ ops ++ word ")" else ops

mutual
/-- The calls that print an expression. -/
def opsE : Expr → List Op
  | .leaf t => word t
  | .attr e id => opsE e ++ (word "." ++ word id)
  | .str t => [.string t.toList]
  | .index e is => opsE e ++ (word "[" ++ (opsArgs is ++ word "]"))
  | .call f args => opsE f ++ (word "(" ++ (opsArgs args ++ word ")"))
  | .list es => word "[" ++ (opsArgs es ++ word "]")
  | .dict es => word "{" ++ (opsEntries es ++ word "}")
  | .named k e => word k ++ (word "=" ++ opsE e)
  | .entry k v => opsE k ++ (word ":" ++ ([.space] ++ opsE v))
  | .bin l o r => wrapO (isBin l) (opsE l) ++ ([.space] ++ (word o.text ++ [.space]) ++ wrapO (isBin r) (opsE r))
  | .not e => (word "not" ++ [.space]) ++ wrapO (isBin e) (opsE e)
  | .inv e => word "~" ++ wrapO (isBin e) (opsE e)
  | .neg e => word ("-" ++ numberText e)
/-- The calls that print arguments. -/
def opsArgs : List Expr → List Op
  | [] => []
  | e :: es => opsE e ++ opsRest es
/-- The calls that print further arguments. -/
def opsRest : List Expr → List Op
  | [] => []
  | e :: es => word "," ++ ([.space] ++ (opsE e ++ opsRest es))
/-- The calls that print the entries of a `dict`. -/
def opsEntries : List Expr → List Op
  | [] => []
  | e :: es => [.newline] ++ ([.incr] ++ ([.indent] ++ (opsE e ++ (opsMore es ++ ([.decr] ++ ([.newline] ++ [.indent]))))))
/-- The calls that print further entries of a `dict`. -/
def opsMore : List Expr → List Op
  | [] => []
  | e :: es => word "," ++ ([.newline] ++ ([.indent] ++ (opsE e ++ opsMore es)))
end

theorem operand_eq {env : PrintEnv} {s : PrintSettings} {e : Expr} {j : Json} (h : Shows e j)
    (hp : printOps env s j = opsE e) : operand env s j = wrapO (isBin e) (opsE e) ∧
    ∃ t, j.getStrForKey "ast_type" = some t := by
  have key : (∃ t, j.getStrForKey "ast_type" = some t) ∧ compound j = isBin e := by
    cases e with
    | leaf t =>
      simp only [Shows, IsA] at h
      rcases h with ⟨h, _⟩ | ⟨h | h, _⟩ | ⟨h, _⟩ | ⟨h, _⟩ <;> exact ⟨⟨_, h⟩, by simp [compound, h, isBin]⟩
    | bin l o r =>
      simp only [Shows, IsA] at h
      obtain ⟨_, h⟩ := h
      split at h
      · exact ⟨⟨_, h.1⟩, by simp [compound, h.1, isBin]⟩
      · rcases h.1 with h | h <;> exact ⟨⟨_, h⟩, by simp [compound, h, isBin]⟩
    | entry k v => simp [Shows] at h
    | neg e =>
      simp only [Shows, IsA] at h
      rcases h with ⟨h, _⟩ | ⟨h, _⟩ <;> exact ⟨⟨_, h⟩, by simp [compound, h, isBin]⟩
    | _ =>
      simp only [Shows, IsA] at h
      exact ⟨⟨_, h.1⟩, by simp [compound, h.1, isBin]⟩
  refine ⟨?_, key.1⟩
  simp only [operand, key.2, hp, wrapO]

theorem printOps_around {env : PrintEnv} {s : PrintSettings} {node : Json} {entry body exit : Ps}
    (h : layout env s node = { entry := entry, body := body, exit := exit }) :
    printOps env s node = expand env.checks (printOps env) (entry ++ (body ++ exit)) := by
  unfold printOps
  rw [ops_eq (good_layout env), pieces_eq, h]
  simp [around]

theorem expand_array (env : PrintEnv) (s : PrintSettings) (xs : List Json) :
    expand env.checks (printOps env) (array s xs) = commaList (xs.map (printOps env s)) :=
  C47_list_calls env.checks (layout env) s xs

theorem showEntries_length : (es : List Expr) → (ks vs : List Json) → ShowEntries es ks vs →
    ks.length = es.length ∧ vs.length = es.length
  | [], [], [], _ => ⟨rfl, rfl⟩
  | .entry k v :: es, a :: as, b :: bs, h => by
    simp only [ShowEntries] at h
    obtain ⟨h1, h2⟩ := showEntries_length es as bs h.2.2
    simp [h1, h2]
  | [], _ :: _, _, h => by simp [ShowEntries] at h
  | [], [], _ :: _, h => by simp [ShowEntries] at h
  | _ :: _, [], _, h => by simp [ShowEntries] at h
  | _ :: _, _ :: _, [], h => by simp [ShowEntries] at h
  | .leaf _ :: _, _ :: _, _ :: _, h => by simp [ShowEntries] at h
  | .str _ :: _, _ :: _, _ :: _, h => by simp [ShowEntries] at h
  | .attr _ _ :: _, _ :: _, _ :: _, h => by simp [ShowEntries] at h
  | .index _ _ :: _, _ :: _, _ :: _, h => by simp [ShowEntries] at h
  | .call _ _ :: _, _ :: _, _ :: _, h => by simp [ShowEntries] at h
  | .list _ :: _, _ :: _, _ :: _, h => by simp [ShowEntries] at h
  | .dict _ :: _, _ :: _, _ :: _, h => by simp [ShowEntries] at h
  | .named _ _ :: _, _ :: _, _ :: _, h => by simp [ShowEntries] at h
  | .bin _ _ _ :: _, _ :: _, _ :: _, h => by simp [ShowEntries] at h
  | .not _ :: _, _ :: _, _ :: _, h => by simp [ShowEntries] at h
  | .inv _ :: _, _ :: _, _ :: _, h => by simp [ShowEntries] at h
  | .neg _ :: _, _ :: _, _ :: _, h => by simp [ShowEntries] at h

mutual
theorem printOps_shows (env : PrintEnv) : (e : Expr) → (j : Json) → (s : PrintSettings) → Shows e j →
    printOps env s j = opsE e
  | .leaf t, j, s, h => by
    simp only [Shows, IsA] at h
    rcases h with ⟨h, h1⟩ | ⟨h | h, h1⟩ | ⟨h, n, h1, rfl⟩ | ⟨h, b, h1, rfl⟩
    · rw [printOps_of (body := strTok "id" j) (by simp [layout, h])]
      simp [strTok, onStr, h1, onSome, tok, expand, opsE, word]
    · rw [printOps_of (body := strTok "value" j) (by simp [layout, h])]
      simp [strTok, onStr, h1, onSome, tok, expand, opsE, word]
    · rw [printOps_of (body := strTok "value" j) (by simp [layout, h])]
      simp [strTok, onStr, h1, onSome, tok, expand, opsE, word]
    · rw [printOps_of (body := intNode env j) (by simp [layout, h])]
      simp only [intNode, h1, tok, expand, opsE, word]
      rfl
    · rw [printOps_of (body := nameConstant j) (by simp [layout, h])]
      cases b <;> simp [nameConstant, onField, h1, onSome, tok, expand, opsE, word]
  | .attr e id, j, s, h => by
    simp only [Shows, IsA] at h
    obtain ⟨h, h1, v, h2, h3⟩ := h
    rw [printOps_of (body := field s "value" j ++ tok "." ++ strTok "attr" j) (by simp [layout, h])]
    simp [field, onField, strTok, onStr, h1, h2, onSome, tok, expand, expand_append, opsE, word,
      printOps_shows env e v s h3]
  | .str t, j, s, h => by
    simp only [Shows, IsA] at h
    rw [printOps_of (body := onStr "value" j fun v => [.op (.string v.toList)]) (by simp [layout, h.1])]
    simp [onStr, h.2, onSome, expand, opsE]
  | .index e is, j, s, h => by
    simp only [Shows, IsA] at h
    obtain ⟨h, ⟨v, h1, h2⟩, x, h3, h4, w, h5, h6⟩ := h
    have hw : printOps env { s with tupleParens := false } w = opsArgs is := by
      rcases h6 with ⟨h6, vs, h7, h8⟩ | h6
      · rw [printOps_of (body := when ({ s with tupleParens := false } : PrintSettings).tupleParens (tok "(") ++
          onArray "elements" w (array { s with tupleParens := false }) ++
          when ({ s with tupleParens := false } : PrintSettings).tupleParens (tok ")")) (by simp [layout, h6])]
        simp only [when, Bool.false_eq_true, if_false, List.nil_append, List.append_nil, onArray, onField, h7, onSome,
          Json.asArray, expand_array]
        exact printOps_args env is vs _ h8
      · have := printOps_args env is [w] { s with tupleParens := false } h6
        simpa [commaList_cons, commaList, List.intercalate] using this
    have hx : printOps env s x = word "[" ++ (opsArgs is ++ word "]") := by
      rw [printOps_of (body := tok "[" ++ field { s with tupleParens := false } "value" x ++ tok "]")
        (by simp [layout, h4])]
      simp [field, onField, h5, onSome, tok, expand, expand_append, word, hw]
    rw [printOps_of (body := field s "value" j ++ field s "slice" j) (by simp [layout, h])]
    simp [field, onField, h1, h3, onSome, expand, expand_append, opsE, printOps_shows env e v s h2, hx]
  | .call f args, j, s, h => by
    simp only [Shows, IsA] at h
    obtain ⟨h, ⟨v, h1, h2⟩, vs, ks, h3, h4, h5, h6⟩ := h
    rw [C55_call_partial env s j v vs ks h h1 h3 h4 h5,
      printOps_shows env f v s h2, printOps_args env args (vs ++ ks) s h6]
    simp [opsE]
  | .list es, j, s, h => by
    simp only [Shows, IsA] at h
    obtain ⟨h, vs, h1, h2⟩ := h
    rw [printOps_of (body := tok "[" ++ onArray "elements" j (array s) ++ tok "]") (by simp [layout, h])]
    simp [onArray, onField, h1, onSome, tok, expand, expand_append, word, expand_array, Json.asArray,
      printOps_args env es vs s h2, opsE]
  | .dict es, j, s, h => by
    simp only [Shows, IsA] at h
    obtain ⟨h, ks, vs, h1, h2, h3⟩ := h
    obtain ⟨h4, h5⟩ := showEntries_length es ks vs h3
    rw [printOps_around (entry := tok "{") (body := dict s j) (exit := tok "}") (by simp [layout, h])]
    simp only [VyPrint.dict, onArray, onField, h1, h2, onSome, Json.asArray, h4, h5, ne_eq, not_true_eq_false, if_false, opsE]
    have := printOps_entries env es ks vs s 0 es.length h3 (by simp)
    cases es with
    | nil =>
      cases ks with
      | nil => simp [when, opsEntries, expand, tok, word]
      | cons _ _ => simp at h4
    | cons e es =>
      have hne : ks.isEmpty = false := by
        cases ks with
        | nil => simp at h4
        | cons _ _ => rfl
      simp only [hne, when, Bool.not_false, if_true, expand_append, this]
      simp [expand, tok, word, nl, inc, dec, ind, opsEntries]
  | .named k e, j, s, h => by
    simp only [Shows, IsA] at h
    obtain ⟨h, h1, v, h2, h3⟩ := h
    rw [printOps_of (body := keyword s j) (by simp [layout, h])]
    simp [keyword, onStr, field, onField, h1, h2, onSome, tok, expand, expand_append, opsE, word, printOps_shows env e v s h3]
  | .entry k v, j, s, h => by simp [Shows] at h
  | .bin l o r, j, s, h => by
    simp only [Shows, IsA] at h
    obtain ⟨⟨x, h1, h2⟩, h⟩ := h
    split at h
    · next hb =>
      obtain ⟨h3, a, b, h4, h5, h6⟩ := h
      obtain ⟨h7, ta, h8⟩ := operand_eq h5 (printOps_shows env l a s h5)
      obtain ⟨h9, tb, h10⟩ := operand_eq h6 (printOps_shows env r b s h6)
      rw [C55_bool_partial env s j a x b ta tb o.text h3 h4 h8 h10 h1 (by
        cases o <;> first | cases hb; done | (simp only [Operator.type] at h2; simp [h2, Operator.text])), h7, h9]
      simp [opsE]
    · next hb =>
      obtain ⟨h3, ⟨a, h4, h5⟩, b, h6, h7⟩ := h
      obtain ⟨h8, ta, h9⟩ := operand_eq h5 (printOps_shows env l a s h5)
      obtain ⟨h10, tb, h11⟩ := operand_eq h7 (printOps_shows env r b s h7)
      rw [C55_binary_partial env s j a x b o ta tb h3 h4 h9 h6 h11 h1 h2 (by simpa using hb), h8, h10]
      simp [opsE]
  | .not e, j, s, h => by
    simp only [Shows, IsA] at h
    obtain ⟨h, ⟨x, h1, h2⟩, a, h3, h4⟩ := h
    obtain ⟨h5, t, h6⟩ := operand_eq h4 (printOps_shows env e a s h4)
    rw [(C55_unary_partial env s j a x t h h3 h6 h1).1 h2, h5, opsE]
  | .inv e, j, s, h => by
    simp only [Shows, IsA] at h
    obtain ⟨h, ⟨x, h1, h2⟩, a, h3, h4⟩ := h
    obtain ⟨h5, t, h6⟩ := operand_eq h4 (printOps_shows env e a s h4)
    rw [(C55_unary_partial env s j a x t h h3 h6 h1).2 h2, h5, opsE]
  | .neg e, j, s, h => by
    simp only [Shows, IsA] at h
    rcases h with ⟨h, n, h1, rfl⟩ | ⟨h, t, h1, rfl⟩
    · rw [printOps_of (body := intNode env j) (by simp [layout, h])]
      simp only [intNode, h1, tok, expand, opsE, word, numberText]
      rfl
    · rw [printOps_of (body := strTok "value" j) (by simp [layout, h])]
      simp [strTok, onStr, h1, onSome, tok, expand, opsE, word, numberText]
theorem printOps_args (env : PrintEnv) : (es : List Expr) → (js : List Json) → (s : PrintSettings) →
    ShowAll es js → commaList (js.map (printOps env s)) = opsArgs es
  | [], [], _, _ => rfl
  | [], _ :: _, _, h => by simp [ShowAll] at h
  | _ :: _, [], _, h => by simp [ShowAll] at h
  | e :: es, j :: js, s, h => by
    simp only [ShowAll] at h
    rw [List.map_cons, commaList_cons, printOps_shows env e j s h.1, List.append_assoc,
      printOps_rest env es js s h.2, opsArgs]
theorem printOps_rest (env : PrintEnv) : (es : List Expr) → (js : List Json) → (s : PrintSettings) →
    ShowAll es js → (if (js.map (printOps env s)).isEmpty then [] else word "," ++ [Op.space]) ++
      commaList (js.map (printOps env s)) = opsRest es
  | [], [], _, _ => rfl
  | [], _ :: _, _, h => by simp [ShowAll] at h
  | _ :: _, [], _, h => by simp [ShowAll] at h
  | e :: es, j :: js, s, h => by
    simp only [ShowAll] at h
    have h1 := printOps_rest env es js s h.2
    rw [List.map_cons, commaList_cons, printOps_shows env e j s h.1, List.append_assoc, h1, opsRest]
    simp
theorem printOps_entries (env : PrintEnv) : (es : List Expr) → (ks vs : List Json) → (s : PrintSettings) → (i len : Nat) →
    ShowEntries es ks vs → i + es.length = len →
    expand env.checks (printOps env) (dictLoop s len i ks vs) = match es with
      | [] => []
      | e :: es => [.indent] ++ (opsE e ++ opsMore es)
  | [], [], [], _, _, _, _, _ => by simp [dictLoop, expand]
  | .entry k v :: es, a :: as, b :: bs, s, i, len, h, hi => by
    simp only [ShowEntries] at h
    have ih := printOps_entries env es as bs s (i + 1) len h.2.2 (by simp at hi; omega)
    simp only [dictLoop, expand_append, ih]
    cases es with
    | nil =>
      have : ¬ i < len - 1 := by simp at hi; omega
      simp [when, this, expand, ind, tok, sp, opsE, opsMore, word, printOps_shows env k a s h.1, printOps_shows env v b s h.2.1]
    | cons e es =>
      have : i < len - 1 := by simp at hi; omega
      simp [when, this, expand, ind, tok, sp, nl, opsE, opsMore, word, printOps_shows env k a s h.1, printOps_shows env v b s h.2.1]
  | [], _ :: _, _, _, _, _, h, _ => by simp [ShowEntries] at h
  | [], [], _ :: _, _, _, _, h, _ => by simp [ShowEntries] at h
  | _ :: _, [], _, _, _, _, h, _ => by simp [ShowEntries] at h
  | _ :: _, _ :: _, [], _, _, _, h, _ => by simp [ShowEntries] at h
  | .leaf _ :: _, _ :: _, _ :: _, _, _, _, h, _ => by simp [ShowEntries] at h
  | .str _ :: _, _ :: _, _ :: _, _, _, _, h, _ => by simp [ShowEntries] at h
  | .attr _ _ :: _, _ :: _, _ :: _, _, _, _, h, _ => by simp [ShowEntries] at h
  | .index _ _ :: _, _ :: _, _ :: _, _, _, _, h, _ => by simp [ShowEntries] at h
  | .call _ _ :: _, _ :: _, _ :: _, _, _, _, h, _ => by simp [ShowEntries] at h
  | .list _ :: _, _ :: _, _ :: _, _, _, _, h, _ => by simp [ShowEntries] at h
  | .dict _ :: _, _ :: _, _ :: _, _, _, _, h, _ => by simp [ShowEntries] at h
  | .named _ _ :: _, _ :: _, _ :: _, _, _, _, h, _ => by simp [ShowEntries] at h
  | .bin _ _ _ :: _, _ :: _, _ :: _, _, _, _, h, _ => by simp [ShowEntries] at h
  | .not _ :: _, _ :: _, _ :: _, _, _, _, h, _ => by simp [ShowEntries] at h
  | .inv _ :: _, _ :: _, _ :: _, _, _, _, h, _ => by simp [ShowEntries] at h
  | .neg _ :: _, _ :: _, _ :: _, _, _, _, h, _ => by simp [ShowEntries] at h
end

/-! ### What is called -/

theorem written_word (t : String) : Written false (word t) := (simple_token _).written

theorem written_one {o : Op} (h : o = .newline ∨ o = .indent ∨ o = .incr ∨ o = .decr ∨ o = .space ∨ ∃ t, o = .string t) :
    Written false [o] := by
  intro x hx
  rw [List.mem_singleton.1 hx]
  rcases h with h | h | h | h | h | h <;> simp [h]

theorem written_nil : Written false [] := fun _ h => by cases h

theorem written_wrapO {b : Bool} {ops : List Op} (h : Written false ops) : Written false (wrapO b ops) := by
  unfold wrapO
  split
  · exact ((written_word _).append h).append (written_word _)
  · exact h

mutual
theorem written_opsE : (e : Expr) → Written false (opsE e)
  | .leaf t => by rw [opsE]; exact written_word t
  | .str t => by rw [opsE]; exact written_one (by simp)
  | .attr e id => by rw [opsE]; exact (written_opsE e).append ((written_word _).append (written_word _))
  | .index e i => by
    rw [opsE]; exact (written_opsE e).append ((written_word _).append ((written_opsArgs i).append (written_word _)))
  | .call f args => by
    rw [opsE]; exact (written_opsE f).append ((written_word _).append ((written_opsArgs args).append (written_word _)))
  | .list es => by rw [opsE]; exact (written_word _).append ((written_opsArgs es).append (written_word _))
  | .dict es => by rw [opsE]; exact (written_word _).append ((written_opsEntries es).append (written_word _))
  | .named k e => by rw [opsE]; exact (written_word _).append ((written_word _).append (written_opsE e))
  | .entry k v => by
    rw [opsE]; exact (written_opsE k).append ((written_word _).append (simple_space.written.append (written_opsE v)))
  | .bin l o r => by
    rw [opsE]
    exact (written_wrapO (written_opsE l)).append ((simple_space.written.append ((written_word _).append
      simple_space.written)).append (written_wrapO (written_opsE r)))
  | .not e => by rw [opsE]; exact ((written_word _).append simple_space.written).append (written_wrapO (written_opsE e))
  | .inv e => by rw [opsE]; exact (written_word _).append (written_wrapO (written_opsE e))
  | .neg e => by rw [opsE]; exact written_word _
theorem written_opsArgs : (es : List Expr) → Written false (opsArgs es)
  | [] => by rw [opsArgs]; exact written_nil
  | e :: es => by rw [opsArgs]; exact (written_opsE e).append (written_opsRest es)
theorem written_opsRest : (es : List Expr) → Written false (opsRest es)
  | [] => by rw [opsRest]; exact written_nil
  | e :: es => by
    rw [opsRest]
    exact (written_word _).append (simple_space.written.append ((written_opsE e).append (written_opsRest es)))
theorem written_opsEntries : (es : List Expr) → Written false (opsEntries es)
  | [] => by rw [opsEntries]; exact written_nil
  | e :: es => by
    rw [opsEntries]
    exact (written_one (by simp)).append ((written_one (by simp)).append ((written_one (by simp)).append
      ((written_opsE e).append ((written_opsMore es).append ((written_one (by simp)).append ((written_one (by simp)).append
        (written_one (by simp))))))))
theorem written_opsMore : (es : List Expr) → Written false (opsMore es)
  | [] => by rw [opsMore]; exact written_nil
  | e :: es => by
    rw [opsMore]
    exact (written_word _).append ((written_one (by simp)).append ((written_one (by simp)).append
      ((written_opsE e).append (written_opsMore es))))
end

/-! ### Tokens of the text -/

theorem ends_of {t : List Char} (h1 : joins t ' ' = false) (h2 : joins t '\n' = false) : Ends lexer t := by
  intro b hb _
  unfold blank at hb
  simp only [Bool.or_eq_true, beq_iff_eq] at hb
  rcases hb with rfl | rfl
  · exact h1
  · exact h2

/-- The text is one token, which blanks end. -/
def isWord (t : String) : Bool :=
  solid lexer [] t.toList && !t.toList.isEmpty && !VyGrammar.comment t.toList && !joins t.toList ' ' && !joins t.toList '\n'

theorem lexes_isWord {P : Char → Prop} {t : String} (h : isWord t = true) (hj : ∀ c, P c → joins t.toList c = false) :
    Lexes lexer (word t) [t] P := by
  simp only [isWord, Bool.and_eq_true, Bool.not_eq_true', List.isEmpty_eq_false_iff] at h
  exact lexes_word h.1.1.1.1 h.1.1.1.2 h.1.1.2 (ends_of h.1.2 h.2) hj

/-- Tokens of one character that nothing joins. -/
def symbols : List Char := ['(', ')', '[', ']', ',', '.', '~', ':', '{', '}', '@']

theorem joins_symbol {d : Char} (hd : d ∈ symbols) (c : Char) : joins [d] c = false := by
  simp only [symbols, List.mem_cons, List.not_mem_nil, or_false] at hd
  rcases hd with rfl | rfl | rfl | rfl | rfl | rfl | rfl | rfl | rfl | rfl | rfl <;> simp [joins, wordChar, pairs]

theorem lexes_symbol {t : String} {d : Char} (ht : t.toList = [d]) (hd : d ∈ symbols)
    (P : Char → Prop) : Lexes lexer (word t) [t] P := by
  refine lexes_isWord ?_ (by simpa [ht] using fun c _ => joins_symbol hd c)
  unfold isWord
  rw [ht]
  simp only [symbols, List.mem_cons, List.not_mem_nil, or_false] at hd
  rcases hd with rfl | rfl | rfl | rfl | rfl | rfl | rfl | rfl | rfl | rfl | rfl <;> decide

/-- What may follow an expression without white space. -/
def Follows (p : Bool) (c : Char) : Prop := c ∈ [')', ']', ',', '=', ':', '}'] ∨ (p = true ∧ c ∈ ['(', '[', '.'])

/-- What an expression may begin with. -/
def Begin (c : Char) : Prop := c ≠ '='

theorem leaf_chars {t : String} (h : isLeaf t = true) : ∃ c cs, t.toList = c :: cs ∧ wordChar c = true ∧
    ∀ d ∈ cs, wordChar d = true ∨ (c.isDigit = true ∧ d = '.') := by
  unfold isLeaf at h
  simp only [Bool.and_eq_true] at h
  obtain ⟨h, _⟩ := h
  cases ht : t.toList with
  | nil => rw [ht] at h; cases h
  | cons c cs =>
    rw [ht] at h
    simp only [Bool.and_eq_true, List.all_eq_true, Bool.or_eq_true, beq_iff_eq] at h
    exact ⟨c, cs, rfl, h.1, h.2⟩

theorem wordChar_not_blank {c : Char} (h : wordChar c = true) : blank c = false := by
  cases hb : blank c with
  | false => rfl
  | true =>
    unfold blank at hb
    simp only [Bool.or_eq_true, beq_iff_eq] at hb
    rcases hb with rfl | rfl <;> exact absurd h (by decide)

theorem leaf_solid {t : String} (h : isLeaf t = true) : solid lexer [] t.toList = true := by
  obtain ⟨c, cs, ht, hc, hcs⟩ := leaf_chars h
  have key : ∀ ds cur, (∀ d ∈ ds, wordChar d = true ∨ (c.isDigit = true ∧ d = '.')) → cur.head? = some c →
      solid lexer cur ds = true := by
    intro ds
    induction ds with
    | nil => intros; rfl
    | cons d ds ih =>
      intro cur hds hcur
      have hd := hds d (List.mem_cons_self ..)
      cases cur with
      | nil => cases hcur
      | cons x cur =>
        cases hcur
        simp only [solid, lexer, List.isEmpty_cons, Bool.false_eq_true, if_false, joins, hc, if_true, Bool.and_eq_true, Bool.or_eq_true, beq_iff_eq]
        exact ⟨hd, ih _ (fun e he => hds e (List.mem_cons_of_mem _ he)) rfl⟩
  rw [ht]
  simp only [solid, wordChar_not_blank hc, List.isEmpty_nil, if_true, Bool.not_false, Bool.true_and]
  exact key cs [c] hcs rfl

theorem leaf_joins {c d : Char} {cs : List Char} (hc : wordChar c = true) (hd : wordChar d = false)
    (hx : d = '.' → c.isDigit = false) : joins (c :: cs) d = false := by
  simp only [joins, hc, if_true, hd, Bool.false_or]
  by_cases h2 : d = '.'
  · simp [hx h2]
  · simp [h2]

theorem lexes_leaf {t : String} (h : isLeaf t = true) : Lexes lexer (word t) [t] (Follows (isName t)) := by
  obtain ⟨c, cs, ht, hc, hcs⟩ := leaf_chars h
  have hk : VyGrammar.comment t.toList = false := by
    rw [ht]
    unfold VyGrammar.comment
    split
    · rename_i he; cases he; exact absurd hc (by decide)
    · rfl
  refine lexes_word (leaf_solid h) (by simp [ht]) hk (ends_of ?_ ?_) fun d hd => ?_
  · rw [ht]; exact leaf_joins hc (by decide) fun h => absurd h (by decide)
  · rw [ht]; exact leaf_joins hc (by decide) fun h => absurd h (by decide)
  rw [ht]
  show joins (c :: cs) d = false
  have hdigit : isName t = true → c.isDigit = false := by
    intro hn
    unfold isName at hn
    rw [ht] at hn
    simpa [h] using hn
  simp only [Follows, List.mem_cons, List.not_mem_nil, or_false] at hd
  rcases hd with (rfl | rfl | rfl | rfl | rfl | rfl) | ⟨hp, rfl | rfl | rfl⟩
  all_goals first
    | exact leaf_joins hc (by decide) (fun h => absurd h (by decide))
    | exact leaf_joins hc (by decide) fun _ => hdigit hp

theorem follows_true {p : Bool} {c : Char} (h : Follows p c) : Follows true c := h.imp id fun h => ⟨rfl, h.2⟩

theorem follows_false {p : Bool} {c : Char} (h : Follows false c) : Follows p c := by
  rcases h with h | ⟨h, _⟩
  · exact Or.inl h
  · cases h

/-! Strings -/

theorem inString_unescaped : (t : List Char) → (∀ c ∈ t, unescaped c = true) → inString t = true
  | [], _ => rfl
  | c :: t, h => by
    have hc := h c (List.mem_cons_self ..)
    have ih := inString_unescaped t fun d hd => h d (List.mem_cons_of_mem _ hd)
    simp only [unescaped, Bool.and_eq_true, bne_iff_ne] at hc
    rw [inString.eq_def]
    split
    · rfl
    · rename_i he; cases he; exact absurd rfl hc.1.2
    · rename_i he
      cases he
      simp [ih, hc.1.1]

theorem inString_closed : (t : List Char) → (∀ c ∈ t, unescaped c = true) → inString (t ++ ['"']) = false
  | [], _ => by decide
  | c :: t, h => by
    have hc := h c (List.mem_cons_self ..)
    have ih := inString_closed t fun d hd => h d (List.mem_cons_of_mem _ hd)
    simp only [unescaped, Bool.and_eq_true, bne_iff_ne] at hc
    rw [List.cons_append, inString.eq_def]
    split
    · rename_i he; cases he
    · rename_i he; injection he with he; exact absurd he hc.1.2
    · rename_i he
      cases he
      simp [ih]

theorem quotes_eq {ds : List Char} {c : Char} (h : ds.head? ≠ some '"') : quotes ds c = inString ds := by
  unfold quotes
  split
  · exact absurd rfl h
  · exact absurd rfl h
  · rfl

theorem head_unescaped {t : List Char} (h : ∀ c ∈ t, unescaped c = true) : t.head? ≠ some '"' := by
  cases t with
  | nil => simp
  | cons c t =>
    simp only [List.head?_cons, ne_eq, Option.some.injEq]
    rintro rfl
    exact absurd (h '"' (by simp)) (by decide)

theorem solid_string : (t cur : List Char) → (∀ c ∈ cur, unescaped c = true) → (∀ c ∈ t, unescaped c = true) →
    solid lexer ('"' :: cur) (t ++ ['"']) = true
  | [], cur, hc, _ => by
    simp [solid, lexer, joins, wordChar, quotes_eq (head_unescaped hc), inString_unescaped cur hc]
  | c :: t, cur, hc, h => by
    have ih := solid_string t (cur ++ [c]) (fun d hd => by
      rcases List.mem_append.1 hd with hd | hd
      · exact hc d hd
      · exact h d (by simp_all)) fun d hd => h d (List.mem_cons_of_mem _ hd)
    simp only [List.cons_append, solid, Bool.and_eq_true]
    exact ⟨by simp [lexer, joins, wordChar, quotes_eq (head_unescaped hc), inString_unescaped cur hc], ih⟩

theorem joins_string {t : List Char} (h : ∀ c ∈ t, unescaped c = true) {c : Char} (hc : c ≠ '"') :
    joins ('"' :: (t ++ ['"'])) c = false := by
  cases t with
  | nil => simp [joins, wordChar, quotes, hc]
  | cons d t =>
    have hd : (d :: t ++ ['"']).head? ≠ some '"' := by simpa using head_unescaped h
    simp only [joins, wordChar, quotes_eq hd, inString_closed _ h]
    simp

theorem tokens_string {t : String} (h : ∀ c ∈ t.toList, unescaped c = true) {rest : List Char}
    (hn : Next (fun c => c ≠ '"') rest) :
    Lex.tokens lexer ('"' :: (t.toList ++ ['"']) ++ rest) [] = quoted t :: Lex.tokens lexer rest [] := by
  have := tokens_one (L := lexer) (P := fun c => c ≠ '"') (t := '"' :: (t.toList ++ ['"'])) (rest := rest)
    (by simpa [solid, blank] using solid_string t.toList [] (by simp) h) (by simp) (by simp [lexer, VyGrammar.comment])
    (fun b hb _ => joins_string h (by rintro rfl; exact absurd hb (by decide))) (fun c hc => joins_string h hc) hn
  simpa [quoted, String.append_assoc] using this

theorem lexes_string {t : String} (h : ∀ c ∈ t.toList, unescaped c = true) :
    Lexes lexer [.string t.toList] [quoted t] (fun c => c ≠ '"') := by
  intro text rest hs hn
  cases hs with
  | string w u hw hs =>
    cases hs
    rw [List.append_nil, List.append_assoc, tokens_gap hw]
    exact tokens_string h hn

theorem starts_string (t : String) (ops : List Op) : Starts ([.string t.toList] ++ ops) Begin := by
  intro text rest hs
  cases hs with
  | string w u hw hs =>
    rw [List.append_assoc]
    refine next_gap hw ?_
    intro c cs hc
    cases hc
    exact Or.inr ⟨by decide, fun h => absurd h (by decide)⟩

theorem follows_ne {p : Bool} {c : Char} (h : Follows p c) : c ≠ '"' := by
  rintro rfl
  rcases h with h | ⟨_, h⟩ <;> exact absurd h (by decide)

/-! Layout -/

theorem lexes_newline {P : Char → Prop} : Lexes lexer [.newline] [] P := by
  intro text rest hs _
  cases hs with
  | newline w hw _ h =>
    cases h
    rw [List.append_assoc, tokens_gap hw]
    simp [Lex.tokens, blank, emit]

theorem starts_newline {P : Char → Prop} (ops : List Op) : Starts ([Op.newline] ++ ops) P := by
  intro text rest h
  obtain ⟨s, t, rfl, h1, _⟩ := spread_append h
  cases h1 with
  | newline w hw _ h =>
    rw [List.append_assoc, List.append_assoc]
    refine next_gap hw ?_
    intro c cs hc
    cases hc
    exact Or.inl rfl

theorem lexes_indent {P : Char → Prop} {ops : List Op} {ts : List String} (h : Lexes lexer ops ts P) :
    Lexes lexer ([.indent] ++ ops) ts P := by
  intro text rest hs hn
  cases hs with
  | indent w hw hs =>
    rw [List.append_assoc, tokens_gap hw]
    exact h _ _ hs hn

theorem lexes_incr {P : Char → Prop} {ops : List Op} {ts : List String} (h : Lexes lexer ops ts P) :
    Lexes lexer ([.incr] ++ ops) ts P := by
  intro text rest hs hn
  cases hs with
  | incr hs => exact h _ _ hs hn

theorem lexes_decr {P : Char → Prop} {ops : List Op} {ts : List String} (h : Lexes lexer ops ts P) :
    Lexes lexer ([.decr] ++ ops) ts P := by
  intro text rest hs hn
  cases hs with
  | decr hs => exact h _ _ hs hn

theorem starts_decr {P : Char → Prop} {ops : List Op} (h : Starts ops P) : Starts ([Op.decr] ++ ops) P := by
  intro text rest hs
  cases hs with
  | decr hs => exact h _ _ hs

/-! Operators -/

/-- Nothing but white space. -/
def Blank (_ : Char) : Prop := False

theorem tokens_wordBlank {t : String} (h : isWord t = true) {rest : List Char} (hn : Next Blank rest) :
    Lex.tokens lexer (t.toList ++ rest) [] = t :: Lex.tokens lexer rest [] := by
  simp only [isWord, Bool.and_eq_true, Bool.not_eq_true', List.isEmpty_eq_false_iff] at h
  have := tokens_one (L := lexer) (P := Blank) h.1.1.1.1 h.1.1.1.2 h.1.1.2 (ends_of h.1.2 h.2) (fun c hc => hc.elim) hn
  simpa using this

theorem lexes_operator (o : Operator) : Lexes lexer (word o.text) o.words Blank := by
  by_cases ho : o = .notIn
  · subst ho
    intro text rest hs hn
    cases hs with
    | token w u hw h =>
      cases h
      rw [List.append_nil, List.append_assoc, tokens_gap hw]
      have h1 := tokens_wordBlank (t := "not") (by decide) (rest := ' ' :: ("in".toList ++ rest)) (by
        intro c cs hc
        cases hc
        exact Or.inl rfl)
      have h2 := tokens_wordBlank (t := "in") (by decide) hn
      have h3 : Lex.tokens lexer (' ' :: ("in".toList ++ rest)) [] = Lex.tokens lexer ("in".toList ++ rest) [] := by
        simp [Lex.tokens, blank, emit]
      rw [h3, h2] at h1
      exact h1
  · have hw : o.words = [o.text] := by cases o <;> first | rfl | exact absurd rfl ho
    rw [hw]
    exact lexes_isWord (by cases o <;> first | decide | exact absurd rfl ho) fun c hc => hc.elim

theorem lexes_wordSpace {ops : List Op} {ts : List String} {P : Char → Prop} (h : Lexes lexer ops ts Blank) :
    Lexes lexer (ops ++ [.space]) ts P := by
  have := lexes_append h (lexes_space (P := P)) (starts_space [])
  simpa using this

theorem starts_mono {ops : List Op} {P Q : Char → Prop} (h : Starts ops P) (hpq : ∀ c, P c → Q c) : Starts ops Q :=
  fun text rest hs => (h text rest hs).mono hpq

theorem starts_wrapO {b : Bool} {ops : List Op} (h : Starts ops Begin) : Starts (wrapO b ops) Begin := by
  unfold wrapO
  split
  · rw [List.append_assoc]
    exact starts_token (t := "(") (c := '(') rfl (by decide) (fun h => absurd h (by decide)) _
  · exact h

theorem starts_leaf {t : String} (h : isLeaf t = true) : Starts (word t) Begin := by
  obtain ⟨c, cs, ht, hc, _⟩ := leaf_chars h
  refine starts_word ht (wordChar_not_blank hc) ?_
  rintro rfl
  exact absurd hc (by decide)

/-- A token may be written in two parts. -/
theorem spread_parts {a b : String} {text : List Char} (h : Spread (word (a ++ b)) text) : Spread (word a ++ word b) text := by
  unfold word at h ⊢
  cases h with
  | token w t hw hs =>
    cases hs
    rw [String.toList_append, List.append_nil]
    have := Spread.token w a.toList hw (Spread.token [] b.toList (by intro c hc; cases hc) .nil)
    simpa using this

theorem starts_wordChar {t : String} (h : isLeaf t = true) : Starts (word t) fun c => wordChar c = true := by
  obtain ⟨c, cs, ht, hc, _⟩ := leaf_chars h
  exact starts_word ht (wordChar_not_blank hc) hc

theorem joins_minus (c : Char) (hc : wordChar c = true) : joins ['-'] c = false := by
  have h1 : c ≠ '>' := by rintro rfl; exact absurd hc (by decide)
  have h2 : c ≠ '=' := by rintro rfl; exact absurd hc (by decide)
  simp [joins, pairs, h1, h2, wordChar]

theorem starts_opsE : (e : Expr) → Plain e → Starts (opsE e) Begin
  | .leaf t, h => by
    rw [opsE]
    exact starts_leaf (by simpa [Plain] using h)
  | .str t, h => by rw [opsE]; simpa using starts_string t []
  | .attr e id, h => by simp only [Plain] at h; rw [opsE]; exact (starts_opsE e h.2.2).append _
  | .index e i, h => by simp only [Plain] at h; rw [opsE]; exact (starts_opsE e h.2.1).append _
  | .call e i, h => by simp only [Plain] at h; rw [opsE]; exact (starts_opsE e h.2.1).append _
  | .list es, _ => by rw [opsE]; exact starts_token (t := "[") (c := '[') rfl (by decide) (fun h => absurd h (by decide)) _
  | .dict es, _ => by rw [opsE]; exact starts_token (t := "{") (c := '{') rfl (by decide) (fun h => absurd h (by decide)) _
  | .named k e, h => by
    simp only [Plain] at h
    rw [opsE]
    exact (starts_leaf (isName_leaf h.1)).append _
  | .entry k v, h => by simp only [Plain] at h; rw [opsE]; exact (starts_opsE k h.2.1).append _
  | .bin l o r, h => by
    simp only [Plain] at h
    rw [opsE]
    exact (starts_wrapO (starts_opsE l h.1)).append _
  | .not e, _ => by
    rw [opsE, List.append_assoc]
    exact starts_token (t := "not") (c := 'n') rfl (by decide) (fun h => absurd h (by decide)) _
  | .inv e, _ => by rw [opsE]; exact starts_token (t := "~") (c := '~') rfl (by decide) (fun h => absurd h (by decide)) _
  | .neg e, _ => by
    rw [opsE]
    exact starts_word (c := '-') (by rw [String.toList_append]; rfl) (by decide) (fun h => absurd h (by decide))

theorem lexes_wrapO {b : Bool} {e : Expr} {p : Bool} (h : Lexes lexer (opsE e) (strE e) (Follows p)) (hs : Starts (opsE e) Begin) :
    Lexes lexer (wrapO b (opsE e)) (wrap b (strE e)) (Follows p) := by
  unfold wrapO wrap
  split
  · have h1 : Lexes lexer (word "(") ["("] Any := lexes_symbol (d := '(') rfl (by decide) _
    have h2 : Lexes lexer (word ")") [")"] (Follows p) := lexes_symbol (d := ')') rfl (by decide) _
    have h3 := lexes_append (lexes_append h1 h hs.any) h2 (starts_word (c := ')') rfl (by decide) (Or.inl (by decide)))
    simpa using h3
  · exact h

/-- Between brackets. -/
theorem lexes_enclosed {l r : String} {x y : Char} (hl : l.toList = [x]) (hr : r.toList = [y]) (hx : x ∈ symbols)
    (hy : y ∈ [')', ']', '}']) {ops : List Op} {ts : List String} (h : Lexes lexer ops ts (Follows false))
    (hs : Starts (ops ++ word r) Any) (P : Char → Prop) : Lexes lexer (word l ++ (ops ++ word r)) (l :: (ts ++ [r])) P := by
  have hy' : y ∈ symbols ∧ blank y = false ∧ Follows false y := by
    simp only [List.mem_cons, List.not_mem_nil, or_false] at hy
    rcases hy with rfl | rfl | rfl <;> exact ⟨by decide, by decide, Or.inl (by decide)⟩
  exact lexes_append (lexes_symbol hl hx Any) (lexes_append h (lexes_symbol hr hy'.1 _) (starts_word hr hy'.2.1 hy'.2.2)) hs

theorem starts_args {close : String} {c : Char} (hc : close.toList = [c]) (hb : blank c = false) {es : List Expr} {k : String}
    (h : PlainAll k es) : Starts (opsArgs es ++ word close) Any := by
  cases es with
  | nil => rw [opsArgs]; exact starts_word hc hb trivial
  | cons a as =>
    simp only [PlainAll] at h
    rw [opsArgs, List.append_assoc]
    exact ((starts_opsE a h.2.1).append _).any

mutual
theorem lexes_opsE : (e : Expr) → Plain e → Lexes lexer (opsE e) (strE e) (Follows (primary e))
  | .leaf t, h => by
    rw [opsE, strE]
    exact lexes_leaf (by simpa [Plain] using h)
  | .str t, h => by
    rw [opsE, strE]
    exact lexes_mono (lexes_string (by simpa [Plain] using h)) fun c => follows_ne
  | .attr e id, h => by
    simp only [Plain] at h
    obtain ⟨hp, hid, he⟩ := h
    have ih := lexes_opsE e he
    rw [hp] at ih
    rw [opsE, strE]
    have hl := lexes_leaf (isName_leaf hid)
    rw [hid] at hl
    exact lexes_append ih (lexes_append (lexes_symbol (d := '.') rfl (by decide) Any) hl
      (starts_leaf (isName_leaf hid)).any) (starts_token (c := '.') rfl (by decide) (Or.inr ⟨rfl, by decide⟩) _)
  | .index e is, h => by
    simp only [Plain] at h
    obtain ⟨hp, he, _, hi⟩ := h
    have ih := lexes_opsE e he
    rw [hp] at ih
    rw [opsE, strE]
    exact lexes_append ih (lexes_enclosed (x := '[') (y := ']') rfl rfl (by decide) (by decide) (lexes_opsArgs "]" is hi)
      (starts_args (c := ']') rfl (by decide) hi) _)
      (starts_token (c := '[') rfl (by decide) (Or.inr ⟨rfl, by decide⟩) _)
  | .call f args, h => by
    simp only [Plain] at h
    obtain ⟨hp, he, ha⟩ := h
    have ih := lexes_opsE f he
    rw [hp] at ih
    rw [opsE, strE]
    exact lexes_append ih (lexes_enclosed (x := '(') (y := ')') rfl rfl (by decide) (by decide) (lexes_opsArgs ")" args ha)
      (starts_args (c := ')') rfl (by decide) ha) _)
      (starts_token (c := '(') rfl (by decide) (Or.inr ⟨rfl, by decide⟩) _)
  | .list es, h => by
    simp only [Plain] at h
    rw [opsE, strE]
    exact lexes_enclosed (x := '[') (y := ']') rfl rfl (by decide) (by decide) (lexes_opsArgs "]" es h)
      (starts_args (c := ']') rfl (by decide) h) _
  | .dict es, h => by
    simp only [Plain] at h
    rw [opsE, strE]
    refine lexes_enclosed (x := '{') (y := '}') rfl rfl (by decide) (by decide) (lexes_opsEntries es h) ?_ _
    cases es with
    | nil => rw [opsEntries]; exact starts_word (c := '}') rfl (by decide) trivial
    | cons e es => rw [opsEntries, List.append_assoc]; exact starts_newline _
  | .named k e, h => by
    simp only [Plain] at h
    rw [opsE, strE]
    have hk := lexes_leaf (isName_leaf h.1)
    have heq : Lexes lexer (word "=") ["="] Begin := lexes_isWord (by decide) fun c hc => by
      have : c ≠ '=' := hc
      simp [joins, wordChar, pairs, this]
    exact lexes_append hk (lexes_append heq (lexes_mono (lexes_opsE e h.2.2) fun c => follows_false) (starts_opsE e h.2.2))
      (starts_token (c := '=') rfl (by decide) (Or.inl (by decide)) _)
  | .entry k v, h => by
    simp only [Plain] at h
    rw [opsE, strE]
    exact lexes_append (lexes_opsE k h.2.1) (lexes_append (lexes_symbol (d := ':') rfl (by decide) Any)
      (by
        have := lexes_append (P := Any) lexes_space (lexes_mono (lexes_opsE v h.2.2.2) fun c => follows_false)
          (starts_opsE v h.2.2.2).any
        exact this) (starts_space _))
      (starts_token (c := ':') rfl (by decide) (Or.inl (by decide)) _)
  | .bin l o r, h => by
    simp only [Plain] at h
    obtain ⟨hl, hr, _, _⟩ := h
    rw [opsE, strE]
    have h1 := lexes_wrapO (b := isBin l) (lexes_opsE l hl) (starts_opsE l hl)
    have h2 := lexes_mono (lexes_wrapO (b := isBin r) (lexes_opsE r hr) (starts_opsE r hr)) (fun c => follows_false)
    have h3 := lexes_append (L := lexer) (P := Any) lexes_space (lexes_wordSpace (P := Any) (lexes_operator o)) (by
      have : ∃ c cs, o.text.toList = c :: cs ∧ blank c = false := by cases o <;> exact ⟨_, _, rfl, by decide⟩
      obtain ⟨c, cs, ht, hb⟩ := this
      exact starts_token ht hb trivial _)
    rw [List.nil_append] at h3
    have h4 := lexes_append h3 h2 (starts_wrapO (starts_opsE r hr)).any
    rw [List.append_assoc] at h4 ⊢
    exact lexes_append h1 h4 (starts_space _)
  | .not e, h => by
    simp only [Plain] at h
    rw [opsE, strE]
    have h2 := lexes_mono (lexes_wrapO (b := isBin e) (lexes_opsE e h.2) (starts_opsE e h.2)) (fun c => follows_false)
    have h3 : Lexes lexer (word "not") ["not"] Blank := lexes_isWord (by decide) fun c hc => hc.elim
    exact lexes_append (lexes_wordSpace (P := Any) h3) h2 (starts_wrapO (starts_opsE e h.2)).any
  | .inv e, h => by
    simp only [Plain] at h
    rw [opsE, strE]
    have h2 := lexes_mono (lexes_wrapO (b := isBin e) (lexes_opsE e h.1) (starts_opsE e h.1)) (fun c => follows_false)
    exact lexes_append (lexes_symbol (d := '~') rfl (by decide) Any) h2 (starts_wrapO (starts_opsE e h.1)).any
  | .neg e, h => by
    simp only [Plain] at h
    obtain ⟨t, rfl, hl⟩ := isNumber_leaf h
    have h1 : Lexes lexer (word "-") ["-"] fun c => wordChar c = true := lexes_isWord (by decide) joins_minus
    have h2 := lexes_append h1 (lexes_mono (lexes_leaf hl) fun c => follows_false) (starts_wordChar hl)
    rw [opsE, strE, strE, numberText]
    intro text rest hs hn
    exact h2 text rest (spread_parts hs) hn
theorem lexes_opsArgs : (k : String) → (es : List Expr) → PlainAll k es →
    Lexes lexer (opsArgs es) (strArgs es) (Follows false)
  | _, [], _ => by rw [opsArgs, strArgs]; exact lexes_nil
  | k, e :: es, h => by
    simp only [PlainAll] at h
    rw [opsArgs, strArgs]
    cases es with
    | nil =>
      rw [opsRest, strRest, List.append_nil, List.append_nil]
      exact lexes_mono (lexes_opsE e h.2.1) fun c => follows_false
    | cons a as =>
      refine lexes_append (lexes_opsE e h.2.1) (lexes_opsRest k (a :: as) h.2.2) ?_
      rw [opsRest]
      exact starts_token (c := ',') rfl (by decide) (Or.inl (by decide)) _
theorem lexes_opsRest : (k : String) → (es : List Expr) → PlainAll k es →
    Lexes lexer (opsRest es) (strRest es) (Follows false)
  | _, [], _ => by rw [opsRest, strRest]; exact lexes_nil
  | k, e :: es, h => by
    simp only [PlainAll] at h
    rw [opsRest, strRest]
    have h0 : Lexes lexer (opsE e ++ opsRest es) (strE e ++ strRest es) (Follows false) := by
      cases es with
      | nil =>
        rw [opsRest, strRest, List.append_nil, List.append_nil]
        exact lexes_mono (lexes_opsE e h.2.1) fun c => follows_false
      | cons a as =>
        refine lexes_append (lexes_opsE e h.2.1) (lexes_opsRest k (a :: as) h.2.2) ?_
        rw [opsRest]
        exact starts_token (c := ',') rfl (by decide) (Or.inl (by decide)) _
    have h1 := lexes_append (P := Any) lexes_space h0 ((starts_opsE e h.2.1).append _).any
    exact lexes_append (lexes_symbol (d := ',') rfl (by decide) Any) h1 (starts_space _)
theorem lexes_opsEntries : (es : List Expr) → PlainAll "}" es →
    Lexes lexer (opsEntries es) (strArgs es) (Follows false)
  | [], _ => by rw [opsEntries, strArgs]; exact lexes_nil
  | e :: es, h => by
    simp only [PlainAll] at h
    rw [opsEntries, strArgs]
    have tail : Lexes lexer ([.decr] ++ ([.newline] ++ [.indent])) [] (Follows false) := by
      have h1 : Lexes lexer [Op.indent] [] (Follows false) := by simpa using lexes_indent (lexes_nil (L := lexer))
      exact lexes_decr (lexes_append (P := Any) lexes_newline h1 (by
        intro text rest hs
        cases hs with
        | indent w hw hs =>
          intro c cs _
          cases blank c <;> simp [Any]))
    have h0 : Lexes lexer (opsE e ++ (opsMore es ++ ([.decr] ++ ([.newline] ++ [.indent])))) (strE e ++ strRest es)
        (Follows false) := by
      cases es with
      | nil =>
        rw [opsMore, strRest, List.nil_append]
        exact lexes_append (lexes_opsE e h.2.1) tail (starts_decr (starts_newline _))
      | cons a as =>
        have := lexes_append (lexes_opsMore (a :: as) h.2.2) tail (starts_decr (starts_newline _))
        rw [List.append_nil] at this
        refine lexes_append (lexes_opsE e h.2.1) this ?_
        rw [opsMore, List.append_assoc]
        exact starts_token (c := ',') rfl (by decide) (Or.inl (by decide)) _
    have h1 := lexes_append (P := Any) lexes_newline (lexes_incr (lexes_indent h0)) (by
      intro text rest hs
      intro c cs _
      cases blank c <;> simp [Any])
    simpa using h1
theorem lexes_opsMore : (es : List Expr) → PlainAll "}" es → Lexes lexer (opsMore es) (strRest es) (Follows false)
  | [], _ => by rw [opsMore, strRest]; exact lexes_nil
  | e :: es, h => by
    simp only [PlainAll] at h
    rw [opsMore, strRest]
    have h0 : Lexes lexer (opsE e ++ opsMore es) (strE e ++ strRest es) (Follows false) := by
      cases es with
      | nil =>
        rw [opsMore, strRest, List.append_nil, List.append_nil]
        exact lexes_mono (lexes_opsE e h.2.1) fun c => follows_false
      | cons a as =>
        refine lexes_append (lexes_opsE e h.2.1) (lexes_opsMore (a :: as) h.2.2) ?_
        rw [opsMore]
        exact starts_token (c := ',') rfl (by decide) (Or.inl (by decide)) _
    have h1 := lexes_append (P := Any) lexes_newline (lexes_indent h0) (by
      intro text rest hs
      intro c cs _
      cases blank c <;> simp [Any])
    exact lexes_append (lexes_symbol (d := ',') rfl (by decide) Any) h1 (starts_newline _)
end

end VyPrint
end Mutagenyx
