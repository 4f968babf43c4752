import Verif.Spec.VyperLiteral
import Verif.Spec.PrintNodes
import Verif.Spec.VyperExpr
import Verif.Props.VyperPrinter
import Verif.Proofs.Lex

/-!
# Printed Vyper literals (property C91)
-/

namespace Mutagenyx
namespace VyPrint

open NodePrinter VyLiteral Printer VyGrammar

/-! ### Bytes -/

theorem hexValue_size {c : Char} {n : Nat} (h : SolLiteral.hexValue c = some n) : c.utf8Size = 1 := by
  have h1 : c.toNat ≤ 127 := by
    have e1 : 'f'.toNat = 102 := by decide
    have e2 : 'F'.toNat = 70 := by decide
    unfold SolLiteral.hexValue at h
    split at h
    · rename_i hd
      simp only [Char.isDigit, Bool.and_eq_true, decide_eq_true_eq] at hd
      have : c.val.toNat ≤ 57 := UInt32.le_iff_toNat_le.1 hd.2
      show c.val.toNat ≤ 127
      omega
    · split at h
      · rename_i hd
        have : c.val.toNat ≤ 'f'.val.toNat := UInt32.le_iff_toNat_le.1 hd.2
        change c.toNat ≤ 'f'.toNat at this
        omega
      · split at h
        · rename_i hd
          have : c.val.toNat ≤ 'F'.val.toNat := UInt32.le_iff_toNat_le.1 hd.2
          change c.toNat ≤ 'F'.toNat at this
          omega
        · cases h
  simp only [Char.utf8Size]
  rw [if_pos (UInt32.le_iff_toNat_le.2 (by exact h1))]

theorem hexValues_two {a b : Char} {n : Nat} (h : SolLiteral.hexValues [a, b] = some n) :
    (∃ x, SolLiteral.hexValue a = some x) ∧ ∃ y, SolLiteral.hexValue b = some y := by
  cases ha : SolLiteral.hexValue a with
  | none => simp [SolLiteral.hexValues, ha] at h
  | some x =>
    cases hb : SolLiteral.hexValue b with
    | none => simp [SolLiteral.hexValues, ha, hb] at h
    | some y => exact ⟨⟨x, rfl⟩, y, rfl⟩

/-- The digits are cut into pairs. -/
theorem bytePairs_hex : (ds : List Char) → (bs : List Nat) → hexBytes ds = some bs →
    ∃ ps, bytePairs ds = some ps ∧ ∀ f, (ps.flatMap (fun p => "\\x".toList ++ p)).length + 1 ≤ f →
      readBody '\'' true f (ps.flatMap (fun p => "\\x".toList ++ p) ++ ['\'']) = some bs
  | [], bs, h => by
    cases h
    refine ⟨[], rfl, fun f hf => ?_⟩
    obtain ⟨f, rfl⟩ := Nat.exists_eq_add_of_le' hf
    simp [readBody]
  | [_], _, h => by cases h
  | a :: b :: cs, bs, h => by
    rw [hexBytes] at h
    split at h
    · rename_i n ns hn hns
      cases h
      obtain ⟨ps, h1, h2⟩ := bytePairs_hex cs ns hns
      obtain ⟨⟨x, hx⟩, y, hy⟩ := hexValues_two hn
      refine ⟨[a, b] :: ps, ?_, fun f hf => ?_⟩
      · rw [bytePairs, if_neg (by rw [hexValue_size hx]; decide), if_pos ⟨hexValue_size hx, hexValue_size hy⟩, h1]
        rfl
      · rw [List.flatMap_cons, show ("\\x".toList ++ [a, b]) = ['\\', 'x', a, b] from rfl] at hf ⊢
        simp only [List.length_append, List.length_cons, List.length_nil] at hf
        obtain ⟨f, rfl⟩ : ∃ g, f = g + 1 := ⟨f - 1, by omega⟩
        have he : escape 'x' = none := by decide
        have ho : octal 'x' = none := by decide
        simp only [List.cons_append, List.nil_append]
        rw [readBody, if_neg (by decide), if_neg (by decide), if_pos rfl]
        simp only [he, ho, if_true, List.take_succ_cons, List.take_zero, hn, List.length_cons, List.drop_succ_cons, List.drop_zero]
        rw [if_neg (by omega), h2 f (by omega)]
        rfl
    · cases h

theorem dropWhile_blank {w t : List Char} (h : isGap w) (ht : ∀ c cs, t = c :: cs → Lex.blank c = false) :
    (w ++ t).dropWhile Lex.blank = t := by
  induction w with
  | nil =>
    cases t with
    | nil => rfl
    | cons c cs => simp [ht c cs rfl]
  | cons c w ih =>
    rw [List.cons_append, List.dropWhile_cons, if_pos (Lex.blank_gap (h c (List.mem_cons_self ..)))]
    exact ih fun d hd => h d (List.mem_cons_of_mem _ hd)

/-- A node that is printed as one token. -/
theorem printText_one {env : PrintEnv} {node : Json} {t : List Char} (h : printOps env {} node = [.token t]) :
    ∃ w, isGap w ∧ printText env node = .ok (w ++ t) := by
  obtain ⟨w, hw, ho⟩ := writeToken_out t (Printer.new 4 150)
  refine ⟨w, hw, ?_⟩
  rw [printText, h]
  simp only [run, exec, ho]
  rfl

theorem utf8Len_hex {ds : List Char} {bs : List Nat} (h : hexBytes ds = some bs) : ds ≠ [] → 0 < utf8Len ds := by
  intro hne
  cases ds with
  | nil => exact absurd rfl hne
  | cons c cs =>
    have := c.utf8Size_pos
    simp only [utf8Len, List.map_cons, List.sum_cons]
    omega

/-- **C91 (bytes).** The literal printed for a bytes node denotes the bytes of the node, whatever they are and however many. -/
theorem C91_bytes (env : PrintEnv) (node : Json) (ht : IsA "Bytes" node) (v : String) (hv : node.getStrForKey "value" = some v)
    (ds : List Char) (hd : v.toList = '0' :: 'x' :: ds) (bs : List Nat) (hb : hexBytes ds = some bs) :
    ∃ text, printText env node = .ok text ∧ readBytes text = some bs := by
  obtain ⟨ps, h1, h2⟩ := bytePairs_hex ds bs hb
  have hops : printOps env {} node =
      [.token ("b'".toList ++ ps.flatMap (fun p => "\\x".toList ++ p) ++ "'".toList)] := by
    rw [printOps_of (body := bytesNode node) (by simp only [IsA] at ht; simp [layout, ht])]
    simp only [bytesNode, onStr, hv, onSome, hd]
    cases ds with
    | nil =>
      cases h1
      rw [if_pos (by decide)]
      rfl
    | cons c cs =>
      have h3 : ¬ utf8Len ('0' :: 'x' :: c :: cs) ≤ 2 := by
        have := c.utf8Size_pos
        simp only [utf8Len_cons, show Char.utf8Size '0' = 1 from rfl, show Char.utf8Size 'x' = 1 from rfl]
        omega
      rw [if_neg h3, bytePairs, if_neg (by decide), if_pos (by decide), h1]
      simp [expand]
  obtain ⟨w, hw, h3⟩ := printText_one hops
  refine ⟨_, h3, ?_⟩
  rw [readBytes, dropWhile_blank hw (by intro c cs h; cases h; decide)]
  simp only [show "b'".toList = ['b', '\''] from rfl, show "'".toList = ['\''] from rfl, List.cons_append, List.nil_append]
  exact h2 _ (by simp)

/-! ### Strings -/

theorem octals_length (d : Nat) (cs : List Char) : (octals d cs).2.length ≤ cs.length := by
  unfold octals
  split
  · split <;> simp <;> omega
  · split <;> simp
  · simp

/-- What is harmless stands for itself. -/
theorem readBody_harmless : (v : List Char) → harmless v = true → ∀ f, v.length + 1 ≤ f →
    readBody '"' false f (v ++ ['"']) = some (v.map Char.toNat)
  | [], _, f, hf => by
    obtain ⟨f, rfl⟩ : ∃ g, f = g + 1 := ⟨f - 1, by simp at hf; omega⟩
    simp [readBody]
  | [c], h, f, hf => by
    obtain ⟨f, rfl⟩ : ∃ g, f = g + 2 := ⟨f - 2, by simp at hf; omega⟩
    simp only [harmless, Bool.and_eq_true, decide_eq_true_eq] at h
    simp [readBody, h]
  | c :: e :: cs, h, f, hf => by
    obtain ⟨f, rfl⟩ : ∃ g, f = g + 1 := ⟨f - 1, by simp at hf; omega⟩
    simp only [List.length_cons] at hf
    rw [harmless] at h
    split at h
    · rename_i hc
      subst hc
      simp only [unknown, Bool.and_eq_true, Option.isNone_iff_eq_none, Bool.not_eq_true', List.contains_eq_mem,
        decide_eq_false_iff_not, List.mem_cons, List.not_mem_nil, or_false, not_or] at h
      obtain ⟨⟨⟨h1, h2⟩, h3, h4, h5, h6, h7⟩, h8⟩ := h
      have ih := readBody_harmless cs h8 f (by omega)
      simp only [List.cons_append]
      rw [readBody, if_neg (by decide), if_neg (by decide), if_pos rfl]
      simp [h1, h2, h3, h4, h5, h6, h7, ih]
    · rename_i hc
      simp only [Bool.and_eq_true, decide_eq_true_eq] at h
      have ih := readBody_harmless (e :: cs) h.2 f (by simp; omega)
      rw [List.cons_append, readBody.eq_def]
      simp only
      rw [if_neg h.1.1.1, if_neg (by simp [h.1.1.2, h.1.2]), if_neg hc, if_neg (by simp), ih]
      rfl

theorem escape_length {c : Char} {v : List Nat} (h : escape c = some v) : v.length ≤ 1 := by
  have key : ∀ (P : Prop) [Decidable P] (w : List Nat) (o : Option (List Nat)), w.length ≤ 1 → (∀ v, o = some v → v.length ≤ 1) →
      ∀ v, (if P then some w else o) = some v → v.length ≤ 1 := by
    intro P _ w o hw ho v h
    split at h
    · cases h
      exact hw
    · exact ho v h
  unfold escape at h
  refine key _ _ _ (by decide) ?_ v h
  refine key _ _ _ (by decide) ?_
  refine key _ _ _ (by decide) ?_
  refine key _ _ _ (by decide) ?_
  refine key _ _ _ (by decide) ?_
  refine key _ _ _ (by decide) ?_
  refine key _ _ _ (by decide) ?_
  refine key _ _ _ (by decide) ?_
  refine key _ _ _ (by decide) ?_
  refine key _ _ _ (by decide) ?_
  refine key _ _ _ (by decide) ?_
  intro v h
  cases h

/-- What one step of reading does. -/
theorem readBody_step {f : Nat} {c : Char} {cs : List Char} {u : List Nat} (h : readBody '"' false (f + 1) (c :: cs) = some u) :
    (c = '"' ∧ cs = [] ∧ u = []) ∨
    (c ≠ '"' ∧ c ≠ '\n' ∧ c ≠ '\r' ∧ c ≠ '\\' ∧ ∃ u', readBody '"' false f cs = some u' ∧ u = c.toNat :: u') ∨
    (c = '\\' ∧ ∃ e cs' u', cs = e :: cs' ∧ unknown e = true ∧ readBody '"' false f cs' = some u' ∧ u = 92 :: e.toNat :: u') ∨
    (c = '\\' ∧ ∃ cs' u', readBody '"' false f cs' = some u' ∧ cs'.length + 1 ≤ cs.length ∧ u.length ≤ u'.length + 1) := by
  rw [readBody.eq_def] at h
  simp only at h
  split at h
  · rename_i hc
    split at h
    · rename_i hn
      cases h
      exact .inl ⟨hc, hn, rfl⟩
    · cases h
  · rename_i hq
    split at h
    · cases h
    · rename_i hl
      rw [not_or] at hl
      split at h
      · rename_i hc
        refine .inr (.inr ?_)
        split at h
        · cases h
        · rename_i e cs'
          have some_map : ∀ {o : Option (List Nat)} {g : List Nat → List Nat}, o.map g = some u → ∃ u', o = some u' ∧ u = g u' := by
            intro o g ho
            obtain ⟨u', h1, h2⟩ := Option.map_eq_some_iff.1 ho
            exact ⟨u', h1, h2.symm⟩
          split at h
          · rename_i v hv
            obtain ⟨u', h1, rfl⟩ := some_map h
            refine .inr ⟨hc, cs', u', h1, by simp, ?_⟩
            have := escape_length hv
            simp only [List.length_append]
            omega
          · split at h
            · cases h
            · obtain ⟨u', h1, rfl⟩ := some_map h
              exact .inr ⟨hc, _, u', h1, by have := octals_length ‹Nat› cs'; simp; omega, by simp⟩
          · rename_i he ho
            have drop : ∀ k v, (if cs'.length < k then none else (readBody '"' false f (cs'.drop k)).map (v :: ·)) = some u →
                ∃ cs'' u', readBody '"' false f cs'' = some u' ∧ cs''.length + 1 ≤ (e :: cs').length ∧ u.length ≤ u'.length + 1 := by
              intro k v hk
              split at hk
              · cases hk
              · obtain ⟨u', h1, rfl⟩ := some_map hk
                exact ⟨_, u', h1, by simp, by simp⟩
            split at h
            · split at h
              · exact .inr ⟨hc, drop _ _ h⟩
              · cases h
            · rename_i hx
              split at h
              · split at h
                · exact .inr ⟨hc, drop _ _ h⟩
                · cases h
              · rename_i hu
                split at h
                · split at h
                  · exact .inr ⟨hc, drop _ _ h⟩
                  · cases h
                · rename_i hU
                  split at h
                  · cases h
                  · rename_i hN
                    split at h
                    · cases h
                    · rename_i hr
                      obtain ⟨u', h1, rfl⟩ := some_map h
                      refine .inl ⟨hc, e, cs', u', rfl, ?_, h1, rfl⟩
                      simp only [and_true] at hu hU hN
                      simp only [Bool.false_eq_true, false_and, or_false] at hr
                      simp [unknown, he, ho, hx, hu, hU, hN, hr]
      · rename_i hb
        simp only [Bool.false_eq_true, false_and, if_false] at h
        obtain ⟨u', h1, h2⟩ := Option.map_eq_some_iff.1 h
        exact .inr (.inl ⟨hq, hl.1, hl.2, hb, u', h1, h2.symm⟩)

/-- No text stands for more characters than it has. -/
theorem readBody_length : (f : Nat) → (cs : List Char) → (u : List Nat) → readBody '"' false f cs = some u →
    u.length + 1 ≤ cs.length
  | 0, _, _, h => by cases h
  | _ + 1, [], _, h => by cases h
  | f + 1, c :: cs, u, h => by
    rcases readBody_step h with ⟨_, _, rfl⟩ | ⟨_, _, _, _, u', h1, rfl⟩ | ⟨_, e, cs', u', rfl, _, h1, rfl⟩ | ⟨_, cs', u', h1, h2, h3⟩
    · simp
    · have := readBody_length f _ _ h1
      simp only [List.length_cons]
      omega
    · have := readBody_length f _ _ h1
      simp only [List.length_cons]
      omega
    · have := readBody_length f _ _ h1
      simp only [List.length_cons]
      omega

theorem harmless_of_readBody : (f : Nat) → (v : List Char) → (u : List Nat) → readBody '"' false f (v ++ ['"']) = some u →
    u.length = v.length → harmless v = true
  | 0, _, _, h, _ => by cases h
  | _ + 1, [], _, _, _ => rfl
  | f + 1, c :: v, u, h, hl => by
    rcases readBody_step h with ⟨_, hn, _⟩ | ⟨h1, h2, h3, h4, u', h5, rfl⟩ | ⟨rfl, e, cs', u', he, hu, h1, rfl⟩ | ⟨_, cs', u', h1, h2, h3⟩
    · simp at hn
    · have ih := harmless_of_readBody f v u' h5 (by simpa using hl)
      cases v with
      | nil => simp [harmless, h1, h2, h3, h4]
      | cons d v => simp [harmless, h1, h2, h3, h4, ih]
    · cases v with
      | nil =>
        simp at hl
      | cons d v =>
        obtain ⟨rfl, rfl⟩ := List.cons.inj he
        have ih := harmless_of_readBody f v u' h1 (by simpa using hl)
        simp [harmless, hu, ih]
    · have := readBody_length f _ _ h1
      rw [show (v.append ['"']) = v ++ ['"'] from rfl] at h2
      simp only [List.length_cons, List.length_append, List.length_nil] at hl h2
      omega

theorem printText_str {env : PrintEnv} {node : Json} (ht : IsA "Str" node) {v : String} (hv : node.getStrForKey "value" = some v) :
    ∃ w, isGap w ∧ printText env node = .ok (w ++ ('"' :: v.toList ++ ['"'])) := by
  have hops : printOps env {} node = [.string v.toList] := by
    rw [printOps_of (body := onStr "value" node fun v => [.op (.string v.toList)]) (by simp only [IsA] at ht; simp [layout, ht])]
    simp [onStr, hv, onSome, expand]
  obtain ⟨w, hw, ho⟩ := writeToken_out ('"' :: v.toList ++ ['"']) (Printer.new 4 150)
  refine ⟨w, hw, ?_⟩
  rw [printText, hops]
  simp only [run, exec, writeString, ho]
  rfl

/-- **C91 (strings).** The literal printed for a string node denotes the string of the node if and only if there is no quotation mark
`"`, no line break and no escape sequence in the string: nothing is escaped. -/
theorem C91_string (env : PrintEnv) (node : Json) (ht : IsA "Str" node) (v : String) (hv : node.getStrForKey "value" = some v) :
    ∃ text, printText env node = .ok text ∧ (readString text = some (v.toList.map Char.toNat) ↔ harmless v.toList = true) := by
  obtain ⟨w, hw, h1⟩ := printText_str (env := env) ht hv
  refine ⟨_, h1, ?_⟩
  rw [readString, dropWhile_blank hw (by intro c cs h; cases h; decide)]
  simp only [List.cons_append]
  exact ⟨fun h => harmless_of_readBody _ _ _ h (by simp), fun h => readBody_harmless _ h _ (by simp)⟩

/-- A bytes node. -/
def bytesOf (v : String) : Json := VyNode.mk "Bytes" [("value", .str v)]

/-- Example: the bytes of a node, as the compiler writes them, and what is printed. -/
example : IsA "Bytes" (bytesOf "0x00fF41") ∧ (bytesOf "0x00fF41").getStrForKey "value" = some "0x00fF41" ∧
    hexBytes "00fF41".toList = some [0, 255, 65] ∧
    printText ⟨true, fun _ => ""⟩ (bytesOf "0x00fF41") = .ok "b'\\x00\\xfF\\x41'".toList := by
  unfold IsA; decide +kernel

/-- A string node. -/
def strOf (v : String) : Json := VyNode.mk "Str" [("value", .str v)]

/-- Example: strings that are printed well. -/
example : IsA "Str" (strOf "it's 1\\q") ∧ (strOf "it's 1\\q").getStrForKey "value" = some "it's 1\\q" ∧
    harmless "it's 1\\q".toList = true ∧
    printText ⟨true, fun _ => ""⟩ (strOf "it's 1\\q") = .ok "\"it's 1\\q\"".toList := by
  unfold IsA; decide +kernel

/-- **C91: counterexample.** The string `a"b` is printed as `"a"b"`, which is no literal, and the string of a backslash and an `n` as
`"\n"`, which is a line break. -/
theorem C91_string_counterexample :
    (printText ⟨true, fun _ => ""⟩ (strOf "a\"b") = .ok "\"a\"b\"".toList ∧ readString "\"a\"b\"".toList = none) ∧
    printText ⟨true, fun _ => ""⟩ (strOf "\\n") = .ok "\"\\n\"".toList ∧ readString "\"\\n\"".toList = some [10] := by
  decide +kernel

end VyPrint
end Mutagenyx
