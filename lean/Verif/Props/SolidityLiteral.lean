import Verif.Proofs.SolidityExpr
import Verif.Proofs.Fits
import Verif.Spec.SolidityLiteral

/-!
# Printed Solidity string literals (property C48)
-/

namespace Mutagenyx
namespace SolPrint

open NodePrinter Printer SolLiteral
open SolGrammar (IsA)

/-! ## Lemmas -/

theorem hexValue_digit : ∀ d < 16, hexValue (Nat.digitChar d) = some d := by decide

theorem hexDigits_four {n : Nat} (h1 : 0x1000 ≤ n) (h2 : n ≤ 0xffff) : hexDigits n =
    [Nat.digitChar (n / 16 / 16 / 16), Nat.digitChar (n / 16 / 16 % 16), Nat.digitChar (n / 16 % 16),
      Nat.digitChar (n % 16)] := by
  unfold hexDigits
  rw [Nat.toDigits_of_base_le (by decide) (by omega), Nat.toDigits_of_base_le (by decide) (by omega),
    Nat.toDigits_of_base_le (by decide) (by omega), Nat.toDigits_of_lt_base (by omega)]
  rfl

theorem hexValues_four {a b c d : Nat} (ha : a < 16) (hb : b < 16) (hc : c < 16) (hd : d < 16) :
    hexValues [Nat.digitChar a, Nat.digitChar b, Nat.digitChar c, Nat.digitChar d]
      = some (16 * (16 * (16 * a + b) + c) + d) := by
  simp [hexValues, hexValue_digit _ ha, hexValue_digit _ hb, hexValue_digit _ hc, hexValue_digit _ hd]

theorem codePoint_char (c : Char) : codePoint c.toNat = some (String.utf8EncodeChar c) := by
  unfold codePoint
  rw [if_pos (show c.toNat.isValidChar from c.valid), Char.ofNat_toNat]

theorem char_eq {c : Char} {n : Nat} (h : c.toNat = n) : c = Char.ofNat n := by
  rw [← h, Char.ofNat_toNat]

theorem readBody_hex (old unicode : Bool) (a b : Char) (n : Nat) (rest : List Char) (h : hexValues [a, b] = some n) :
    readBody old unicode ('\\' :: 'x' :: a :: b :: rest) = (readBody old unicode rest).map (UInt8.ofNat n :: ·) := by
  have he : escape old 'x' = none := by cases old <;> decide
  rw [readBody, if_neg (by decide), if_pos rfl]
  simp only [he, if_true, h]

theorem readBody_escape (old unicode : Bool) {e : Char} {b : UInt8} (rest : List Char) (h : escape old e = some b) :
    readBody old unicode ('\\' :: e :: rest) = (readBody old unicode rest).map (b :: ·) := by
  rw [readBody.eq_def]
  simp only
  rw [if_neg (by decide), if_pos trivial]
  simp only [h]

/-- One character. -/
theorem readBody_unencodeChar {old : Bool} {c : Char} (h : safe old c = true) (rest : List Char) :
    readBody old false (unencodeChar c ++ rest) = (readBody old false rest).map (String.utf8EncodeChar c ++ ·) := by
  simp only [safe, Bool.or_eq_true, Bool.and_eq_true, decide_eq_true_eq] at h
  rcases h with (((⟨⟨h, h1⟩, h2⟩ | h) | ⟨ho, h⟩) | h) | h
  · have hp : plain false c = true := by simpa [plain] using h
    have h3 : ¬ c.toNat < 32 := by omega
    have h4 : c.toNat < 127 := by omega
    simp only [unencodeChar, h3, if_false, h4, if_true, List.cons_append, List.nil_append]
    rw [readBody.eq_def]
    simp only
    rw [if_neg h1, if_neg h2, if_pos hp]
  · rcases h with (h | h) | h <;> have hc := char_eq h <;> subst hc
    all_goals exact readBody_escape _ _ _ (by cases old <;> decide)
  · subst ho
    rcases h with (h | h) | h <;> have hc := char_eq h <;> subst hc
    all_goals exact readBody_escape _ _ _ (by decide)
  · have hn : c.toNat = 16 ∨ c.toNat = 17 ∨ c.toNat = 18 ∨ c.toNat = 19 ∨ c.toNat = 20 ∨ c.toNat = 21 ∨ c.toNat = 22 ∨
        c.toNat = 23 ∨ c.toNat = 24 ∨ c.toNat = 25 ∨ c.toNat = 26 ∨ c.toNat = 27 ∨ c.toNat = 28 ∨ c.toNat = 29 ∨
        c.toNat = 30 ∨ c.toNat = 31 := by omega
    rcases hn with h | h | h | h | h | h | h | h | h | h | h | h | h | h | h | h <;> have hc := char_eq h <;> subst hc
    all_goals exact readBody_hex _ _ _ _ _ _ (by decide)
  · have h3 : ¬ c.toNat < 32 := by omega
    have h4 : ¬ c.toNat < 127 := by omega
    have he : escape old 'u' = none := by cases old <;> decide
    simp only [unencodeChar, h3, if_false, h4, hexDigits_four h.1 h.2, List.cons_append, List.nil_append]
    rw [readBody, if_neg (by decide), if_pos rfl]
    simp only [he]
    rw [if_neg (by decide), if_pos trivial,
      hexValues_four (by omega) (by omega) (by omega) (by omega)]
    have hs : 16 * (16 * (16 * (c.toNat / 16 / 16 / 16) + c.toNat / 16 / 16 % 16) + c.toNat / 16 % 16) + c.toNat % 16
        = c.toNat := by omega
    rw [hs, Option.bind_some, codePoint_char]

theorem readBody_unencode {old : Bool} {v : List Char} (h : ∀ c ∈ v, safe old c = true) :
    readBody old false (unencode v ++ ['"']) = some (bytes v) := by
  induction v with
  | nil => simp [unencode, readBody, bytes]
  | cons c v ih =>
    have h1 := ih fun d hd => h d (List.mem_cons_of_mem _ hd)
    simp only [unencode, List.flatMap_cons, List.append_assoc] at h1 ⊢
    rw [readBody_unencodeChar (h c (List.mem_cons_self ..)), h1]
    simp [bytes]

theorem dropWhile_gap {w t : List Char} (h : isGap w) (ht : ∀ c cs, t = c :: cs → Lex.blank c = false) :
    (w ++ t).dropWhile Lex.blank = t := by
  induction w with
  | nil =>
    cases t with
    | nil => rfl
    | cons c cs => simp [ht c cs rfl]
  | cons c w ih =>
    rw [List.cons_append, List.dropWhile_cons, if_pos (Lex.blank_gap (h c (List.mem_cons_self ..)))]
    exact ih fun d hd => h d (List.mem_cons_of_mem _ hd)

/-- What is printed for a literal. -/
theorem printText_string {checks : Bool} {node : Json} {v : String} (ht : IsA "Literal" node)
    (hk : node.getStrForKey "kind" = some "string") (hv : node.getStrForKey "value" = some v)
    (hs : node.getStrForKey "subdenomination" = none) :
    ∃ w, isGap w ∧ printText checks node = .ok (w ++ ('"' :: unencode v.toList ++ ['"'])) := by
  have h1 : printOps checks {} node = [.string (unencode v.toList)] := by
    rw [printOps_of (body := literal node) (by simp only [IsA] at ht; simp [layout, ht])]
    simp [literal, onStr, hk, hv, hs, onSome, expand]
  obtain ⟨w, hw, ho⟩ := writeToken_out ('"' :: unencode v.toList ++ ['"']) (Printer.new 4 150)
  refine ⟨w, hw, ?_⟩
  rw [printText, h1]
  simp only [run, exec, writeString, ho]
  rfl

/-! ## Property C48 -/

/-- **C48.** The literal printed for a string value denotes that value, for all values of safe characters.  Missing:
the other characters, none of which is printed in a way that is read back (see the counterexamples). -/
theorem C48_string_literal_partial (old checks : Bool) (node : Json) (v : String) (ht : IsA "Literal" node)
    (hk : node.getStrForKey "kind" = some "string") (hv : node.getStrForKey "value" = some v)
    (hs : node.getStrForKey "subdenomination" = none) (hsafe : ∀ c ∈ v.toList, safe old c = true) :
    ∃ text, printText checks node = .ok text ∧ SolLiteral.read old text = some (bytes v.toList) := by
  obtain ⟨w, hw, h1⟩ := printText_string (checks := checks) ht hk hv hs
  refine ⟨_, h1, ?_⟩
  rw [SolLiteral.read, dropWhile_gap hw (by intro c cs h; cases h; decide)]
  exact readBody_unencode hsafe

/-- A string literal of the AST. -/
def stringNode (v : String) : Json :=
  SolNode.mk "Literal" [("kind", .str "string"), ("value", .str v)]

example : (∀ c ∈ "It's\t1\n!".toList, safe false c = true) ∧
    printText true (stringNode "It's\t1\n!") = .ok "\"It's\\t1\\n!\"".toList := by decide +kernel

theorem tokens_kind : Json.pointerTokens (Json.jsonPath "kind") = some ["kind"] := by decide
theorem tokens_value : Json.pointerTokens (Json.jsonPath "value") = some ["value"] := by decide
theorem tokens_sub : Json.pointerTokens (Json.jsonPath "subdenomination") = some ["subdenomination"] := by decide
theorem tokens_nodeType : Json.pointerTokens (Json.jsonPath "nodeType") = some ["nodeType"] := by decide

theorem stringNode_fields (v : String) : IsA "Literal" (stringNode v) ∧
    (stringNode v).getStrForKey "kind" = some "string" ∧ (stringNode v).getStrForKey "value" = some v ∧
    (stringNode v).getStrForKey "subdenomination" = none := by
  simp [IsA, stringNode, SolNode.mk, Json.ofFields, Json.objInsert, Json.getStrForKey, Json.get?,
    Json.pointer, tokens_kind, tokens_value, tokens_sub, tokens_nodeType, Json.follow, Json.step, Json.objGet, Json.asStr]

theorem readBody_quote (old unicode : Bool) : readBody old unicode ['"', '"'] = none := by
  cases old <;> cases unicode <;> decide

theorem hexDigits_two {n : Nat} (h1 : 16 ≤ n) (h2 : n < 256) :
    hexDigits n = [Nat.digitChar (n / 16), Nat.digitChar (n % 16)] := by
  unfold hexDigits
  rw [Nat.toDigits_of_base_le (by decide) (by omega), Nat.toDigits_of_lt_base (by omega)]
  rfl

theorem hexDigits_three {n : Nat} (h1 : 256 ≤ n) (h2 : n < 4096) :
    hexDigits n = [Nat.digitChar (n / 16 / 16), Nat.digitChar (n / 16 % 16), Nat.digitChar (n % 16)] := by
  unfold hexDigits
  rw [Nat.toDigits_of_base_le (by decide) (by omega), Nat.toDigits_of_base_le (by decide) (by omega),
    Nat.toDigits_of_lt_base (by omega)]
  rfl

theorem hexDigits_more {n : Nat} (h1 : 0x10000 ≤ n) (h2 : n < 0x1000000) : ∃ m d ds, m ≤ 0xffff ∧
    hexDigits n = hexDigits m ++ d :: ds ∧ 0x1000 ≤ m := by
  unfold hexDigits
  by_cases h3 : n < 0x100000
  · exact ⟨n / 16, _, _, by omega, Nat.toDigits_of_base_le (by decide) (by omega), by omega⟩
  · refine ⟨n / 16 / 16, Nat.digitChar (n / 16 % 16), [Nat.digitChar (n % 16)], by omega, ?_, by omega⟩
    rw [Nat.toDigits_of_base_le (by decide) (by omega), Nat.toDigits_of_base_le (by decide) (by omega)]
    simp

/-- The first byte of a character outside the basic plane is larger than that of others. -/
theorem utf8_first {c d : Char} (h1 : 0xffff < c.toNat) (h2 : d.toNat ≤ 0xffff) (bs : List UInt8) :
    String.utf8EncodeChar d ++ bs ≠ String.utf8EncodeChar c := by
  have hc : c.val.toNat = c.toNat := rfl
  have hd : d.val.toNat = d.toNat := rfl
  unfold String.utf8EncodeChar
  simp only [hc, hd]
  rw [if_neg (by omega : ¬ c.toNat ≤ 0x7f), if_neg (by omega : ¬ c.toNat ≤ 0x7ff), if_neg (by omega : ¬ c.toNat ≤ 0xffff)]
  have key : ∀ x y : Nat, x < 240 → 240 ≤ y → y < 256 → UInt8.ofNat x ≠ UInt8.ofNat y := by
    intro x y hx hy hy' h
    have := congrArg UInt8.toNat h
    simp only [UInt8.toNat_ofNat'] at this
    omega
  split
  · intro h
    exact key _ _ (by omega) (by omega) (by omega) (List.cons.inj h).1
  · split
    · intro h
      exact key _ _ (by omega) (by omega) (by omega) (List.cons.inj h).1
    · intro h
      exact key _ _ (by omega) (by omega) (by omega) (List.cons.inj h).1

/-- **C48: counterexamples.** For every character that is not safe, the literal printed for the value that consists of
this character does not denote it. -/
theorem C48_unsafe_counterexample (old checks : Bool) (c : Char) (h : safe old c = false) :
    ∃ text, printText checks (stringNode (String.ofList [c])) = .ok text ∧
      SolLiteral.read old text ≠ some (bytes [c]) := by
  obtain ⟨ht, hk, hv, hs⟩ := stringNode_fields (String.ofList [c])
  obtain ⟨w, hw, h1⟩ := printText_string (checks := checks) ht hk hv hs
  refine ⟨_, h1, ?_⟩
  rw [SolLiteral.read, dropWhile_gap hw (by intro c cs h; cases h; decide)]
  simp only [String.toList_ofList, unencode, List.flatMap_cons, List.flatMap_nil, List.append_nil, bytes]
  show readBody old false (unencodeChar c ++ ['"']) ≠ _
  have he : escape old 'x' = none := by cases old <;> decide
  have hu : escape old 'u' = none := by cases old <;> decide
  simp only [safe, Bool.or_eq_false_iff, Bool.and_eq_false_imp, decide_eq_false_iff_not] at h
  obtain ⟨⟨⟨⟨h1, h2⟩, h3⟩, h4⟩, h5⟩ := h
  by_cases a1 : c.toNat < 32
  · have hn : c.toNat = 0 ∨ c.toNat = 1 ∨ c.toNat = 2 ∨ c.toNat = 3 ∨ c.toNat = 4 ∨ c.toNat = 5 ∨ c.toNat = 6 ∨
        c.toNat = 7 ∨ (old = false ∧ c.toNat = 8) ∨ (old = false ∧ c.toNat = 11) ∨ (old = false ∧ c.toNat = 12) ∨
        c.toNat = 14 ∨ c.toNat = 15 := by
      cases old
      · simp only [true_and] at h2 ⊢
        omega
      · have := h3 rfl
        simp only [Bool.true_eq_false, false_and, false_or]
        omega
    rcases hn with h | h | h | h | h | h | h | h | ⟨ho, h⟩ | ⟨ho, h⟩ | ⟨ho, h⟩ | h | h <;> have hc := char_eq h <;>
      subst hc <;> (try subst ho) <;> (try cases old) <;> decide
  by_cases a2 : c.toNat < 127
  · have hn : c = '"' ∨ c = '\\' := by
      by_cases hq : c = '"'
      · exact Or.inl hq
      · right
        have := h1 (by simp [hq]; omega)
        simpa using this
    rcases hn with rfl | rfl <;> cases old <;> decide
  have a3 : c.toNat < 0x1000 ∨ 0xffff < c.toNat := by omega
  simp only [unencodeChar, a1, a2, if_false, List.cons_append, List.nil_append]
  have hx : ∀ ds, readBody old false ('\\' :: 'u' :: ds) = match ds with
      | a :: b :: c :: d :: cs => match (hexValues [a, b, c, d]).bind codePoint with
        | some bs => (readBody old false cs).map (bs ++ ·)
        | none => none
      | _ => none := by
    intro ds
    rw [readBody.eq_def]
    simp only
    rw [if_neg (by decide), if_pos trivial]
    simp only [hu]
    rw [if_neg (by decide), if_pos trivial]
    rfl
  rw [hx]
  rcases a3 with a3 | a3
  · by_cases a4 : c.toNat < 256
    · rw [hexDigits_two (by omega) a4]
      simp
    · rw [hexDigits_three (by omega) a3]
      simp only [List.cons_append, List.nil_append]
      have : ∀ a b d, hexValues [a, b, d, '"'] = none := by
        intro a b d
        have hq : hexValue '"' = none := by decide
        simp only [hexValues, List.foldl_cons, List.foldl_nil, hq]
        split <;> simp_all
      rw [this]
      simp
  · have hlt : c.toNat < 0x1000000 := by
      have := c.valid
      unfold UInt32.isValidChar Nat.isValidChar at this
      have hc : c.val.toNat = c.toNat := rfl
      omega
    obtain ⟨m, d, ds, h6, h7, h8⟩ := hexDigits_more (by omega) hlt
    rw [h7, hexDigits_four h8 h6]
    simp only [List.cons_append, List.nil_append]
    rw [hexValues_four (by omega) (by omega) (by omega) (by omega), Option.bind_some]
    have hs : 16 * (16 * (16 * (m / 16 / 16 / 16) + m / 16 / 16 % 16) + m / 16 % 16) + m % 16 = m := by omega
    rw [hs]
    unfold codePoint
    by_cases hm : m.isValidChar
    · rw [if_pos hm]
      simp only
      intro hh
      rw [Option.map_eq_some_iff] at hh
      obtain ⟨bs, _, hh⟩ := hh
      refine utf8_first a3 ?_ bs hh
      have : (Char.ofNat m).toNat = m := by
        unfold Char.ofNat
        rw [dif_pos hm]
        rfl
      omega
    · rw [if_neg hm]
      simp

/-- The quotation mark is one of them: `"` is printed as three quotation marks. -/
example : safe false '"' = false ∧ printText true (stringNode "\"") = .ok "\"\"\"".toList := by decide +kernel

/-! ### Literals with the prefix `unicode` -/

theorem readBody_unicode (old : Bool) {v : List Char}
    (h : ∀ c ∈ v, c ≠ '"' ∧ c ≠ '\\' ∧ c ≠ '\n' ∧ c ≠ '\r') :
    readBody old true (v ++ ['"']) = some (bytes v) := by
  induction v with
  | nil => simp [readBody, bytes]
  | cons c v ih =>
    obtain ⟨h1, h2, h3, h4⟩ := h c (List.mem_cons_self ..)
    have ih := ih fun d hd => h d (List.mem_cons_of_mem _ hd)
    rw [List.cons_append, readBody.eq_def]
    simp only
    rw [if_neg h1, if_neg h2, if_pos (by simp [plain, h3, h4]), ih]
    simp [bytes]

/-- **C48** for values with other characters, which the compiler marks with the kind `unicodeString`.  Missing: values
with a quotation mark, a backslash or a line break, and those too long for the line (see the counterexamples). -/
theorem C48_unicode_literal_partial (old checks : Bool) (node : Json) (v : String) (ht : IsA "Literal" node)
    (hk : node.getStrForKey "kind" = some "unicodeString") (hv : node.getStrForKey "value" = some v)
    (hs : node.getStrForKey "subdenomination" = none)
    (hsafe : ∀ c ∈ v.toList, c ≠ '"' ∧ c ≠ '\\' ∧ c ≠ '\n' ∧ c ≠ '\r') (hlen : utf8Len v.toList ≤ 140) :
    ∃ text, printText checks node = .ok text ∧ SolLiteral.read old text = some (bytes v.toList) := by
  have h1 : printOps checks {} node = [.token "unicode".toList, .string v.toList] := by
    rw [printOps_of (body := literal node) (by simp only [IsA] at ht; simp [layout, ht])]
    simp [literal, onStr, hk, hv, hs, onSome, expand, tok]
  have hw : lineOf [.token "unicode".toList, .string v.toList] = some ("unicode".toList ++ ('"' :: v.toList ++ ['"'])) := by
    simp [lineOf, written]
  have h8 : ∀ x : List Char, utf8Len ("unicode".toList ++ ('"' :: x ++ ['"'])) = 9 + utf8Len x := by
    intro x
    have a : utf8Len "unicode".toList = 7 := by decide
    have b : Char.utf8Size '"' = 1 := by decide
    simp only [utf8Len_append, utf8Len_cons, a, b, List.cons_append, utf8Len_nil]
    omega
  obtain ⟨q, h2, h3, _⟩ := run_fits checks (p := Printer.new 4 150) hw (by
    rw [h8]
    show 1 + _ ≤ 150
    omega)
  refine ⟨"unicode".toList ++ ('"' :: v.toList ++ ['"']), ?_, ?_⟩
  · rw [printText, h1, h2]
    show Outcome.ok q.out = _
    rw [h3]
    rfl
  · show readBody old true (v.toList ++ ['"']) = _
    exact readBody_unicode old hsafe

/-- A string literal with other characters. -/
def unicodeNode (v : String) : Json :=
  SolNode.mk "Literal" [("kind", .str "unicodeString"), ("value", .str v)]

example : printText true (unicodeNode "Grüße ☃") = .ok "unicode\"Grüße ☃\"".toList ∧
    utf8Len "Grüße ☃".toList ≤ 140 := by decide +kernel

/-- The value is printed as it is, so that a quotation mark ends the literal and a line break makes it invalid. -/
theorem C48_unicode_quote_counterexample :
    printText true (unicodeNode "☃ \"") = .ok "unicode\"☃ \"\"".toList ∧
    SolLiteral.read false "unicode\"☃ \"\"".toList = none ∧
    printText true (unicodeNode "☃\n") = .ok "unicode\"☃\n\"".toList ∧
    SolLiteral.read false "unicode\"☃\n\"".toList = none := by decide +kernel

/-- A value that contains a backslash is read as another value. -/
theorem C48_unicode_backslash_counterexample :
    printText true (unicodeNode "☃\\n") = .ok "unicode\"☃\\n\"".toList ∧
    SolLiteral.read false "unicode\"☃\\n\"".toList = some (bytes "☃\n".toList) ∧
    bytes "☃\n".toList ≠ bytes "☃\\n".toList := by decide +kernel

/-- A value that does not fit on the line stands on the line after the prefix. -/
theorem C48_unicode_long_counterexample :
    printText true (unicodeNode (String.ofList (List.replicate 50 '☃'))) =
      .ok ("unicode\n\"".toList ++ List.replicate 50 '☃' ++ ['"']) ∧
    SolLiteral.read false ("unicode\n\"".toList ++ List.replicate 50 '☃' ++ ['"']) = none := by decide +kernel

/-- The literal `hex"414243"`, whose value is `ABC`, is printed as the identifier `ABC`. -/
theorem C48_hex_counterexample :
    printText true (SolNode.mk "Literal" [("hexValue", .str "414243"), ("kind", .str "hexString"), ("value", .str "ABC")])
      = .ok "ABC".toList ∧ SolLiteral.read false "ABC".toList = none := by decide +kernel

/-- A string in assembly is printed as it is: a quotation mark ends it, and one with a backslash is read as another value. -/
theorem C48_assembly_counterexample :
    let string (v : String) := SolNode.mk "YulLiteral" [("kind", .str "string"), ("value", .str v)]
    printText true (string "a\"b") = .ok "\"a\"b\"".toList ∧ SolLiteral.read false "\"a\"b\"".toList = none ∧
    printText true (string "a\\n") = .ok "\"a\\n\"".toList ∧
    SolLiteral.read false "\"a\\n\"".toList = some (bytes "a\n".toList) ∧ bytes "a\n".toList ≠ bytes "a\\n".toList := by
  decide +kernel

end SolPrint
end Mutagenyx
