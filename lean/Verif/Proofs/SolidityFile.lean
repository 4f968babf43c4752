import Verif.Proofs.SolidityProgram
import Verif.Proofs.Fits
import Verif.Spec.SolidityFile

/-!
# Printed source files and their tokens
-/

namespace Mutagenyx
namespace SolPrint

open NodePrinter SolGrammar Printer Lex

/-! ### Pieces of versions -/

/-- Digits and dots, and at least one of them. -/
def versionPart (s : String) : Prop := s.toList ≠ [] ∧ ∀ c ∈ s.toList, c.isDigit = true ∨ c = '.'

theorem digitsOrDots_of {s : String} (h : versionPart s) : digitsOrDots s = true := by
  obtain ⟨h1, h2⟩ := h
  simp only [digitsOrDots, Bool.and_eq_true, Bool.not_eq_true', List.isEmpty_eq_false_iff, List.all_eq_true, Bool.or_eq_true,
    decide_eq_true_eq]
  exact ⟨h1, h2⟩

/-- Whether the printer wants a space between the two pieces. -/
def wantsSpace (prev t : String) : Bool := !(prev ∈ ["<", "<=", ">=", ">", "^"] || (digitsOrDots prev && digitsOrDots t))

theorem not_operator {s : String} (h : versionPart s) : s ∉ ["<", "<=", ">=", ">", "^"] := by
  intro hm
  simp only [List.mem_cons, List.not_mem_nil, or_false] at hm
  have := digitsOrDots_of h
  rcases hm with rfl | rfl | rfl | rfl | rfl <;> exact absurd this (by decide)

theorem operator_notVersion {s : String} (h : s ∈ ["<", "<=", ">=", ">", "^"]) : digitsOrDots s = false := by
  simp only [List.mem_cons, List.not_mem_nil, or_false] at h
  rcases h with rfl | rfl | rfl | rfl | rfl <;> decide

theorem isDigit_wordChar {c : Char} (h : c.isDigit = true) : wordChar c = true := by
  simp [wordChar, Char.isAlphanum, h]

/-- What may follow the first two numbers of a version. -/
def AfterNumber (c : Char) : Prop := Follows false c ∨ c = '.'

theorem number_leaf {t : String} (h1 : t.toList.count '.' ≤ 1) {c : Char} {cs : List Char} (ht : t.toList = c :: cs)
    (hc : c.isDigit = true) (hcs : ∀ d ∈ cs, d.isDigit = true ∨ d = '.') : isLeaf t = true := by
  have h2 : cs.count '.' ≤ 1 := by
    rw [ht, List.count_cons] at h1
    omega
  have hd : t ≠ "delete" := by rintro rfl; cases ht; exact absurd hc (by decide)
  have hn : t ≠ "new" := by rintro rfl; cases ht; exact absurd hc (by decide)
  unfold isLeaf
  rw [ht]
  simp only [isDigit_wordChar hc, hc, Bool.true_and, Bool.and_eq_true, List.all_eq_true, Bool.or_eq_true, beq_iff_eq,
    decide_eq_true_eq, Bool.not_eq_true', decide_eq_false_iff_not]
  exact ⟨⟨⟨fun d hd => (hcs d hd).imp isDigit_wordChar id, h2⟩, hd⟩, hn⟩

theorem count_digits {l : List Char} (h : ∀ c ∈ l, c.isDigit = true) : l.count '.' = 0 := by
  rw [List.count_eq_zero]
  intro hm
  exact absurd (h _ hm) (by decide)

theorem first_leaf {v : Version} (h : v.Plain) : ∃ c cs, v.first.toList = c :: cs ∧ c.isDigit = true ∧ '.' ∈ cs ∧
    isLeaf v.first = true := by
  obtain ⟨a, b, h1, h2, h3⟩ := h.first
  have ha : ∀ c ∈ a, c.isDigit = true := fun c hc => h3 c (List.mem_append_left _ hc)
  have hb : ∀ c ∈ b, c.isDigit = true := fun c hc => h3 c (List.mem_append_right _ hc)
  cases a with
  | nil => exact absurd rfl h2
  | cons c a =>
    have h4 : v.first.toList = c :: (a ++ '.' :: b) := by rw [h1]; rfl
    have hc := ha c (List.mem_cons_self ..)
    refine ⟨c, _, h4, hc, by simp, number_leaf ?_ h4 hc fun d hd => ?_⟩
    · rw [h1, List.count_append, List.count_cons_self, count_digits ha, count_digits hb]
      decide
    · rcases List.mem_append.1 hd with hd | hd
      · exact Or.inl (ha d (List.mem_cons_of_mem _ hd))
      · rcases List.mem_cons.1 hd with rfl | hd
        · exact Or.inr rfl
        · exact Or.inl (hb d hd)

theorem lexes_first {v : Version} (h : v.Plain) : Lexes lexer (word v.first) [v.first] AfterNumber := by
  obtain ⟨c, cs, h1, h2, h3, h4⟩ := first_leaf h
  have hj : ∀ d, wordChar d = false → joins v.first.toList d = false := by
    intro d hd
    rw [h1]
    simp [joins, isDigit_wordChar h2, hd, h3]
  refine lexes_word (leaf_solid h4) (by simp [h1]) ?_ (ends_of (hj _ (by decide)) (hj _ (by decide))) fun d hd => hj d ?_
  · show SolGrammar.comment v.first.toList = false
    rw [h1]
    unfold SolGrammar.comment
    split
    · rename_i he; cases he; exact absurd h2 (by decide)
    · rename_i he; cases he; exact absurd h2 (by decide)
    · rfl
  · rcases hd with (hd | hd) | rfl
    · simp only [List.mem_cons, List.not_mem_nil, or_false] at hd
      rcases hd with rfl | rfl | rfl | rfl | rfl <;> decide
    · cases hd.1
    · decide

theorem starts_first {v : Version} (h : v.Plain) : Starts (word v.first) fun c => c.isDigit = true := by
  obtain ⟨c, cs, h1, h2, _⟩ := first_leaf h
  exact starts_word h1 (wordChar_not_blank (isDigit_wordChar h2)) h2

theorem lexes_op {o : String} (h : o ∈ ["<", "<=", ">=", ">", "^"]) :
    Lexes lexer (word o) [o] (fun c => c.isDigit = true) := by
  have hw : isWord o = true := by
    simp only [List.mem_cons, List.not_mem_nil, or_false] at h
    rcases h with rfl | rfl | rfl | rfl | rfl <;> decide
  refine lexes_isWord hw fun c hc => ?_
  have h1 : c ≠ '=' := by rintro rfl; exact absurd hc (by decide)
  have h2 : c ≠ '<' := by rintro rfl; exact absurd hc (by decide)
  have h3 : c ≠ '>' := by rintro rfl; exact absurd hc (by decide)
  simp only [List.mem_cons, List.not_mem_nil, or_false] at h
  rcases h with rfl | rfl | rfl | rfl | rfl <;> simp [joins, wordChar, pairs, h1, h2, h3]

theorem lexes_patch {p : String} (h : p.toList ≠ [] ∧ ∀ c ∈ p.toList, c.isDigit = true) :
    Lexes lexer (word ("." ++ p)) [".", p] (Follows false) := by
  intro text rest hs hn
  cases hs with
  | token w u hw hs =>
    cases hs
    obtain ⟨h1, h2⟩ := h
    cases hp : p.toList with
    | nil => exact absurd hp h1
    | cons c cs =>
      have hl : isLeaf p = true := number_leaf (by rw [count_digits h2]; decide) hp (h2 c (by simp [hp]))
        fun d hd => Or.inl (h2 d (by simp [hp, hd]))
      have := tokens_leaf hl (hn.mono fun _ => follows_false)
      rw [List.append_nil, List.append_assoc, tokens_gap hw]
      have hd := tokens_dot (p.toList ++ rest)
      rw [this] at hd
      simpa using hd

theorem starts_patch (p : String) : Starts (word ("." ++ p)) AfterNumber :=
  starts_word (c := '.') (cs := p.toList) (by simp) (by decide) (Or.inr rfl)

/-- The calls for the pieces of a constraint. -/
def versionOps (v : Version) : List Op :=
  (v.op.toList.flatMap word) ++ (word v.first ++ (v.patch.toList.flatMap fun p => word ("." ++ p)))

theorem chunk_version {flows : Bool} {v : Version} (h : v.Plain) : Chunk flows (versionOps v) v.toks .expr .any := by
  have hr : Lexes lexer (word v.first ++ (v.patch.toList.flatMap fun p => word ("." ++ p)))
      (v.first :: patchToks v.patch) (Follows false) := by
    cases hp : v.patch with
    | none => simpa [patchToks] using lexes_mono (lexes_first h) fun c hc => Or.inl hc
    | some p => simpa [patchToks] using lexes_append (lexes_first h) (lexes_patch (h.patch p hp)) (starts_patch p)
  have hw : Written flows (versionOps v) := by
    intro o ho
    simp only [versionOps, List.mem_append, List.mem_flatMap, word, List.mem_singleton] at ho
    rcases ho with ⟨_, _, rfl⟩ | rfl | ⟨_, _, rfl⟩ <;> simp
  refine chunk_of hw (show Lexes lexer (versionOps v) v.toks (Follows false) from ?_) (show Starts (versionOps v) Any from ?_)
  · unfold versionOps Version.toks
    cases ho : v.op with
    | none => simpa using hr
    | some o =>
      have := lexes_append (lexes_op (h.op o ho)) hr ((starts_first h).append _)
      simpa using this
  · unfold versionOps
    cases ho : v.op with
    | none => simpa using ((starts_first h).append _).any
    | some o =>
      have hop := h.op o ho
      have hw : isWord o = true := by
        simp only [List.mem_cons, List.not_mem_nil, or_false] at hop
        rcases hop with rfl | rfl | rfl | rfl | rfl <;> decide
      simpa using ((isWord_starts hw).append _)

variable {m : Mode}

theorem first_part {v : Version} (h : v.Plain) : versionPart v.first := by
  obtain ⟨a, b, h1, _, h3⟩ := h.first
  refine ⟨by simp [h1], fun c hc => ?_⟩
  rw [h1] at hc
  rcases List.mem_append.1 hc with hc | hc
  · exact Or.inl (h3 c (List.mem_append_left _ hc))
  · rcases List.mem_cons.1 hc with rfl | hc
    · exact Or.inr rfl
    · exact Or.inl (h3 c (List.mem_append_right _ hc))

theorem patch_part {v : Version} {p : String} (h : v.Plain) (hp : v.patch = some p) : versionPart ("." ++ p) := by
  refine ⟨by simp, fun c hc => ?_⟩
  rw [String.toList_append] at hc
  rcases List.mem_append.1 hc with hc | hc
  · exact Or.inr (by simpa using hc)
  · exact Or.inl ((h.patch p hp).2 c hc)

theorem pragmaLoop_cons (len i : Nat) (prev t : String) (ts : List String) :
    pragmaLoop len i prev ((t :: ts).map Json.str) =
      when (decide (i < len - 1) && wantsSpace prev t) sp ++ tok t ++ pragmaLoop len (i + 1) t (ts.map Json.str) := by
  rw [List.map_cons, pragmaLoop.eq_def]
  rfl

/-- The pieces for a constraint, as one space and the pieces without spaces. -/
theorem pragmaLoop_version {len i : Nat} {prev : String} {v : Version} {more : List String} (h : v.Plain)
    (hprev : prev ∉ ["<", "<=", ">=", ">", "^"])
    (hop : v.op ≠ none ∨ (digitsOrDots prev = false ∧ (v.patch ≠ none ∨ more ≠ [])))
    (hlen : len = i + (v.pieces ++ more).length) :
    ∃ last, versionPart last ∧ expand m.checks (printOps m.checks) (pragmaLoop len i prev ((v.pieces ++ more).map Json.str)) =
      [.space] ++ versionOps v ++ expand m.checks (printOps m.checks) (pragmaLoop len (i + v.pieces.length) last (more.map Json.str)) := by
  have tail : ∀ j, ∃ last, versionPart last ∧
      expand m.checks (printOps m.checks) (pragmaLoop len j v.first (((v.patch.map ("." ++ ·)).toList ++ more).map Json.str)) =
        (v.patch.toList.flatMap fun p => word ("." ++ p)) ++
          expand m.checks (printOps m.checks) (pragmaLoop len (j + v.patch.toList.length) last (more.map Json.str)) := by
    intro j
    cases hp : v.patch with
    | none => exact ⟨v.first, first_part h, by simp⟩
    | some p =>
      have hw : wantsSpace v.first ("." ++ p) = false := by
        simp only [wantsSpace, digitsOrDots_of (first_part h), digitsOrDots_of (patch_part h hp)]
        simp
      refine ⟨_, patch_part h hp, ?_⟩
      simp only [Option.map_some, Option.toList_some, List.cons_append, List.nil_append]
      rw [pragmaLoop_cons, hw]
      simp [when, expand, tok, word]
  have hpl : ∀ k, k + (v.patch.map ("." ++ ·)).toList.length = k + v.patch.toList.length := by cases v.patch <;> intro k <;> rfl
  have he1 : ∀ k, i + 1 + 1 + k = i + (k + 1 + 1) := by intro k; omega
  have he2 : ∀ k, i + 1 + k = i + (k + 1) := by intro k; omega
  have hpl' : (v.patch.map ("." ++ ·)).toList.length = v.patch.toList.length := by cases v.patch <;> rfl
  cases ho : v.op with
  | some o =>
    have hop := h.op o ho
    have hw : wantsSpace prev o = true := by
      simp only [wantsSpace, operator_notVersion hop, Bool.and_false, Bool.or_false]; simpa using hprev
    have hw' : wantsSpace o v.first = false := by simp only [wantsSpace]; simp [hop]
    have hl : i < len - 1 := by
      rw [hlen]
      simp only [Version.pieces, ho, Option.toList_some, List.length_append, List.length_cons, List.length_nil]
      omega
    obtain ⟨last, h1, h2⟩ := tail (i + 1 + 1)
    refine ⟨last, h1, ?_⟩
    simp only [Version.pieces, versionOps, ho, Option.toList_some, List.cons_append, List.nil_append]
    rw [pragmaLoop_cons, pragmaLoop_cons, hw, hw']
    simp only [hl, decide_true, Bool.and_true, when, if_true, Bool.and_false, Bool.false_eq_true, if_false, List.nil_append,
      expand_append, h2]
    simp only [List.length_cons, hpl', he1, he2]
    simp [expand, sp, tok, word]
  | none =>
    rw [ho] at hop
    simp only [ne_eq, not_true_eq_false, false_or] at hop
    have hw : wantsSpace prev v.first = true := by
      simp only [wantsSpace, hop.1, Bool.false_and, Bool.or_false]
      simpa using hprev
    have hl : i < len - 1 := by
      rw [hlen]
      simp only [Version.pieces, ho, Option.toList_none, List.nil_append, List.cons_append, List.length_cons, List.length_append]
      rcases hop.2 with hx | hx
      · cases hp : v.patch with
        | none => exact absurd hp hx
        | some p => simp; omega
      · have := List.length_pos_iff.2 hx
        omega
    obtain ⟨last, h1, h2⟩ := tail (i + 1)
    refine ⟨last, h1, ?_⟩
    simp only [Version.pieces, versionOps, ho, Option.toList_none, List.cons_append, List.nil_append]
    rw [pragmaLoop_cons, hw]
    simp only [hl, decide_true, Bool.and_true, when, if_true, expand_append, h2]
    simp only [List.length_cons, hpl', he1, he2]
    simp [expand, sp, tok, word]

theorem c_versions {len : Nat} : (vs : List Version) → (i : Nat) → (prev : String) → (∀ v ∈ vs, v.Plain) →
    prev ∉ ["<", "<=", ">=", ">", "^"] → (∀ v ∈ vs.tail, v.op ≠ none) →
    (∀ v, vs.head? = some v → v.op ≠ none ∨ (digitsOrDots prev = false ∧ (v.patch ≠ none ∨ vs.tail ≠ []))) →
    len = i + (vs.flatMap Version.pieces).length →
    PC m (pragmaLoop len i prev ((vs.flatMap Version.pieces).map Json.str)) (vs.flatMap Version.toks) .expr .expr
  | [], _, _, _, _, _, _, _ => c_nil
  | v :: vs, i, prev, hg, hprev, ht, hh, hlen => by
    have hv := hg v (List.mem_cons_self ..)
    have hmore : vs ≠ [] → vs.flatMap Version.pieces ≠ [] := by
      intro h
      cases vs with
      | nil => exact absurd rfl h
      | cons w ws => simp [Version.pieces]
    rw [List.flatMap_cons] at hlen
    obtain ⟨last, h1, h2⟩ := pragmaLoop_version (m := m) (len := len) (i := i) (prev := prev) (v := v)
      (more := vs.flatMap Version.pieces) hv hprev ((hh v rfl).imp id fun ⟨a, b⟩ => ⟨a, b.imp id hmore⟩) hlen
    have ih := c_versions (len := len) vs (i + v.pieces.length) last (fun d hd => hg d (List.mem_cons_of_mem _ hd)) (not_operator h1)
      (fun d hd => ht d (List.mem_of_mem_tail hd)) (fun d hd => Or.inl (ht d (List.mem_of_mem_head? hd)))
      (by rw [hlen, List.length_append]; omega)
    unfold PC at ih ⊢
    rw [List.flatMap_cons, List.flatMap_cons, h2]
    have := (chunk_space.append (chunk_version hv)).append ih
    refine (this.mono (q' := .expr) (p' := .expr)).mono

/-! ### The parts of a file -/

theorem p_pragma {vs : List Version} {j : Json} (h : ShowsItem (.pragma vs) j) (hp : (Item.pragma vs).Plain m.flows) :
    Prints m {} j (Item.pragma vs).toks .any := by
  obtain ⟨h0, h1⟩ := h
  obtain ⟨hv, ht, v, hh, hl⟩ := hp
  unfold IsA at h0
  refine prints_of (body := pragma j) (by simp [layout, h0]) ?_
  refine c_onArray h1 ?_
  have hlen : 0 < (vs.flatMap Version.pieces).length := by
    cases vs with
    | nil => cases hh
    | cons w ws => simp [Version.pieces]; omega
  rw [pragmaLoop_cons]
  have hw : wantsSpace "pragma" "solidity" = true := by decide
  have hi : 0 < (("solidity" :: vs.flatMap Version.pieces).map Json.str).length - 1 := by simpa using hlen
  simp only [hw, hi, decide_true, Bool.and_self, when, if_true]
  have c1 := c_versions (m := m) (len := (("solidity" :: vs.flatMap Version.pieces).map Json.str).length) vs (0 + 1) "solidity" hv
    (by decide) ht (fun w hw => by
      rw [hh] at hw
      cases hw
      exact hl.imp id fun h => ⟨by decide, h⟩) (by simp; omega)
  have := c_name (m := m) (t := "pragma") (by decide) +++ (c_sp +++ c_name (t := "solidity") (by decide) +++ c1) +++ c_semi
  exact this.cast (by simp [Item.toks])

theorem p_import {i : Import} {j : Json} {flows : Bool} (h : ShowsImport i j) (hp : (Item.import_ i).Plain flows) :
    Prints m {} j i.toks .any := by
  obtain ⟨h0, h1, h2, js, h3, h4⟩ := h
  obtain ⟨p1, p2, p3, p4⟩ := hp
  unfold IsA at h0
  refine prints_around (entry := (importDirective {} j).entry) (body := (importDirective {} j).body) (exit := [])
    (by simp [layout, h0, importDirective]) ?_
  simp only [importDirective]
  have alias_ : PC m (onStr "unitAlias" j fun a => when (!a.toList.isEmpty) (sp ++ tok "as" ++ sp ++ tok a))
      (asToks i.alias_) .name .name := by
    cases hu : j.getStrForKey "unitAlias" with
    | none =>
      rw [hu] at h2
      rw [← h2]
      simpa [onStr, hu, onSome, asToks] using (c_nil (m := m) (q := .name) (p := .name))
    | some a =>
      rw [hu] at h2
      refine c_onStr hu ?_
      by_cases ha : a = ""
      · subst ha
        rw [← h2]
        exact c_nil
      · rw [Option.filter_some, if_pos (by simpa using ha)] at h2
        have he : a.toList.isEmpty = false := by
          rw [List.isEmpty_eq_false_iff]
          intro hn
          exact ha (String.toList_inj.1 (by simpa using hn))
        simp only [he, Bool.not_false, when, if_true]
        have := c_sp (m := m) +++ c_name (t := "as") (by decide) +++ c_sp +++ c_name (p2 a h2.symm)
        rw [← h2]
        exact this.mono
  have file : PC m (onStr "file" j fun f => [.op (.string f.toList)]) [quoted i.file] .any .any :=
    c_onStr h1 (c_string p1)
  cases hs : i.symbols with
  | nil =>
    rw [hs] at h4
    cases js with
    | cons x xs => exact absurd h4 (by simp [Pairwise₂])
    | nil =>
      have e1 : (onArray "symbolAliases" j fun xs => when (!xs.isEmpty)
          (sp ++ tok "{" ++ arrayWith (fun a => field ({} : PrintSettings) "foreign" a ++
            onStr "local" a fun l => sp ++ tok "as" ++ sp ++ tok l) (tok "," ++ sp) xs ++ tok "}")) = [] := by
        simp [onArray, onField, h3, onSome, Json.asArray, when]
      have e2 : (onArray "symbolAliases" j fun xs => when (!xs.isEmpty) (tok "from" ++ sp)) = ([] : Ps) := by
        simp [onArray, onField, h3, onSome, Json.asArray, when]
      rw [e1, e2]
      simp only [List.nil_append, List.append_nil]
      have := c_name (m := m) (t := "import") (by decide) +++ (c_sp +++ file +++ alias_ +++ c_semi)
      exact this.cast (by simp [Import.toks, hs])
  | cons s ss =>
    have hne : i.symbols ≠ [] := by simp [hs]
    rw [hs] at h4
    cases js with
    | nil => exact absurd h4 (by simp [Pairwise₂])
    | cons x xs =>
      have e1 : PC m (onArray "symbolAliases" j fun xs => when (!xs.isEmpty)
          (sp ++ tok "{" ++ arrayWith (fun a => field ({} : PrintSettings) "foreign" a ++
            onStr "local" a fun l => sp ++ tok "as" ++ sp ++ tok l) (tok "," ++ sp) xs ++ tok "}"))
          ("{" :: (sepBy "," ((s :: ss).map fun s => s.1 :: asToks s.2) ++ ["}"])) .any .blank := by
        refine c_onArray h3 ?_
        simp only [List.isEmpty_cons, Bool.not_false, when, if_true]
        have c1 : PC m (arrayWith (fun a => field ({} : PrintSettings) "foreign" a ++
            onStr "local" a fun l => sp ++ tok "as" ++ sp ++ tok l) (tok "," ++ sp) (x :: xs))
            (joined [","] ((s :: ss).map fun s => s.1 :: asToks s.2)) .name .any := by
          refine c_arrayWith (q' := .any) (p' := .expr) (by simpa using c_comma +++ c_sp)
            (pairwise_map _ _ h4 fun a ha y hy => ?_)
          obtain ⟨_, ⟨v, hy1, hy2⟩, hy3⟩ := hy
          have hpa := p4 a (by rw [hs]; exact ha)
          have cf := c_field (s := ({} : PrintSettings)) hy1 (p_name (m := m) hy2 ⟨by simp, fun n hn => by
            simp only [List.mem_singleton] at hn; subst hn; exact hpa.1⟩)
          have cl : PC m (onStr "local" y fun l => sp ++ tok "as" ++ sp ++ tok l) (asToks a.2) .name .name := by
            cases ha2 : a.2 with
            | none => rw [ha2] at hy3; simpa [onStr, hy3, onSome, asToks] using (c_nil (m := m) (q := .name) (p := .name))
            | some l =>
              rw [ha2] at hy3
              refine c_onStr hy3 ?_
              have := c_sp (m := m) +++ c_name (t := "as") (by decide) +++ c_sp +++ c_name (hpa.2 l ha2)
              exact this.mono
          exact (cf +++ cl).cast (by simp [pathToks, sepBy])
        rw [joined_one] at c1
        exact (c_sp +++ c_brace +++ c1 +++ c_unbrace).cast (by simp)
      have e2 : PC m (onArray "symbolAliases" j fun xs => when (!xs.isEmpty) (tok "from" ++ sp)) ["from"] .any .any := by
        refine c_onArray h3 ?_
        simp only [List.isEmpty_cons, Bool.not_false, when, if_true]
        exact (c_name (t := "from") (by decide) +++ c_sp).cast (by simp)
      have := c_name (m := m) (t := "import") (by decide) +++ (e1 +++ c_sp +++ e2 +++ file +++ alias_ +++ c_semi)
      rw [List.append_nil]
      exact this.cast (by simp [Import.toks, hs])

theorem c_item : (x : Item) → (j : Json) → ShowsItem x j → x.Plain m.flows → PC m (ind ++ [.sub ({} : PrintSettings) j]) x.toks .any .any
  | .pragma vs, j, h, hp => (c_ind +++ c_sub (p_pragma h hp)).cast (by simp)
  | .import_ i, j, h, hp => (c_ind +++ c_sub (p_import h hp)).cast (by simp [Item.toks])
  | .contract c, j, h, hp => (c_ind +++ c_sub (p_contract h hp)).cast (by simp [Item.toks])
  | .member x, j, h, hp => by
    have hc := c_member x j h hp.1 (fun t ht => by subst ht; exact hp.2)
    have other : ∀ {t : String}, IsA t j → t ≠ "VariableDeclaration" → PC m (ind ++ [.sub ({} : PrintSettings) j]) x.toks .any .any := by
      intro t ht hne
      unfold IsA at ht
      simpa [memberPieces, ht, hne, when] using hc
    have h2 := hp.2
    cases x with
    | state => exact h2.elim
    | fn => exact h2.elim
    | modifier => exact h2.elim
    | comment => exact h2.elim
    | _ => exact other h.1 (by decide)

/-! ### Files -/

theorem run_append (checks : Bool) : (a b : List Op) → (p : Printer) →
    run checks (a ++ b) p = match run checks a p with
      | .ok q => run checks b q
      | o => o
  | [], _, _ => rfl
  | o :: a, b, p => by
    simp only [List.cons_append, run]
    cases exec checks o p with
    | ok q => exact run_append checks a b q
    | err _ => rfl
    | panic => rfl
    | outOfFuel => rfl

/-- The calls for the license. -/
def licenseOps (l : String) : List Op :=
  [.token "//".toList, .space, .token "SPDX-License-Identifier".toList, .token ":".toList, .space, .token l.toList]

theorem license_line : "// SPDX-License-Identifier: ".toList =
    "//".toList ++ ' ' :: ("SPDX-License-Identifier".toList ++ (":".toList ++ [' '])) := by decide

/-- The calls for the parts of a file have their tokens. -/
theorem file_body {checks flows : Bool} {f : SourceFile} {j : Json} (h : ShowsFile f j) (hp : f.Plain flows) :
    Chunk flows (expand checks (printOps checks) ((onArray "nodes" j fun xs => arrayWith (fun n => ind ++ [.sub ({} : PrintSettings) n]) (nl ++ nl) xs ++ nl) ++ nl))
      f.toks .any .any := by
  obtain ⟨_, _, js, h2, h3⟩ := h
  have c1 : PC ⟨checks, flows⟩ (arrayWith (fun n => ind ++ [.sub ({} : PrintSettings) n]) (nl ++ nl) js) (joined [] (f.items.map Item.toks)) .any .any :=
    c_arrayWith (q' := .any) (p' := .blank) (by simpa using c_nl +++ c_nl)
      (pairwise_map _ _ h3 fun x hx y hy => c_item (m := ⟨checks, flows⟩) x y hy (hp.items x hx))
  rw [joined_none] at c1
  have := c_onArray (m := ⟨checks, flows⟩) (f := fun xs => arrayWith (fun n => ind ++ [.sub ({} : PrintSettings) n]) (nl ++ nl) xs ++ nl) h2 (c1 +++ c_nl) +++ c_nl
  exact (this.cast (by simp [SourceFile.toks, List.flatMap])).mono

theorem file_ops {checks : Bool} {f : SourceFile} {j : Json} (h : ShowsFile f j) :
    printOps checks {} j = (match f.license with
      | none => []
      | some l => licenseOps l ++ [.newline]) ++ expand checks (printOps checks)
        ((onArray "nodes" j fun xs => arrayWith (fun n => ind ++ [.sub ({} : PrintSettings) n]) (nl ++ nl) xs ++ nl) ++ nl) := by
  obtain ⟨h0, h1, _⟩ := h
  unfold IsA at h0
  rw [printOps_around (entry := (sourceUnit {} j).entry) (body := (sourceUnit {} j).body) (exit := (sourceUnit {} j).exit)
    (by simp [layout, h0, sourceUnit])]
  simp only [sourceUnit, onStr, h1]
  rw [expand_append]
  cases f.license with
  | none => simp [onSome, expand]
  | some l => simp [onSome, expand, licenseOps, tok, sp, nl]

/-- How the printing of a file ends. -/
theorem file_run {checks flows : Bool} {f : SourceFile} {j : Json} (h : ShowsFile f j) (hp : f.Plain flows) :
    (flows = false → ∃ text, printText checks j = .ok text) ∧
      ∀ text, printText checks j = .ok text → SolGrammar.tokens text = f.toks := by
  have hb := file_body (checks := checks) h hp
  generalize hbe : expand checks (printOps checks)
    ((onArray "nodes" j fun xs => arrayWith (fun n => ind ++ [.sub ({} : PrintSettings) n]) (nl ++ nl) xs ++ nl) ++ nl) = body at hb
  have ho := file_ops (checks := checks) h
  rw [hbe] at ho
  cases hl : f.license with
  | none =>
    rw [hl, List.nil_append] at ho
    have hpr : Prints ⟨checks, flows⟩ {} j f.toks .any := by
      unfold Prints
      rw [ho]
      exact hb
    refine ⟨fun hf => ?_, fun text ht => printText_flows hpr ht⟩
    subst hf
    obtain ⟨text, h1, _⟩ := printText_of hpr
    exact ⟨text, h1⟩
  | some l =>
    rw [hl] at ho
    obtain ⟨hn, hlen⟩ := hp.license l hl
    have hline : lineOf (licenseOps l) = some ("// SPDX-License-Identifier: ".toList ++ l.toList) := by
      rw [license_line]
      simp [licenseOps, lineOf, written]
    have hu : utf8Len ("// SPDX-License-Identifier: ".toList ++ l.toList) < 150 := by
      have h28 : utf8Len "// SPDX-License-Identifier: ".toList = 28 := by decide
      rw [utf8Len_append, h28]
      exact hlen
    obtain ⟨q, h1, h2, h3, h4⟩ := run_fits checks (p := Printer.new 4 150) hline
      (by
        have h5 : (Printer.new 4 150).column = 1 := rfl
        have h6 : (Printer.new 4 150).pageWidth = 150 := rfl
        rw [h5, h6]
        omega)
    have hroom : Roomy q := by
      have := run_limits h1 (by decide)
      refine ⟨this.1, ?_⟩
      rw [this.2.1, this.2.2.1, this.2.2.2]
      decide
    have hrun : run checks (printOps checks {} j) (Printer.new 4 150) = run checks ([.newline] ++ body) q := by
      rw [ho, List.append_assoc, run_append, h1]
    have hw : Chunk flows ([.newline] ++ body) f.toks .any .any := by
      have := chunk_newline.append hb
      exact this.mono
    have key : ∀ r text, Spread ([.newline] ++ body) text → r = q.out ++ text → SolGrammar.tokens r = f.toks := by
      intro r text hs hr
      obtain ⟨x, y, rfl, hx, hy⟩ := spread_append hs
      cases hx with
      | newline w hwg _ hx =>
        cases hx
        have hout : q.out = "// SPDX-License-Identifier: ".toList ++ l.toList := by rw [h2]; rfl
        have h5 := (hb.2 y [] hy Lex.next_nil).1
        rw [List.append_nil] at h5
        have h6 := tokens_lineComment (t := " SPDX-License-Identifier: ".toList ++ l.toList) (w := w) (rest := y) (by
          intro hm
          rcases List.mem_append.1 hm with hm | hm
          · exact absurd hm (by decide)
          · exact hn hm) hwg
        rw [hr, hout]
        unfold SolGrammar.tokens
        have he : "// SPDX-License-Identifier: ".toList ++ l.toList ++ (w ++ ['\n'] ++ y) =
            '/' :: '/' :: ((" SPDX-License-Identifier: ".toList ++ l.toList) ++ (w ++ '\n' :: y)) := by
          rw [show "// SPDX-License-Identifier: ".toList = '/' :: '/' :: " SPDX-License-Identifier: ".toList from by decide]
          simp
        rw [he, h6, h5]
        simp [Lex.tokens, emit]
    refine ⟨fun hf => ?_, fun text ht => ?_⟩
    · subst hf
      obtain ⟨r, text, h5, _, _⟩ := run_written checks hw.1 hroom
      exact ⟨r.out, by rw [printText, hrun, h5]⟩
    · unfold printText at ht
      rw [hrun] at ht
      cases hr : run checks ([.newline] ++ body) q with
      | ok r =>
        rw [hr] at ht
        cases ht
        obtain ⟨text, h5, h6⟩ := run_flows checks hw.1 hroom hr
        exact key _ text h6 h5
      | err _ => rw [hr] at ht; cases ht
      | panic => rw [hr] at ht; cases ht
      | outOfFuel => rw [hr] at ht; cases ht

end SolPrint
end Mutagenyx
