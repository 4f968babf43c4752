import Verif.Model.PrinterOps
import Verif.Proofs.Flow

/-!
# Tokens and spaces on the page

Calls that only write tokens and spaces leave them on the page in order, possibly with line breaks and
indentation before them.  Flowable text may be broken between its words.
-/

namespace Mutagenyx
namespace Printer

/-- White space. -/
def isGap (w : List Char) : Prop := ∀ c ∈ w, c = ' ' ∨ c = '\n'

/-- A text with single spaces in place of newlines and of several spaces. -/
def flattened (s : List Char) : List Char := Text.collapse (s.map fun c => if c = '\n' then ' ' else c)

/-- How flowable text may be broken: at a space, which is replaced by white space and the start of the next line, or
before the text. -/
inductive Flows (next : List Char) : List Char → List Char → Prop
  | last (s : List Char) : Flows next s (flattened s)
  | broken {s a b w text : List Char} : flattened s = a ++ ' ' :: b → isGap w → Flows next b text →
      Flows next s (a ++ (w ++ (next ++ text)))
  | before {s w text : List Char} : isGap w → Flows next (flattened s) text → Flows next s (w ++ (next ++ text))

/-- The calls that begin a comment on a line. -/
def LineStart (ops : List Op) : Prop := ∃ rest, ops = .indent :: .token ['/', '/'] :: .space :: rest

/-- The text is what the calls write, with white space before each.  The beginning of a comment on a new line is not broken. -/
inductive Spread : List Op → List Char → Prop
  | nil : Spread [] []
  | token (w t : List Char) {ops : List Op} {text : List Char} : isGap w → Spread ops text →
      Spread (.token t :: ops) (w ++ (t ++ text))
  | string (w t : List Char) {ops : List Op} {text : List Char} : isGap w → Spread ops text →
      Spread (.string t :: ops) (w ++ (['"'] ++ t ++ ['"'] ++ text))
  | space (w : List Char) {ops : List Op} {text : List Char} : isGap w → Spread ops text →
      Spread (.space :: ops) (w ++ (' ' :: text))
  | newline (w : List Char) {ops : List Op} {text : List Char} : isGap w → ¬ LineStart ops → Spread ops text →
      Spread (.newline :: ops) (w ++ ('\n' :: text))
  | lineComment (w v : List Char) {ops : List Op} {text : List Char} : isGap w → isGap v → Spread ops text →
      Spread (.newline :: .indent :: .token ['/', '/'] :: .space :: ops) (w ++ ('\n' :: (v ++ ('/' :: '/' :: ' ' :: text))))
  | indent (w : List Char) {ops : List Op} {text : List Char} : isGap w → Spread ops text →
      Spread (.indent :: ops) (w ++ text)
  | flow {s next w : List Char} {ops : List Op} {text : List Char} : Flows next s w → Spread ops text →
      Spread (.flow s next :: ops) (w ++ text)
  | incr {ops : List Op} {text : List Char} : Spread ops text → Spread (.incr :: ops) text
  | decr {ops : List Op} {text : List Char} : Spread ops text → Spread (.decr :: ops) text

/-- Only tokens and spaces. -/
def Simple (ops : List Op) : Prop := ∀ o ∈ ops, (∃ t, o = .token t) ∨ o = .space

theorem Simple.append {a b : List Op} (ha : Simple a) (hb : Simple b) : Simple (a ++ b) := fun o ho =>
  (List.mem_append.1 ho).elim (ha o) (hb o)

theorem simple_token (t : List Char) : Simple [.token t] := fun _ ho =>
  Or.inl ⟨t, List.mem_singleton.1 ho⟩

theorem simple_space : Simple [.space] := fun _ ho => Or.inr (List.mem_singleton.1 ho)

theorem simple_nil : Simple [] := fun _ ho => by cases ho

theorem isGap_nil : isGap [] := fun _ h => by cases h

theorem spread_split (n : Nat) {a b : List Op} {text : List Char} (hn : a.length ≤ n) (h : Spread (a ++ b) text) :
    ∃ s t, text = s ++ t ∧ Spread a s ∧ Spread b t := by
  induction n generalizing a text with
  | zero =>
    cases a with
    | nil => exact ⟨[], text, rfl, .nil, h⟩
    | cons => simp at hn
  | succ n ih =>
  cases a with
  | nil => exact ⟨[], text, rfl, .nil, h⟩
  | cons o a =>
    rw [List.length_cons] at hn
    generalize ho : o :: a ++ b = ops at h
    rw [List.cons_append] at ho
    cases h with
    | nil => cases ho
    | token w t hw h =>
      cases ho
      obtain ⟨s, u, rfl, h1, h2⟩ := ih (by omega) h
      exact ⟨_, u, by simp, .token w t hw h1, h2⟩
    | string w t hw h =>
      cases ho
      obtain ⟨s, u, rfl, h1, h2⟩ := ih (by omega) h
      exact ⟨_, u, by simp, .string w t hw h1, h2⟩
    | space w hw h =>
      cases ho
      obtain ⟨s, u, rfl, h1, h2⟩ := ih (by omega) h
      exact ⟨_, u, by simp, .space w hw h1, h2⟩
    | newline w hw hl h =>
      cases ho
      obtain ⟨s, u, rfl, h1, h2⟩ := ih (by omega) h
      exact ⟨_, u, by simp, .newline w hw (fun ⟨r, hr⟩ => hl ⟨r ++ b, by rw [hr]; rfl⟩) h1, h2⟩
    | lineComment w v hw hv h =>
      injection ho with ho ho'
      subst ho
      have hnl : ∀ ops : List Op, ops.length < 3 → ¬ LineStart ops := fun ops h ⟨r, hr⟩ => by
        rw [hr] at h
        simp only [List.length_cons] at h
        omega
      rcases a with _ | ⟨x, _ | ⟨y, _ | ⟨z, a'⟩⟩⟩
      · have ho' : b = _ := ho'
        subst ho'
        exact ⟨w ++ ['\n'], _, by simp, .newline w hw (hnl _ (by simp)) .nil,
          .indent v hv (.token [] _ isGap_nil (.space [] isGap_nil h))⟩
      · injection ho' with ho ho'
        have ho' : b = _ := ho'
        subst ho ho'
        exact ⟨w ++ ('\n' :: (v ++ [])), _, by simp, .newline w hw (hnl _ (by simp)) (.indent v hv .nil),
          .token [] _ isGap_nil (.space [] isGap_nil h)⟩
      · injection ho' with ho ho'
        injection ho' with ho2 ho'
        have ho' : b = _ := ho'
        subst ho ho2 ho'
        exact ⟨w ++ ('\n' :: (v ++ ([] ++ (['/', '/'] ++ [])))), _, by simp, .newline w hw (hnl _ (by simp))
          (.indent v hv (.token [] _ isGap_nil .nil)), .space [] isGap_nil h⟩
      · injection ho' with ho ho'
        injection ho' with ho2 ho'
        injection ho' with ho3 ho'
        have ho' : a' ++ b = _ := ho'
        subst ho ho2 ho3 ho'
        simp only [List.length_cons] at hn
        obtain ⟨s, u, rfl, h1, h2⟩ := ih (by omega) h
        exact ⟨_, u, by simp, .lineComment w v hw hv h1, h2⟩
    | indent w hw h =>
      cases ho
      obtain ⟨s, u, rfl, h1, h2⟩ := ih (by omega) h
      exact ⟨_, u, by simp, .indent w hw h1, h2⟩
    | flow hf h =>
      cases ho
      obtain ⟨s, u, rfl, h1, h2⟩ := ih (by omega) h
      exact ⟨_, u, by simp, .flow hf h1, h2⟩
    | incr h =>
      cases ho
      obtain ⟨s, u, rfl, h1, h2⟩ := ih (by omega) h
      exact ⟨s, u, rfl, .incr h1, h2⟩
    | decr h =>
      cases ho
      obtain ⟨s, u, rfl, h1, h2⟩ := ih (by omega) h
      exact ⟨s, u, rfl, .decr h1, h2⟩

theorem spread_append {a b : List Op} {text : List Char} (h : Spread (a ++ b) text) :
    ∃ s t, text = s ++ t ∧ Spread a s ∧ Spread b t := spread_split a.length (Nat.le_refl _) h


theorem newlineIndent_out (p : Printer) : ∃ w, isGap w ∧ p.writeNewline.writeIndent.out = p.out ++ w := by
  unfold writeIndent
  split
  · exact ⟨['\n'], fun c hc => Or.inr (List.mem_singleton.1 hc), rfl⟩
  · refine ⟨'\n' :: p.writeNewline.indentString, fun c hc => ?_, by simp [writeNewline, basic]⟩
    rcases List.mem_cons.1 hc with rfl | hc
    · exact Or.inr rfl
    · exact Or.inl (List.eq_of_mem_replicate hc)

theorem writeSpace_out (p : Printer) : ∃ w, isGap w ∧ p.writeSpace.out = p.out ++ (w ++ [' ']) := by
  obtain ⟨w, hw, h⟩ := newlineIndent_out p
  unfold writeSpace
  simp only
  split
  · exact ⟨w, hw, by simp [basic, h]⟩
  · exact ⟨[], isGap_nil, by simp [basic]⟩

theorem writeToken_out (t : List Char) (p : Printer) : ∃ w, isGap w ∧ (p.writeToken t).out = p.out ++ (w ++ t) := by
  have h1 : ∃ w, isGap w ∧ (if p.column > p.pageWidth then p.writeNewline else p).out = p.out ++ w := by
    split
    · exact ⟨['\n'], fun c hc => Or.inr (List.mem_singleton.1 hc), rfl⟩
    · exact ⟨[], isGap_nil, by simp⟩
  unfold writeToken
  simp only
  generalize (if p.column > p.pageWidth then p.writeNewline else p) = q at h1 ⊢
  obtain ⟨w, hw, h1⟩ := h1
  obtain ⟨v, hv, h2⟩ := newlineIndent_out q
  have hvw : isGap (w ++ v) := fun c hc => (List.mem_append.1 hc).elim (hw c) (hv c)
  split <;> split
  · exact ⟨w ++ v, hvw, by simp [basic, h2, h1]⟩
  · exact ⟨w, hw, by simp [basic, h1]⟩
  · exact ⟨w ++ v, hvw, by simp [basic, h2, h1]⟩
  · exact ⟨w, hw, by simp [basic, h1]⟩

/-- Writing tokens and spaces never fails, and what appears on the page are these tokens and spaces. -/
theorem run_spread (checks : Bool) {ops : List Op} (h : Simple ops) (p : Printer) :
    ∃ q text, run checks ops p = .ok q ∧ q.out = p.out ++ text ∧ Spread ops text := by
  induction ops generalizing p with
  | nil => exact ⟨p, [], rfl, by simp, .nil⟩
  | cons o ops ih =>
    have hs : Simple ops := fun x hx => h x (List.mem_cons_of_mem _ hx)
    rcases h o (List.mem_cons_self ..) with ⟨t, rfl⟩ | rfl
    · obtain ⟨w, hw, h1⟩ := writeToken_out t p
      obtain ⟨q, text, h2, h3, h4⟩ := ih hs (p.writeToken t)
      exact ⟨q, w ++ (t ++ text), by simpa [run, exec] using h2, by rw [h3, h1]; simp, .token w t hw h4⟩
    · obtain ⟨w, hw, h1⟩ := writeSpace_out p
      obtain ⟨q, text, h2, h3, h4⟩ := ih hs p.writeSpace
      exact ⟨q, w ++ (' ' :: text), by simpa [run, exec] using h2, by rw [h3, h1]; simp, .space w hw h4⟩

/-- Only tokens, strings, spaces, layout and, if `flows` is set, flowable text. -/
def Written (flows : Bool) (ops : List Op) : Prop :=
  ∀ o ∈ ops, (∃ t, o = .token t) ∨ o = .space ∨ o = .newline ∨ o = .indent ∨ o = .incr ∨ o = .decr ∨
    (∃ t, o = .string t) ∨ (flows = true ∧ ∃ s next, o = .flow s next)

variable {flows : Bool}

theorem Written.append {a b : List Op} (ha : Written flows a) (hb : Written flows b) : Written flows (a ++ b) := fun o ho =>
  (List.mem_append.1 ho).elim (ha o) (hb o)

theorem Simple.written {ops : List Op} (h : Simple ops) : Written flows ops := fun o ho =>
  (h o ho).imp id Or.inl

theorem writeIndent_out (p : Printer) : ∃ w, isGap w ∧ p.writeIndent.out = p.out ++ w := by
  unfold writeIndent
  split
  · exact ⟨[], isGap_nil, by simp⟩
  · exact ⟨p.indentString, fun c hc => Or.inl (List.eq_of_mem_replicate hc), rfl⟩

theorem isGap_append {v w : List Char} (hv : isGap v) (hw : isGap w) : isGap (v ++ w) := fun c hc =>
  (List.mem_append.1 hc).elim (hv c) (hw c)

theorem nextLine_out (next : List Char) (p : Printer) :
    ∃ w, isGap w ∧ (p.writeNewline.writeIndent.writeToken next).out = p.out ++ (w ++ next) := by
  obtain ⟨v, hv, h1⟩ := newlineIndent_out p
  obtain ⟨w, hw, h2⟩ := writeToken_out next p.writeNewline.writeIndent
  exact ⟨v ++ w, isGap_append hv hw, by rw [h2, h1]; simp⟩

/-- Flowable text, if writing it ends. -/
theorem writeFlowable_flows (checks : Bool) (next : List Char) (fuel : Nat) (s : List Char) (p q : Printer)
    (h : writeFlowable checks fuel s next p = .ok q) : ∃ w, q.out = p.out ++ w ∧ Flows next s w := by
  induction fuel generalizing s p with
  | zero => cases h
  | succ fuel ih =>
    unfold writeFlowable at h
    rw [flowText_eq] at h
    simp only at h
    rw [show (Text.collapse (s.map fun c => if c = '\n' then ' ' else c)) = flattened s from rfl] at h
    split at h
    · split at h
      · cases h
      · cases h
        exact ⟨_, rfl, .last s⟩
    · split at h
      · split at h
        · obtain ⟨w, h1, h2⟩ := ih _ _ h
          obtain ⟨v, hv, h3⟩ := nextLine_out next p
          exact ⟨v ++ (next ++ w), by rw [h1, h3]; simp, .before hv h2⟩
        · rename_i hlt hne
          have step : ∀ (p' : Printer) (b : List Char), (if (cells b).isEmpty then Outcome.ok (p'.writeNewline.writeIndent.writeToken next)
              else writeFlowable checks fuel (chars (cells b)) next (p'.writeNewline.writeIndent.writeToken next)) = .ok q →
              ∃ v w, isGap v ∧ q.out = p'.out ++ (v ++ (next ++ w)) ∧ Flows next b w := by
            intro p' b h
            obtain ⟨v, hv, h3⟩ := nextLine_out next p'
            split at h
            · rename_i he
              cases h
              have hb : b = [] := by
                rw [cells_eq_nil] at he
                simpa using he
              subst hb
              exact ⟨v, [], hv, by rw [h3]; simp, .last []⟩
            · rw [chars_cells] at h
              obtain ⟨w, h1, h2⟩ := ih _ _ h
              exact ⟨v, w, hv, by rw [h1, h3]; simp, h2⟩
          have hbasic : ∀ a : List Char, (if (cells a).isEmpty then p else p.basic (chars (cells a))).out = p.out ++ a := by
            intro a
            split
            · rename_i he
              rw [cells_eq_nil] at he
              have : a = [] := by simpa using he
              simp [this]
            · rw [chars_cells]
              rfl
          rcases breakText_spec (p.pageWidth - p.column) (flattened s) (by omega) hlt with
            ⟨a, b, he, _, hb⟩ | ⟨a, b, he, _, hb⟩ | ⟨b, he, hb⟩ | ⟨hb, _⟩
          · rw [hb] at h
            obtain ⟨v, w, hv, h1, h2⟩ := step _ b h
            rw [hbasic] at h1
            exact ⟨a ++ (v ++ (next ++ w)), by rw [h1]; simp, .broken he hv h2⟩
          · rw [hb] at h
            obtain ⟨v, w, hv, h1, h2⟩ := step _ b h
            rw [hbasic] at h1
            exact ⟨a ++ ((' ' :: v) ++ (next ++ w)), by rw [h1]; simp, .broken he
              (fun c hc => (List.mem_cons.1 hc).elim Or.inl (hv c)) h2⟩
          · rw [hb] at h
            obtain ⟨v, w, hv, h1, h2⟩ := step _ b h
            exact ⟨[] ++ (v ++ (next ++ w)), by rw [h1]; simp, .broken (a := []) he hv h2⟩
          · rw [hb] at h
            obtain ⟨v, w, hv, h1, h2⟩ := step _ (flattened s) h
            exact ⟨v ++ (next ++ w), by rw [h1]; simp, .before hv h2⟩
      · cases h
        exact ⟨_, rfl, .last s⟩

/-- There is room behind the widest indentation. -/
def Roomy (p : Printer) : Prop := p.indent ≤ p.maxIndent ∧ p.maxIndent * p.tabWidth + 4 ≤ p.pageWidth

theorem Roomy.exec {checks : Bool} {o : Op} {p q : Printer} (h : Roomy p) (he : Printer.exec checks o p = .ok q) : Roomy q := by
  obtain ⟨h1, h2, h3, h4⟩ := exec_limits he h.1
  exact ⟨h1, by rw [h2, h3, h4]; exact h.2⟩

theorem roomy_new : Roomy (Printer.new 4 150) := by unfold Roomy; decide

/-- The beginning of a comment on a new line. -/
theorem lineStart_out {p : Printer} (h : Roomy p) : ∃ v, isGap v ∧
    ((p.writeNewline.writeIndent).writeToken ['/', '/']).writeSpace.out = p.out ++ ('\n' :: (v ++ ['/', '/', ' '])) := by
  obtain ⟨q, hq⟩ : ∃ q, q = p.writeNewline.writeIndent := ⟨_, rfl⟩
  have h1 : q.pageWidth = p.pageWidth ∧ q.column ≤ 1 + p.indent * p.tabWidth ∧ ∃ v, isGap v ∧ q.out = p.out ++ '\n' :: v := by
    subst hq
    unfold writeIndent
    split
    · exact ⟨rfl, by simp [writeNewline], [], isGap_nil, rfl⟩
    · refine ⟨rfl, ?_, p.writeNewline.indentString, fun c hc => Or.inl (List.eq_of_mem_replicate hc), by simp [basic, writeNewline]⟩
      simp only [basic, writeNewline, indentString, indentLength]
      have : utf8Len (List.replicate (p.indent * p.tabWidth) ' ') = p.indent * p.tabWidth := by
        generalize p.indent * p.tabWidth = n
        induction n with
        | zero => rfl
        | succ n ih =>
          simp only [utf8Len, List.replicate_succ, List.map_cons, List.sum_cons] at ih ⊢
          rw [ih, show Char.utf8Size ' ' = 1 from rfl]
          omega
      omega
  rw [← hq]
  obtain ⟨h1, h2, v, hv, h3⟩ := h1
  have h4 : p.indent * p.tabWidth ≤ p.maxIndent * p.tabWidth := Nat.mul_le_mul_right _ h.1
  have h5 := h.2
  have ht : q.writeToken ['/', '/'] = q.basic ['/', '/'] := by
    unfold writeToken
    have hu : utf8Len ['/', '/'] = 2 := by decide
    rw [hu]
    simp only
    rw [if_neg (by omega : ¬ q.column > q.pageWidth), if_neg (by omega), if_neg (by omega)]
  refine ⟨v, hv, ?_⟩
  rw [ht]
  unfold writeSpace
  have hc : (q.basic ['/', '/']).column = q.column + 2 := rfl
  have hp : (q.basic ['/', '/']).pageWidth = q.pageWidth := rfl
  simp only
  rw [hc, hp, if_neg (by omega)]
  simp [basic, h3]

/-- The same for calls with newlines and indentation, if they end. -/
theorem run_flows (checks : Bool) {ops : List Op} (h : Written flows ops) {p q : Printer} (hp : Roomy p)
    (hr : run checks ops p = .ok q) : ∃ text, q.out = p.out ++ text ∧ Spread ops text := by
  match ops with
  | [] => cases hr; exact ⟨[], by simp, .nil⟩
  | o :: ops =>
    have hs : Written flows ops := fun x hx => h x (List.mem_cons_of_mem _ hx)
    have ih : ∀ {p' : Printer}, Printer.exec checks o p = .ok p' → run checks ops p' = .ok q →
        ∃ text, q.out = p'.out ++ text ∧ Spread ops text := fun he hr => run_flows checks hs (hp.exec he) hr
    rcases h o (List.mem_cons_self ..) with ⟨t, rfl⟩ | rfl | rfl | rfl | rfl | rfl | ⟨t, rfl⟩ | ⟨_, s, next, rfl⟩
    · obtain ⟨w, hw, h1⟩ := writeToken_out t p
      obtain ⟨text, h3, h4⟩ := ih (p' := p.writeToken t) rfl (by simpa [run, exec] using hr)
      exact ⟨w ++ (t ++ text), by rw [h3, h1]; simp, .token w t hw h4⟩
    · obtain ⟨w, hw, h1⟩ := writeSpace_out p
      obtain ⟨text, h3, h4⟩ := ih (p' := p.writeSpace) rfl (by simpa [run, exec] using hr)
      exact ⟨w ++ (' ' :: text), by rw [h3, h1]; simp, .space w hw h4⟩
    · by_cases hl : LineStart ops
      · obtain ⟨rest, rfl⟩ := hl
        obtain ⟨v, hv, h1⟩ := lineStart_out hp
        have hp2 : Roomy (((p.writeNewline.writeIndent).writeToken ['/', '/']).writeSpace) :=
          (((hp.exec (checks := checks) (o := .newline) rfl).exec (checks := checks) (o := .indent) rfl).exec (checks := checks)
            (o := .token ['/', '/']) rfl).exec (checks := checks) (o := .space) rfl
        obtain ⟨text, h3, h4⟩ := run_flows checks (ops := rest) (fun x hx => hs x (by simp [hx])) hp2
          (by simpa [run, exec] using hr)
        exact ⟨[] ++ ('\n' :: (v ++ ('/' :: '/' :: ' ' :: text))), by rw [h3, h1]; simp, .lineComment [] v isGap_nil hv h4⟩
      · obtain ⟨text, h3, h4⟩ := ih (p' := p.writeNewline) rfl (by simpa [run, exec] using hr)
        exact ⟨[] ++ ('\n' :: text), by rw [h3]; simp [writeNewline], .newline [] isGap_nil hl h4⟩
    · obtain ⟨w, hw, h1⟩ := writeIndent_out p
      obtain ⟨text, h3, h4⟩ := ih (p' := p.writeIndent) rfl (by simpa [run, exec] using hr)
      exact ⟨w ++ text, by rw [h3, h1]; simp, .indent w hw h4⟩
    · obtain ⟨text, h3, h4⟩ := ih (p' := p.increaseIndent) rfl (by simpa [run, exec] using hr)
      exact ⟨text, by rw [h3]; unfold increaseIndent; split <;> rfl, .incr h4⟩
    · obtain ⟨text, h3, h4⟩ := ih (p' := p.decreaseIndent) rfl (by simpa [run, exec] using hr)
      exact ⟨text, by rw [h3]; unfold decreaseIndent; split <;> rfl, .decr h4⟩
    · obtain ⟨w, hw, h1⟩ := writeToken_out (['"'] ++ t ++ ['"']) p
      obtain ⟨text, h3, h4⟩ := ih (p' := p.writeString t) rfl (by simpa [run, exec] using hr)
      exact ⟨w ++ (['"'] ++ t ++ ['"'] ++ text),
        by rw [h3, show p.writeString t = p.writeToken (['"'] ++ t ++ ['"']) from rfl, h1]; simp, .string w t hw h4⟩
    · rw [run] at hr
      cases he : exec checks (.flow s next) p with
      | ok p' =>
        rw [he] at hr
        obtain ⟨w, h1, h2⟩ := writeFlowable_flows checks next _ s p p' he
        obtain ⟨text, h3, h4⟩ := ih he hr
        exact ⟨w ++ text, by rw [h3, h1]; simp, .flow h2 h4⟩
      | err _ => rw [he] at hr; cases hr
      | panic => rw [he] at hr; cases hr
      | outOfFuel => rw [he] at hr; cases hr
termination_by ops.length

/-- Calls without flowable text end. -/
theorem run_ends (checks : Bool) {ops : List Op} (h : Written false ops) (p : Printer) : ∃ q, run checks ops p = .ok q := by
  induction ops generalizing p with
  | nil => exact ⟨p, rfl⟩
  | cons o ops ih =>
    have hs : Written false ops := fun x hx => h x (List.mem_cons_of_mem _ hx)
    rcases h o (List.mem_cons_self ..) with ⟨t, rfl⟩ | rfl | rfl | rfl | rfl | rfl | ⟨t, rfl⟩ | ⟨hf, _⟩
    all_goals first
      | cases hf
      | exact ih hs _

/-- The same for calls with newlines and indentation. -/
theorem run_written (checks : Bool) {ops : List Op} (h : Written false ops) {p : Printer} (hp : Roomy p) :
    ∃ q text, run checks ops p = .ok q ∧ q.out = p.out ++ text ∧ Spread ops text := by
  obtain ⟨q, hq⟩ := run_ends checks h p
  obtain ⟨text, h1, h2⟩ := run_flows checks h hp hq
  exact ⟨q, text, hq, h1, h2⟩

end Printer
end Mutagenyx
