import Verif.Spec.Brackets
import Verif.Props.VyperExpr
import Verif.Proofs.OneLine

/-!
# Line breaks in printed Vyper statements (property C59)
-/

namespace Mutagenyx
namespace VyPrint

open NodePrinter VyGrammar Printer Brackets

/-! ### Brackets in expressions -/

/-- However the calls are spread over lines, every bracket they close is one they opened, and they close all. -/
def Level (ops : List Op) : Prop := ∀ text, Spread ops text →
  open_ text = 0 ∧ ∀ a b, text = a ++ b → 0 ≤ open_ a

theorem append_eq {α : Type} {s t a b : List α} (h : s ++ t = a ++ b) :
    (∃ c, s = a ++ c) ∨ ∃ c, a = s ++ c ∧ t = c ++ b := by
  rcases List.append_eq_append_iff.1 h with ⟨c, h1, h2⟩ | ⟨c, h1, h2⟩
  · exact Or.inr ⟨c, h1, h2⟩
  · exact Or.inl ⟨c, h1⟩

theorem Level.append {a b : List Op} (ha : Level a) (hb : Level b) : Level (a ++ b) := by
  intro text h
  obtain ⟨s, t, rfl, hs, ht⟩ := spread_append h
  obtain ⟨h1, h2⟩ := ha s hs
  obtain ⟨h3, h4⟩ := hb t ht
  refine ⟨by rw [open_append, h1, h3]; rfl, fun x y hxy => ?_⟩
  rcases append_eq hxy with ⟨c, rfl⟩ | ⟨c, rfl, rfl⟩
  · exact h2 x c rfl
  · have := h4 c y rfl
    rw [open_append, h1]
    omega

theorem level_nil : Level [] := by
  intro text h
  cases h
  refine ⟨rfl, fun a b h => ?_⟩
  rw [(List.append_eq_nil_iff.1 h.symm).1]
  exact Int.le_refl _

/-- Characters that are not brackets. -/
theorem open_zero {t : List Char} (h : ∀ c ∈ t, step c = 0) : open_ t = 0 := by
  induction t with
  | nil => rfl
  | cons c t ih =>
    simp only [open_, h c (List.mem_cons_self ..), ih fun d hd => h d (List.mem_cons_of_mem _ hd)]
    rfl

theorem gap_step {w : List Char} (hw : isGap w) : ∀ c ∈ w, step c = 0 := by
  intro c hc
  rcases hw c hc with rfl | rfl <;> decide

theorem level_flat {text : List Char} (h : ∀ c ∈ text, step c = 0) :
    open_ text = 0 ∧ ∀ a b, text = a ++ b → 0 ≤ open_ a := by
  refine ⟨open_zero h, fun a b hab => ?_⟩
  rw [open_zero fun c hc => h c (by rw [hab]; exact List.mem_append_left _ hc)]
  exact Int.le_refl _

theorem level_space : Level [.space] := by
  intro text h
  cases h with
  | space w hw h =>
    cases h
    refine level_flat fun c hc => ?_
    rcases List.mem_append.1 hc with hc | hc
    · exact gap_step hw c hc
    · rw [List.mem_singleton.1 hc]
      decide

theorem level_word {t : String} (ht : ∀ c ∈ t.toList, step c = 0) : Level (word t) := by
  intro text h
  cases h with
  | token w _ hw h =>
    cases h
    refine level_flat fun c hc => ?_
    rcases List.mem_append.1 hc with hc | hc
    · exact gap_step hw c hc
    · exact ht c (by simpa using hc)

/-- Calls between brackets: up to the closing bracket some bracket is open. -/
theorem enclosed {l r : Char} (hl : step l = 1) (hr : step r = -1) {ops : List Op} (h : Level ops) {text : List Char}
    (hs : Spread (ops ++ [.token [r]]) text) :
    open_ (l :: text) = 0 ∧ (∀ a b, l :: text = a ++ b → 0 ≤ open_ a) ∧
      ∀ a b, text = a ++ '\n' :: b → 0 < open_ (l :: a) := by
  obtain ⟨s, t, rfl, h1, h2⟩ := spread_append hs
  cases h2 with
  | token w _ hw h2 =>
    cases h2
    obtain ⟨h3, h4⟩ := h s h1
    have hw0 := open_zero (gap_step hw)
    have inner : ∀ a b, s ++ (w ++ ([r] ++ [])) = a ++ b → 0 ≤ open_ a ∨ a = s ++ (w ++ [r]) := by
      intro a b hab
      rcases append_eq hab with ⟨c, h5⟩ | ⟨c, rfl, h5⟩
      · exact Or.inl (h4 a c h5)
      rcases append_eq h5 with ⟨d, h6⟩ | ⟨d, rfl, h6⟩
      · refine Or.inl ?_
        rw [open_append, h3, open_zero fun x hx => gap_step hw x (by rw [h6]; exact List.mem_append_left _ hx)]
        decide
      cases d with
      | nil => exact Or.inl (by rw [List.append_nil, open_append, h3, hw0]; decide)
      | cons x d =>
        simp only [List.append_nil, List.cons_append, List.cons.injEq] at h6
        obtain ⟨rfl, h7⟩ := h6
        have := (List.append_eq_nil_iff.1 h7.symm).1
        subst this
        exact Or.inr rfl
    have total : open_ (s ++ (w ++ [r])) = -1 := by
      simp [open_append, h3, hw0, open_, hr]
    refine ⟨?_, ?_, ?_⟩
    · simp only [open_, List.append_nil, total, hl]
      rfl
    · intro a b hab
      cases a with
      | nil => exact Int.le_refl _
      | cons x a =>
        simp only [List.cons_append, List.cons.injEq] at hab
        obtain ⟨rfl, hab⟩ := hab
        simp only [open_, hl]
        rcases inner a b hab with h5 | rfl
        · omega
        · rw [total]
          decide
    · intro a b hab
      simp only [open_, hl]
      rcases inner a _ hab with h5 | rfl
      · omega
      · have := congrArg List.length hab
        simp only [List.length_append, List.length_cons, List.length_nil] at this
        omega

theorem level_enclosed {l r : String} {x y : Char} (hl : l.toList = [x]) (hr : r.toList = [y]) (hx : step x = 1)
    (hy : step y = -1) {ops : List Op} (h : Level ops) : Level (word l ++ (ops ++ word r)) := by
  intro text hs
  simp only [word, hl, hr, List.cons_append, List.nil_append] at hs
  cases hs with
  | token w _ hw hs =>
    obtain ⟨h1, h2, _⟩ := enclosed hx hy h hs
    have hw0 := open_zero (gap_step hw)
    refine ⟨?_, fun a b hab => ?_⟩
    · rw [open_append, hw0]
      simpa using h1
    rcases append_eq hab with ⟨c, h5⟩ | ⟨c, rfl, h5⟩
    · rw [open_zero fun z hz => gap_step hw z (by rw [h5]; exact List.mem_append_left _ hz)]
      exact Int.le_refl _
    · rw [open_append, hw0]
      have := h2 c b h5
      omega

theorem step_word {c : Char} (h : wordChar c = true) : step c = 0 := by
  unfold step
  split
  · rename_i hc
    rcases hc with rfl | rfl | rfl <;> exact absurd h (by decide)
  split
  · rename_i hc
    rcases hc with rfl | rfl | rfl <;> exact absurd h (by decide)
  rfl

theorem level_leaf {t : String} (h : isLeaf t = true) : Level (word t) := by
  obtain ⟨c, cs, ht, hc, hcs⟩ := leaf_chars h
  refine level_word fun d hd => ?_
  rw [ht] at hd
  rcases List.mem_cons.1 hd with rfl | hd
  · exact step_word hc
  · rcases hcs d hd with h1 | ⟨_, rfl⟩
    · exact step_word h1
    · decide

theorem level_minus {t : String} (h : isLeaf t = true) : Level (word ("-" ++ t)) := by
  obtain ⟨c, cs, ht, hc, hcs⟩ := leaf_chars h
  refine level_word fun d hd => ?_
  rw [String.toList_append, ht] at hd
  rcases List.mem_append.1 hd with hd | hd
  · rw [List.mem_singleton.1 hd]; decide
  rcases List.mem_cons.1 hd with rfl | hd
  · exact step_word hc
  · rcases hcs d hd with h1 | ⟨_, rfl⟩
    · exact step_word h1
    · decide

theorem level_wrapO {b : Bool} {ops : List Op} (h : Level ops) : Level (wrapO b ops) := by
  unfold wrapO
  split
  · rw [List.append_assoc]
    exact level_enclosed (x := '(') (y := ')') (by decide) (by decide) (by decide) (by decide) h
  · exact h

theorem level_operator (o : Operator) : Level (word o.text) := level_word (by cases o <;> decide)

theorem isName_isLeaf {t : String} (h : isName t = true) : isLeaf t = true := by
  unfold isName at h
  simp only [Bool.and_eq_true] at h
  exact h.1

mutual
/-- An expression closes the brackets it opens, and no others. -/
theorem level_opsE : (e : Expr) → flat e = true → Plain e → Level (opsE e)
  | .leaf t, _, h => by
    rw [opsE]
    exact level_leaf (by simpa [Plain] using h)
  | .str _, hf, _ => by simp [flat] at hf
  | .dict _, hf, _ => by simp [flat] at hf
  | .entry _ _, hf, _ => by simp [flat] at hf
  | .attr e id, hf, h => by
    simp only [Plain] at h
    simp only [flat] at hf
    rw [opsE]
    exact (level_opsE e hf h.2.2).append ((level_word (by decide)).append (level_leaf (isName_isLeaf h.2.1)))
  | .index e i, hf, h => by
    simp only [Plain] at h
    simp only [flat, Bool.and_eq_true] at hf
    rw [opsE]
    exact (level_opsE e hf.1 h.2.1).append (level_enclosed (x := '[') (y := ']') (by decide) (by decide) (by decide)
      (by decide) (level_opsArgs _ i hf.2 h.2.2.2))
  | .call f args, hf, h => by
    simp only [Plain] at h
    simp only [flat, Bool.and_eq_true] at hf
    rw [opsE]
    exact (level_opsE f hf.1 h.2.1).append (level_enclosed (x := '(') (y := ')') (by decide) (by decide) (by decide)
      (by decide) (level_opsArgs _ args hf.2 h.2.2))
  | .list es, hf, h => by
    simp only [Plain] at h
    simp only [flat] at hf
    rw [opsE]
    exact level_enclosed (x := '[') (y := ']') (by decide) (by decide) (by decide) (by decide) (level_opsArgs _ es hf h)
  | .named k e, hf, h => by
    simp only [Plain] at h
    simp only [flat] at hf
    rw [opsE]
    exact (level_leaf (isName_isLeaf h.1)).append ((level_word (by decide)).append (level_opsE e hf h.2.2))
  | .bin l o r, hf, h => by
    simp only [Plain] at h
    simp only [flat, Bool.and_eq_true] at hf
    rw [opsE]
    exact (level_wrapO (level_opsE l hf.1 h.1)).append ((level_space.append ((level_operator o).append level_space)).append
      (level_wrapO (level_opsE r hf.2 h.2.1)))
  | .not e, hf, h => by
    simp only [Plain] at h
    simp only [flat] at hf
    rw [opsE]
    exact ((level_word (by decide)).append level_space).append (level_wrapO (level_opsE e hf h.2))
  | .inv e, hf, h => by
    simp only [Plain] at h
    simp only [flat] at hf
    rw [opsE]
    exact (level_word (by decide)).append (level_wrapO (level_opsE e hf h.1))
  | .neg e, _, h => by
    simp only [Plain] at h
    obtain ⟨t, rfl, hl⟩ := isNumber_leaf h
    rw [opsE, numberText]
    exact level_minus hl
/-- So do arguments. -/
theorem level_opsArgs : (k : String) → (es : List Expr) → flatAll es = true → PlainAll k es → Level (opsArgs es)
  | _, [], _, _ => by rw [opsArgs]; exact level_nil
  | k, e :: es, hf, h => by
    simp only [PlainAll] at h
    simp only [flatAll, Bool.and_eq_true] at hf
    rw [opsArgs]
    exact (level_opsE e hf.1 h.2.1).append (level_opsRest k es hf.2 h.2.2)
/-- So do further arguments. -/
theorem level_opsRest : (k : String) → (es : List Expr) → flatAll es = true → PlainAll k es → Level (opsRest es)
  | _, [], _, _ => by rw [opsRest]; exact level_nil
  | k, e :: es, hf, h => by
    simp only [PlainAll] at h
    simp only [flatAll, Bool.and_eq_true] at hf
    rw [opsRest]
    exact (level_word (by decide)).append (level_space.append ((level_opsE e hf.1 h.2.1).append (level_opsRest k es hf.2 h.2.2)))
end

theorem simple_word (t : String) : Simple (word t) := simple_token _

theorem simple_wrapO {b : Bool} {ops : List Op} (h : Simple ops) : Simple (wrapO b ops) := by
  unfold wrapO
  split
  · exact ((simple_word _).append h).append (simple_word _)
  · exact h

mutual
/-- Without strings and dictionaries only tokens and spaces are printed. -/
theorem simple_opsE : (e : Expr) → flat e = true → Simple (opsE e)
  | .leaf t, _ => by rw [opsE]; exact simple_word t
  | .str _, hf => by simp [flat] at hf
  | .dict _, hf => by simp [flat] at hf
  | .entry _ _, hf => by simp [flat] at hf
  | .attr e id, hf => by
    simp only [flat] at hf
    rw [opsE]; exact (simple_opsE e hf).append ((simple_word _).append (simple_word _))
  | .index e i, hf => by
    simp only [flat, Bool.and_eq_true] at hf
    rw [opsE]; exact (simple_opsE e hf.1).append ((simple_word _).append ((simple_opsArgs i hf.2).append (simple_word _)))
  | .call f args, hf => by
    simp only [flat, Bool.and_eq_true] at hf
    rw [opsE]; exact (simple_opsE f hf.1).append ((simple_word _).append ((simple_opsArgs args hf.2).append (simple_word _)))
  | .list es, hf => by
    simp only [flat] at hf
    rw [opsE]; exact (simple_word _).append ((simple_opsArgs es hf).append (simple_word _))
  | .named k e, hf => by
    simp only [flat] at hf
    rw [opsE]; exact (simple_word _).append ((simple_word _).append (simple_opsE e hf))
  | .bin l o r, hf => by
    simp only [flat, Bool.and_eq_true] at hf
    rw [opsE]
    exact (simple_wrapO (simple_opsE l hf.1)).append ((simple_space.append ((simple_word _).append simple_space)).append
      (simple_wrapO (simple_opsE r hf.2)))
  | .not e, hf => by
    simp only [flat] at hf
    rw [opsE]; exact ((simple_word _).append simple_space).append (simple_wrapO (simple_opsE e hf))
  | .inv e, hf => by
    simp only [flat] at hf
    rw [opsE]; exact (simple_word _).append (simple_wrapO (simple_opsE e hf))
  | .neg e, _ => by rw [opsE]; exact simple_word _
theorem simple_opsArgs : (es : List Expr) → flatAll es = true → Simple (opsArgs es)
  | [], _ => by rw [opsArgs]; exact simple_nil
  | e :: es, hf => by
    simp only [flatAll, Bool.and_eq_true] at hf
    rw [opsArgs]; exact (simple_opsE e hf.1).append (simple_opsRest es hf.2)
theorem simple_opsRest : (es : List Expr) → flatAll es = true → Simple (opsRest es)
  | [], _ => by rw [opsRest]; exact simple_nil
  | e :: es, hf => by
    simp only [flatAll, Bool.and_eq_true] at hf
    rw [opsRest]
    exact (simple_word _).append (simple_space.append ((simple_opsE e hf.1).append (simple_opsRest es hf.2)))
end

/-! ### The property -/

/-- **C59.** A node that is printed on one line when it stands alone is printed as the same line wherever there is room
for it: the printer puts in no line breaks.  Missing: what does not fit on the line (see the counterexample). -/
theorem C59_fits_partial (env : PrintEnv) (s : PrintSettings) (node : Json) (alone p : Printer) (text : List Char)
    (h : run env.checks (printOps env s node) (Printer.new 4 150) = .ok alone) (ht : alone.out = text)
    (hn : '\n' ∉ text) (hfit : p.column + utf8Len text ≤ p.pageWidth) :
    ∃ q, run env.checks (printOps env s node) p = .ok q ∧ q.out = p.out ++ text := by
  obtain ⟨q, h1, h2, _⟩ := run_again (anchored_printOps env s node) h (text := text) (by rw [ht]; rfl) hn hfit
  exact ⟨q, h1, h2⟩

theorem spread_lineOf {ops : List Op} (hs : Simple ops) {t : List Char} (h : lineOf ops = some t) : Spread ops t := by
  induction ops generalizing t with
  | nil => cases h; exact .nil
  | cons o ops ih =>
    obtain ⟨a, b, h1, h2, rfl⟩ := lineOf_cons h
    have ih := ih (fun x hx => hs x (List.mem_cons_of_mem _ hx)) h2
    rcases hs o (List.mem_cons_self ..) with ⟨u, rfl⟩ | rfl
    · cases h1
      exact .token [] a isGap_nil ih
    · cases h1
      exact .space [] isGap_nil ih

/-- The line that the calls for a plain expression write. -/
theorem lineOf_shows {env : PrintEnv} {e : Expr} {node : Json} {text : List Char} (h : Shows e node)
    (hfl : flat e = true) (ht : printText env node = .ok text) (hn : '\n' ∉ text) : lineOf (opsE e) = some text := by
  rw [printText, printOps_shows env e node {} h] at ht
  cases hr : run env.checks (opsE e) (Printer.new 4 150) with
  | ok q =>
    rw [hr] at ht
    cases ht
    obtain ⟨u, h1, h2⟩ := run_oneLine hr (fun hi => by
      rcases simple_opsE e hfl _ hi with ⟨_, h⟩ | h <;> cases h)
    have h1 : q.out = u := h1
    rw [h1] at hn ⊢
    exact (h2 hn).2
  | err _ => rw [hr] at ht; cases ht
  | panic => rw [hr] at ht; cases ht
  | outOfFuel => rw [hr] at ht; cases ht

/-- What encloses its last part in brackets and has room for what comes before on the line. -/
theorem oneStatement_of (checks : Bool) {front ops : List Op} {l r : Char} (hl : step l = 1) (hr : step r = -1)
    (hlen : utf8Len [l] = 1) (hf : Simple front) (hv : Level front) (ho : Simple ops) (h : Level ops) {t : List Char}
    {p : Printer} (ht : lineOf front = some t) (hn : '\n' ∉ t) (hfit : p.column + utf8Len t + 1 ≤ p.pageWidth) :
    ∃ q text, run checks (front ++ (.token [l] :: (ops ++ [.token [r]]))) p = .ok q ∧ q.out = p.out ++ (t ++ l :: text) ∧
      OneStatement (t ++ l :: text) := by
  obtain ⟨q, h1, h2, h3, h4⟩ := run_fits checks ht (p := p) (by omega)
  obtain ⟨u, text, h5, h6, h7⟩ := run_spread checks (ho.append (simple_token [r])) (q.basic [l])
  refine ⟨u, text, ?_, ?_, ?_⟩
  · rw [run_append, h1]
    simp only [run, exec]
    rw [writeToken_fits (by rw [h3, h4, hlen]; omega)]
    exact h5
  · rw [h6]
    simp [basic, h2]
  · intro a b hab
    have hnl : l ≠ '\n' := by
      rintro rfl
      exact absurd hl (by decide)
    rcases append_eq hab with ⟨c, h8⟩ | ⟨c, rfl, h8⟩
    · exfalso
      rw [h8, List.append_assoc] at hab
      have := List.append_cancel_left hab
      cases c with
      | nil =>
        simp only [List.nil_append, List.cons.injEq] at this
        exact hnl this.1
      | cons d c =>
        simp only [List.cons_append, List.cons.injEq] at this
        rw [h8, this.1] at hn
        exact hn (by simp)
    · have hopen : 0 ≤ open_ t := (hv t (spread_lineOf hf ht)).2 t [] (by simp)
      cases c with
      | nil =>
        simp only [List.nil_append, List.cons.injEq] at h8
        exact absurd h8.1 hnl
      | cons d c =>
        simp only [List.cons_append, List.cons.injEq] at h8
        obtain ⟨rfl, h8⟩ := h8
        have := (enclosed hl hr h h7).2.2 c b h8
        rw [open_append]
        omega

/-- **C59 for calls.** However long its arguments are, a call is one statement wherever there is room for the function
and the opening bracket on the line.  Missing: longer functions, and expressions with string literals or dictionaries. -/
theorem C59_call_partial (env : PrintEnv) (s : PrintSettings) (f : Expr) (args : List Expr) (node fnode : Json)
    (ftext : List Char) (p : Printer) (h : Shows (.call f args) node) (hp : Plain (.call f args)) (hfl : flat (.call f args) = true)
    (hf : Shows f fnode) (ht : printText env fnode = .ok ftext) (hn : '\n' ∉ ftext) (hfit : p.column + utf8Len ftext + 1 ≤ p.pageWidth) :
    ∃ q text, run env.checks (printOps env s node) p = .ok q ∧ q.out = p.out ++ text ∧ OneStatement text := by
  simp only [Plain] at hp
  simp only [flat, Bool.and_eq_true] at hfl
  rw [printOps_shows env _ node s h, opsE]
  obtain ⟨q, text, h1, h2, h3⟩ := oneStatement_of env.checks (front := opsE f) (ops := opsArgs args) (l := '(') (r := ')')
    (by decide) (by decide) (by decide) (simple_opsE f hfl.1) (level_opsE f hfl.1 hp.2.1) (simple_opsArgs args hfl.2)
    (level_opsArgs _ args hfl.2 hp.2.2) (lineOf_shows hf hfl.1 ht hn) hn hfit
  exact ⟨q, _, h1, h2, h3⟩

/-- **C59 for assignments of calls.** However long the arguments are, `target = function(arguments)` is one statement
wherever there is room for what is before the arguments on the line. -/
theorem C59_assign_call_partial (env : PrintEnv) (s : PrintSettings) (t f : Expr) (args : List Expr)
    (node tnode vnode fnode : Json) (ttext ftext : List Char) (p : Printer) (hnode : IsA "Assign" node)
    (h1 : Json.field? "target" node = some tnode) (h2 : Json.field? "value" node = some vnode) (h3 : Shows t tnode)
    (h4 : Shows (.call f args) vnode) (hpt : Plain t) (hp : Plain (.call f args))
    (hflt : flat t = true) (hfl : flat (.call f args) = true) (hf : Shows f fnode)
    (htt : printText env tnode = .ok ttext) (hft : printText env fnode = .ok ftext)
    (hnt : '\n' ∉ ttext) (hnf : '\n' ∉ ftext)
    (hfit : p.column + utf8Len ttext + 3 + utf8Len ftext + 1 ≤ p.pageWidth) :
    ∃ q text, run env.checks (printOps env s node) p = .ok q ∧ q.out = p.out ++ text ∧ OneStatement text := by
  simp only [Plain] at hp
  simp only [flat, Bool.and_eq_true] at hfl
  have ho : printOps env s node = (opsE t ++ (word " = " ++ opsE f)) ++ (.token ['('] :: (opsArgs args ++ [.token [')']])) := by
    rw [printOps_of (body := field s "target" node ++ tok " = " ++ field s "value" node) (by
      simp only [IsA] at hnode
      simp [layout, hnode])]
    simp [field, onField, h1, h2, onSome, tok, expand, expand_append, word, printOps_shows env t tnode s h3,
      printOps_shows env _ vnode s h4, opsE]
  have w : utf8Len " = ".toList = 3 := by decide
  have hl : lineOf (opsE t ++ (word " = " ++ opsE f)) = some (ttext ++ (" = ".toList ++ ftext)) :=
    lineOf_append (lineOf_shows h3 hflt htt hnt) (lineOf_append rfl (lineOf_shows hf hfl.1 hft hnf))
  obtain ⟨q, text, h5, h6, h7⟩ := oneStatement_of env.checks (front := opsE t ++ (word " = " ++ opsE f))
    (ops := opsArgs args) (l := '(') (r := ')') (by decide) (by decide) (by decide)
    ((simple_opsE t hflt).append ((simple_word _).append (simple_opsE f hfl.1)))
    ((level_opsE t hflt hpt).append ((level_word (by decide)).append (level_opsE f hfl.1 hp.2.1))) (simple_opsArgs args hfl.2)
    (level_opsArgs _ args hfl.2 hp.2.2) hl (by simpa using ⟨hnt, hnf⟩) (p := p)
    (by simp only [utf8Len_append, w]; omega)
  exact ⟨q, _, by rw [ho]; exact h5, h6, h7⟩

/-- `x = f(aaa…, bbb…)` with arguments of a hundred characters. -/
def longCall : Json :=
  VyNode.assign (VyNode.name "x") (VyNode.mk "Call" [("func", VyNode.name "f"), ("args", .arr
    [VyNode.name (String.ofList (List.replicate 100 'a')), VyNode.name (String.ofList (List.replicate 100 'b'))]),
    ("keywords", .arr [])])

example : printText ⟨true, fun _ => ""⟩ longCall =
    .ok ("x = f(".toList ++ List.replicate 100 'a' ++ ", \n".toList ++ List.replicate 100 'b' ++ ")".toList) := by
  decide +kernel

/-- The hypotheses hold for it. -/
example : ∃ q text, run true (printOps ⟨true, fun _ => ""⟩ {} longCall) (Printer.new 4 150) = .ok q ∧
    q.out = (Printer.new 4 150).out ++ text ∧ OneStatement text :=
  C59_assign_call_partial ⟨true, fun _ => ""⟩ {} (.leaf "x") (.leaf "f")
    [.leaf (String.ofList (List.replicate 100 'a')), .leaf (String.ofList (List.replicate 100 'b'))] longCall
    (node (.leaf "x")) (node (.call (.leaf "f")
      [.leaf (String.ofList (List.replicate 100 'a')), .leaf (String.ofList (List.replicate 100 'b'))]))
    (node (.leaf "f")) "x".toList "f".toList (Printer.new 4 150) (by unfold IsA; decide +kernel) (by decide +kernel) (by decide +kernel)
    (shows_node _ (by decide)) (shows_node _ (by decide +kernel)) (by simp only [Plain]; decide)
    (by simp only [Plain, PlainAll]; decide +kernel) (by decide) (by decide +kernel) (shows_node _ (by decide))
    (by decide +kernel) (by decide +kernel) (by decide) (by decide) (by decide)

/-- `x = aaa… + bbb…` with names of a hundred characters. -/
def longSum : Json :=
  VyNode.assign (VyNode.name "x") (VyNode.bin (VyNode.name (String.ofList (List.replicate 100 'a'))) "Add"
    (VyNode.name (String.ofList (List.replicate 100 'b'))))

/-- **C59 fails for operations**: the line is broken after the operator, where no bracket is open, so that the statement
ends there. -/
theorem C59_operation_counterexample :
    printText ⟨true, fun _ => ""⟩ longSum =
      .ok ("x = ".toList ++ List.replicate 100 'a' ++ " + \n".toList ++ List.replicate 100 'b') ∧
    ¬ OneStatement ("x = ".toList ++ List.replicate 100 'a' ++ " + \n".toList ++ List.replicate 100 'b') := by
  refine ⟨by decide +kernel, ?_⟩
  rw [oneStatement_iff]
  decide +kernel

end VyPrint
end Mutagenyx
