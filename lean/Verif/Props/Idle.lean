import Verif.Spec.Idle
import Verif.Props.VyperMutants
import Verif.Props.SolidityMutants

/-!
# Which mutants are the program they were made from (C85)
-/

namespace Mutagenyx

namespace VyGrammar

theorem idle_expr {c : Change} {e e' : Expr} (h : InExpr c e e') : e' = e → InExpr (idle c) e e' := by
  induction h with
  | here h => intro he; exact .here ⟨h, he⟩
  | attr _ ih => intro he; injection he with h1; exact .attr (ih h1)
  | indexed _ ih => intro he; injection he with h1; exact .indexed (ih h1)
  | index _ ih => intro he; injection he with h1 h2; exact .index (ih (by simpa using h2))
  | called _ ih => intro he; injection he with h1; exact .called (ih h1)
  | argument _ ih => intro he; injection he with h1 h2; exact .argument (ih (by simpa using h2))
  | item _ ih => intro he; injection he with h1; exact .item (ih (by simpa using h1))
  | key _ ih => intro he; injection he with h1; exact .key (ih (by simpa using h1))
  | value _ ih => intro he; injection he with h1; exact .value (ih (by simpa using h1))
  | named _ ih => intro he; injection he with h1 h2; exact .named (ih h2)
  | left _ ih => intro he; injection he with h1 h2; exact .left (ih h1)
  | right _ ih => intro he; injection he with h1 h2 h3; exact .right (ih h3)
  | not _ ih => intro he; injection he with h1; exact .not (ih h1)
  | inv _ ih => intro he; injection he with h1; exact .inv (ih h1)

theorem idle_row {c : Change} {es es' : List Expr} (h : InRow c es es') (he : es' = es) : InRow (idle c) es es' := by
  obtain ⟨h⟩ := h
  exact .mk (idle_expr h (by simpa using he))

theorem idle_option {c : Change} {e e' : Option Expr} (h : InOption c e e') (he : e' = e) : InOption (idle c) e e' := by
  obtain ⟨h⟩ := h
  exact .mk (idle_expr h (by simpa using he))

theorem idle_simple {c : Change} {s s' : Simple} (h : InSimple c s s') (he : s' = s) : InSimple (idle c) s s' := by
  cases h with
  | here h => exact .here ⟨h, he⟩
  | expr h => injection he with h1; exact .expr (idle_expr h h1)
  | target h => injection he with h1; exact .target (idle_row h h1)
  | value h => injection he with h1 h2; exact .value (idle_row h h2)
  | augTarget h => injection he with h1; exact .augTarget (idle_expr h h1)
  | augValue h => injection he with h1 h2 h3; exact .augValue (idle_expr h h3)
  | annTarget h => injection he with h1; exact .annTarget (idle_expr h h1)
  | annType h => injection he with h1 h2; exact .annType (idle_expr h h2)
  | annValue h => injection he with h1 h2 h3; exact .annValue (idle_option h h3)
  | ret h => injection he with h1; exact .ret (idle_row h h1)
  | raise h => injection he with h1; exact .raise (idle_option h h1)
  | test h => injection he with h1; exact .test (idle_expr h h1)
  | message h => injection he with h1 h2; exact .message (idle_option h h2)
  | log h => injection he with h1; exact .log (idle_expr h h1)

theorem bareAll_append (a b : List Stmt) : bareAll (a ++ b) = bareAll a ++ bareAll b := by
  induction a with
  | nil => simp [bareAll]
  | cons s a ih => simp [bareAll, ih]

theorem noCommentsIn_append (a b : List Stmt) : noCommentsIn (a ++ b) = (noCommentsIn a && noCommentsIn b) := by
  induction a with
  | nil => simp [noCommentsIn]
  | cons s a ih => simp [noCommentsIn, ih, Bool.and_assoc]

theorem idle_stmt {c : Change} {s s' : Stmt} (h : InStmt c s s') : noComments s = true → bare s' = bare s → InStmt (idle c) s s' := by
  induction h with
  | here h => intro hn he; exact .here ⟨h, hn, he⟩
  | simple h => intro _ he; simp only [bare, List.cons.injEq, Stmt.simple.injEq, and_true] at he; exact .simple (idle_simple h he)
  | quote h => intro hn; cases hn
  | forType h => intro _ he; simp only [bare, List.cons.injEq, Stmt.for_.injEq, and_true, true_and] at he; exact .forType (idle_option h he)
  | forOver h => intro _ he; simp only [bare, List.cons.injEq, Stmt.for_.injEq, and_true, true_and] at he; exact .forOver (idle_expr h he)
  | forBody _ ih =>
    intro hn he
    simp only [noComments, noCommentsIn_append, noCommentsIn, Bool.and_eq_true] at hn
    simp only [bare, List.cons.injEq, Stmt.for_.injEq, and_true, true_and, bareAll_append, bareAll, List.append_cancel_left_eq,
      List.append_cancel_right_eq] at he
    exact .forBody (ih hn.2.1 he)
  | ifTest h => intro _ he; simp only [bare, List.cons.injEq, Stmt.if_.injEq, and_true, true_and] at he; exact .ifTest (idle_expr h he)
  | ifBody _ ih =>
    intro hn he
    simp only [noComments, noCommentsIn_append, noCommentsIn, Bool.and_eq_true] at hn
    simp only [bare, List.cons.injEq, Stmt.if_.injEq, and_true, true_and, bareAll_append, bareAll, List.append_cancel_left_eq,
      List.append_cancel_right_eq] at he
    exact .ifBody (ih hn.1.2.1 he)
  | ifElse _ ih =>
    intro hn he
    simp only [noComments, noCommentsIn_append, noCommentsIn, Bool.and_eq_true] at hn
    simp only [bare, List.cons.injEq, Stmt.if_.injEq, and_true, true_and, bareAll_append, bareAll, List.append_cancel_left_eq,
      List.append_cancel_right_eq] at he
    exact .ifElse (ih hn.2.2.1 he)

theorem idle_param {c : Change} {p p' : Param} (h : InParam c p p') (he : p' = p) : InParam (idle c) p p' := by
  cases h with
  | type h => injection he with h1 h2; exact .type (idle_expr h h2)
  | value h => injection he with h1 h2 h3; exact .value (idle_option h h3)

theorem idle_sig {c : Change} {g g' : Sig} (h : InSig c g g') (he : g' = g) : InSig (idle c) g g' := by
  cases h with
  | params h => injection he with h1 h2; exact .params (idle_param h (by simpa using h2))
  | results h => injection he with h1 h2 h3; exact .results (idle_row h h3)

theorem idle_decl {c : Change} {d d' : Decl} (h : InDecl c d d') (hn : d.noComments = true) (he : d'.bare = d.bare) :
    InDecl (idle c) d d' := by
  cases h with
  | here h => exact .here ⟨h, hn, he⟩
  | simple h => simp only [Decl.bare, List.cons.injEq, Decl.simple.injEq, and_true] at he; exact .simple (idle_simple h he)
  | quote h => cases hn
  | field h =>
    simp only [Decl.bare, List.cons.injEq, Decl.block.injEq, and_true, true_and, List.append_cancel_left_eq] at he
    exact .field (idle_simple h he)
  | function h =>
    simp only [Decl.bare, List.cons.injEq, Decl.interface.injEq, and_true, true_and, List.append_cancel_left_eq, Prod.mk.injEq] at he
    exact .function (idle_sig h he)
  | decorator h => simp only [Decl.bare, List.cons.injEq, Decl.fn.injEq, and_true] at he; exact .decorator (idle_row h he)
  | sig h => simp only [Decl.bare, List.cons.injEq, Decl.fn.injEq, and_true, true_and] at he; exact .sig (idle_sig h he)
  | body h =>
    simp only [Decl.noComments, noCommentsIn_append, noCommentsIn, Bool.and_eq_true] at hn
    simp only [Decl.bare, List.cons.injEq, Decl.fn.injEq, and_true, true_and, bareAll_append, bareAll, List.append_cancel_left_eq,
      List.append_cancel_right_eq] at he
    exact .body (idle_stmt h hn.2.1 he)

/-- A change of the program that leaves it as it is changes a part of it that it leaves as it is. -/
theorem idle_program {c : Change} {p p' : Program} (h : InProgram c p p') (hn : p.noComments = true) (he : p'.bare = p.bare) :
    InProgram (idle c) p p' := by
  obtain ⟨h⟩ := h
  simp only [Program.noComments, List.all_append, List.all_cons, Bool.and_eq_true] at hn
  simp only [Program.bare, List.flatMap_append, List.flatMap_cons, Program.mk.injEq, true_and, List.append_cancel_left_eq,
    List.append_cancel_right_eq] at he
  exact .mk (idle_decl h hn.2.1 he)

/-! ### Larger changes -/

/-- A change of an expression, statement or declaration is one of another kind. -/
structure Below (c d : Change) : Prop where
  expr : ∀ e e', c.expr e e' → d.expr e e'
  simple : ∀ s s', c.simple s s' → d.simple s s'
  stmt : ∀ s s', c.stmt s s' → d.stmt s s'
  decl : ∀ x x', c.decl x x' → d.decl x x'

variable {c d : Change}

theorem Below.inExpr (hb : Below c d) {e e' : Expr} (h : InExpr c e e') : InExpr d e e' := by
  induction h with
  | here h => exact .here (hb.expr _ _ h)
  | attr _ ih => exact .attr ih
  | indexed _ ih => exact .indexed ih
  | index _ ih => exact .index ih
  | called _ ih => exact .called ih
  | argument _ ih => exact .argument ih
  | item _ ih => exact .item ih
  | key _ ih => exact .key ih
  | value _ ih => exact .value ih
  | named _ ih => exact .named ih
  | left _ ih => exact .left ih
  | right _ ih => exact .right ih
  | not _ ih => exact .not ih
  | inv _ ih => exact .inv ih

theorem Below.inRow (hb : Below c d) {es es' : List Expr} (h : InRow c es es') : InRow d es es' := by
  obtain ⟨h⟩ := h
  exact .mk (hb.inExpr h)

theorem Below.inOption (hb : Below c d) {e e' : Option Expr} (h : InOption c e e') : InOption d e e' := by
  obtain ⟨h⟩ := h
  exact .mk (hb.inExpr h)

theorem Below.inSimple (hb : Below c d) {s s' : Simple} (h : InSimple c s s') : InSimple d s s' := by
  cases h with
  | here h => exact .here (hb.simple _ _ h)
  | expr h => exact .expr (hb.inExpr h)
  | target h => exact .target (hb.inRow h)
  | value h => exact .value (hb.inRow h)
  | augTarget h => exact .augTarget (hb.inExpr h)
  | augValue h => exact .augValue (hb.inExpr h)
  | annTarget h => exact .annTarget (hb.inExpr h)
  | annType h => exact .annType (hb.inExpr h)
  | annValue h => exact .annValue (hb.inOption h)
  | ret h => exact .ret (hb.inRow h)
  | raise h => exact .raise (hb.inOption h)
  | test h => exact .test (hb.inExpr h)
  | message h => exact .message (hb.inOption h)
  | log h => exact .log (hb.inExpr h)

theorem Below.inStmt (hb : Below c d) {s s' : Stmt} (h : InStmt c s s') : InStmt d s s' := by
  induction h with
  | here h => exact .here (hb.stmt _ _ h)
  | simple h => exact .simple (hb.inSimple h)
  | quote _ ih => exact .quote ih
  | forType h => exact .forType (hb.inOption h)
  | forOver h => exact .forOver (hb.inExpr h)
  | forBody _ ih => exact .forBody ih
  | ifTest h => exact .ifTest (hb.inExpr h)
  | ifBody _ ih => exact .ifBody ih
  | ifElse _ ih => exact .ifElse ih

theorem Below.inParam (hb : Below c d) {p p' : Param} (h : InParam c p p') : InParam d p p' := by
  cases h with
  | type h => exact .type (hb.inExpr h)
  | value h => exact .value (hb.inOption h)

theorem Below.inSig (hb : Below c d) {g g' : Sig} (h : InSig c g g') : InSig d g g' := by
  cases h with
  | params h => exact .params (hb.inParam h)
  | results h => exact .results (hb.inRow h)

theorem Below.inDecl (hb : Below c d) {x x' : Decl} (h : InDecl c x x') : InDecl d x x' := by
  induction h with
  | here h => exact .here (hb.decl _ _ h)
  | simple h => exact .simple (hb.inSimple h)
  | quote _ ih => exact .quote ih
  | field h => exact .field (hb.inSimple h)
  | function h => exact .function (hb.inSig h)
  | decorator h => exact .decorator (hb.inRow h)
  | sig h => exact .sig (hb.inSig h)
  | body h => exact .body (hb.inStmt h)

theorem Below.inProgram (hb : Below c d) {p p' : Program} (h : InProgram c p p') : InProgram d p p' := by
  obtain ⟨h⟩ := h
  exact .mk (hb.inDecl h)

/-! ### No change at all -/

theorem no_expr {e e' : Expr} (h : InExpr {} e e') : False := by
  induction h <;> assumption

theorem no_row {es es' : List Expr} (h : InRow {} es es') : False := by
  obtain ⟨h⟩ := h
  exact no_expr h

theorem no_option {e e' : Option Expr} (h : InOption {} e e') : False := by
  obtain ⟨h⟩ := h
  exact no_expr h

theorem no_simple {s s' : Simple} (h : InSimple {} s s') : False := by
  cases h <;> first | assumption | exact no_expr ‹_› | exact no_row ‹_› | exact no_option ‹_›

theorem no_stmt {s s' : Stmt} (h : InStmt {} s s') : False := by
  induction h <;> first | assumption | exact no_simple ‹_› | exact no_expr ‹_› | exact no_option ‹_›

theorem no_sig {g g' : Sig} (h : InSig {} g g') : False := by
  cases h with
  | params h => cases h <;> first | exact no_expr ‹_› | exact no_option ‹_›
  | results h => exact no_row h

theorem no_program {p p' : Program} (h : InProgram {} p p') : False := by
  obtain ⟨h⟩ := h
  induction h <;> first | assumption | exact no_simple ‹_› | exact no_sig ‹_› | exact no_row ‹_› | exact no_stmt ‹_›

/-! ### The algorithms -/

mutual
theorem bare_self (s : Stmt) (h : noComments s = true) : bare s = [s] := by
  match s with
  | .simple x => rfl
  | .for_ _ _ _ body => simp only [noComments] at h; simp [bare, bareAll_self body h]
  | .if_ _ body els =>
    simp only [noComments, Bool.and_eq_true] at h
    simp [bare, bareAll_self body h.1, bareAll_self els h.2]
  | .comment _ => cases h
theorem bareAll_self (ss : List Stmt) (h : noCommentsIn ss = true) : bareAll ss = ss := by
  match ss with
  | [] => rfl
  | s :: ss =>
    simp only [noCommentsIn, Bool.and_eq_true] at h
    simp [bareAll, bare_self s h.1, bareAll_self ss h.2]
end

theorem swapped_same {α : Type} {kind : α → Prop} {xs ys : List α} (h : Swapped kind xs ys) (he : ys = xs) :
    ∃ pre a mid post, xs = pre ++ a :: (mid ++ a :: post) := by
  obtain ⟨pre, a, mid, b, post, _, _, rfl, rfl⟩ := h
  have : b = a := by simpa using (List.append_cancel_left he : _ = _) |> fun h => (List.cons.inj h).1
  exact ⟨pre, a, mid, post, by rw [this]⟩

theorem noCommentsIn_iff {ss : List Stmt} : noCommentsIn ss = true ↔ ∀ s ∈ ss, noComments s = true := by
  induction ss with
  | nil => simp [noCommentsIn]
  | cons s ss ih => simp [noCommentsIn, ih]

theorem swapped_bare {xs ys : List Stmt} (h : Swapped NoReturn xs ys) (hn : noCommentsIn xs = true) (he : bareAll ys = bareAll xs) :
    ∃ pre a mid post, xs = pre ++ a :: (mid ++ a :: post) := by
  refine swapped_same h ?_
  rwa [bareAll_self xs hn, bareAll_self ys] at he
  obtain ⟨pre, a, mid, b, post, _, _, rfl, rfl⟩ := h
  rw [noCommentsIn_iff] at hn ⊢
  intro s hs
  apply hn s
  simp only [List.mem_append, List.mem_cons] at hs ⊢
  rcases hs with h | h | h | h | h <;> simp [h]

theorem deleted_bare {xs ys : List Stmt} (h : Deleted xs ys) (hn : noCommentsIn xs = true) (he : bareAll ys = bareAll xs) :
    ∃ x, (x = .pass ∨ ∃ vs, x = .ret vs) ∧ xs = [.simple x] := by
  obtain ⟨a, x, b, more, rfl, rfl, hm⟩ := h
  simp only [noCommentsIn_append, noCommentsIn, Bool.and_eq_true] at hn
  simp only [bareAll_append, bareAll, bare, List.nil_append, List.append_cancel_left_eq, bare_self x hn.2.1] at he
  rcases hm with rfl | ⟨rfl, rfl, rfl | ⟨vs, rfl⟩⟩
  · have := congrArg List.length he
    simp [bareAll] at this
  · simp only [bareAll, bare, List.append_nil, List.nil_append, List.cons.injEq, and_true] at he
    exact ⟨_, .inl rfl, by rw [← he]; rfl⟩
  · simp only [bareAll, bare, List.append_nil, List.nil_append, List.cons.injEq, and_true] at he
    exact ⟨_, .inr ⟨vs, rfl⟩, by rw [← he]; rfl⟩

theorem idle_below (decimal : Nat → String) (t : MutationType) : Below (idle (changeOf decimal t)) (idleOf decimal t) := by
  have ops : ∀ t, Below (idle (operatorChange t)) {} := fun t =>
    ⟨by rintro e e' ⟨⟨l, o, o', r, rfl, rfl, hne, _⟩, he⟩; injection he with _ h; exact hne h, fun _ _ h => h.1, fun _ _ h => h.1,
      fun _ _ h => h.1⟩
  cases t
  case swapOperatorArguments =>
    refine ⟨?_, fun _ _ h => h.1, fun _ _ h => h.1, fun _ _ h => h.1⟩
    rintro e e' ⟨⟨l, o, r, rfl, rfl, _⟩, he⟩
    injection he with h
    exact ⟨l, o, by rw [h]⟩
  case functionCall =>
    refine ⟨?_, fun _ _ h => h.1, fun _ _ h => h.1, fun _ _ h => h.1⟩
    rintro e e' ⟨⟨f, args, rfl, hm⟩, rfl⟩
    have := List.sizeOf_lt_of_mem hm
    simp at this
    omega
  case swapFunctionArguments =>
    refine ⟨?_, fun _ _ h => h.1, fun _ _ h => h.1, fun _ _ h => h.1⟩
    rintro e e' ⟨⟨f, args, args', rfl, rfl, hsw⟩, he⟩
    injection he with _ h
    obtain ⟨pre, a, mid, post, rfl⟩ := swapped_same hsw h
    exact ⟨f, pre, a, mid, post, rfl⟩
  case unaryOp =>
    refine ⟨?_, fun _ _ h => h.1, fun _ _ h => h.1, fun _ _ h => h.1⟩
    rintro e e' ⟨h, rfl⟩
    rcases h with h | h <;>
    · have := congrArg sizeOf h
      simp at this
  case integer =>
    refine ⟨?_, fun _ _ h => h.1, fun _ _ h => h.1, fun _ _ h => h.1⟩
    rintro e e' ⟨⟨n, k, rfl, rfl⟩, he⟩
    exact ⟨n, rfl⟩
  case assignment =>
    refine ⟨fun _ _ h => h.1, ?_, fun _ _ h => h.1, fun _ _ h => h.1⟩
    rintro s s' ⟨⟨ts, vs, v, rfl, rfl, hv⟩, he⟩
    injection he with _ h
    exact ⟨ts, v, by rw [h], hv⟩
  case ifStatement =>
    refine ⟨fun _ _ h => h.1, fun _ _ h => h.1, ?_, fun _ _ h => h.1⟩
    rintro s s' ⟨⟨c, c', b, els, rfl, rfl, hc⟩, _, he⟩
    simp only [bare, List.cons.injEq, Stmt.if_.injEq, and_true] at he
    subst he
    rcases hc with rfl | rfl | h
    · exact ⟨b, els, .inl rfl⟩
    · exact ⟨b, els, .inr rfl⟩
    · have := congrArg sizeOf h
      simp at this
  case swapLines =>
    refine ⟨fun _ _ h => h.1, fun _ _ h => h.1, ?_, ?_⟩
    · rintro s s' ⟨⟨x, ty, it, b, b', rfl, rfl, hsw⟩ | ⟨c, b, b', els, rfl, rfl, hsw⟩, hn, he⟩
      · simp only [bare, List.cons.injEq, Stmt.for_.injEq, and_true, true_and] at he
        obtain ⟨pre, a, mid, post, rfl⟩ := swapped_bare hsw (by simpa [noComments] using hn) he
        exact ⟨pre, a, mid, post, .inl ⟨x, ty, it, rfl⟩⟩
      · simp only [bare, List.cons.injEq, Stmt.if_.injEq, and_true, true_and] at he
        simp only [noComments, Bool.and_eq_true] at hn
        obtain ⟨pre, a, mid, post, rfl⟩ := swapped_bare hsw hn.1 he
        exact ⟨pre, a, mid, post, .inr ⟨c, els, rfl⟩⟩
    · rintro d d' ⟨⟨ds, g, doc, b, b', rfl, rfl, hsw⟩, hn, he⟩
      simp only [Decl.bare, List.cons.injEq, Decl.fn.injEq, and_true, true_and] at he
      obtain ⟨pre, a, mid, post, rfl⟩ := swapped_bare hsw (by simpa [Decl.noComments] using hn) he
      exact ⟨ds, g, doc, pre, a, mid, post, rfl⟩
  case deleteStatement =>
    refine ⟨fun _ _ h => h.1, fun _ _ h => h.1, ?_, ?_⟩
    · rintro s s' ⟨⟨x, ty, it, b, b', rfl, rfl, hsw⟩ | ⟨c, b, b', els, rfl, rfl, hsw⟩, hn, he⟩
      · simp only [bare, List.cons.injEq, Stmt.for_.injEq, and_true, true_and] at he
        obtain ⟨y, hy, rfl⟩ := deleted_bare hsw (by simpa [noComments] using hn) he
        exact ⟨y, hy, .inl ⟨x, ty, it, rfl⟩⟩
      · simp only [bare, List.cons.injEq, Stmt.if_.injEq, and_true, true_and] at he
        obtain ⟨y, hy, rfl⟩ := deleted_bare hsw (by simp only [noComments, Bool.and_eq_true] at hn; exact hn.1) he
        exact ⟨y, hy, .inr ⟨c, els, rfl⟩⟩
    · rintro d d' ⟨⟨ds, g, doc, b, b', rfl, rfl, hsw⟩ | rfl, hn, he⟩
      · simp only [Decl.bare, List.cons.injEq, Decl.fn.injEq, and_true, true_and] at he
        obtain ⟨y, hy, rfl⟩ := deleted_bare hsw (by simpa [Decl.noComments] using hn) he
        exact ⟨y, hy, ds, g, doc, rfl⟩
      · cases d <;> simp [Decl.bare, Decl.noComments] at he hn
  all_goals exact ops _

/-- **C85 (Vyper, one change).** If a change that an algorithm makes to a program without comments leaves the program as it is,
except for comments, then it found something that it cannot change: equal operands, arguments or statements that change places,
a number, value or condition that is the new one, or an only statement that is put in again. -/
theorem C85_vyper_change {decimal : Nat → String} {t : MutationType} {p p' : Program} (h : InProgram (changeOf decimal t) p p')
    (hn : p.noComments = true) (he : p'.bare = p.bare) : InProgram (idleOf decimal t) p p' :=
  (idle_below decimal t).inProgram (idle_program h hn he)

/-- **C85 (Vyper, algorithms).** The other algorithms always give another program. -/
theorem C85_vyper_other {decimal : Nat → String} {t : MutationType} {p p' : Program} (h : InProgram (changeOf decimal t) p p')
    (hn : p.noComments = true) (ht : t ∉ mayBeIdle) : p'.bare ≠ p.bare := by
  intro he
  have := C85_vyper_change h hn he
  cases t <;> first | exact no_program this | exact ht (by decide)

end VyGrammar

namespace VyPrint
open VyGrammar Json

variable {S R : Type} [Rand R]

/-- **C85 (Vyper).** After a run that ends well for a Vyper program without comments, a file for a mutant that is read as the
program it was made from is one where the algorithm found something that it cannot change.  No file of another algorithm is read
as that program.  Missing: the algorithms that change nothing (`C85_vyper_counterexample`), and the mutants that are missing in
property C75. -/
theorem C85_vyper_partial (m : Machine S R) (hsh : ∀ l, (m.shuffle l).Perm l) {content : String → S → Option String}
    (hc : Contents m.toSys content) (hw : ∀ f t s, (m.write f t s).1 = true → content f (m.write f t s).2 = some t)
    (env : PrintEnv) (hprint : ∀ j, m.print .vyper j = Language.print env .vyper j)
    (fuel : Nat) (p : Params R) (s s' : S) (base : String)
    (hb : Path.fileName p.fileName = some base) (hs : p.useStdout = false) (name : String) (ast : Json)
    (hr : (m.reading p s).1 = .ok (.vyper, fileTree name ast))
    (htmp : ∀ n : Nat, ¬ InTemp m.toSys (Path.join p.outputDirectory (base ++ "_" ++ toString n ++ ".vy")))
    (hout : ∀ (n : Nat) t s, content (Path.join p.outputDirectory (base ++ "_" ++ toString n ++ ".vy")) (m.stdout t s) =
      content (Path.join p.outputDirectory (base ++ "_" ++ toString n ++ ".vy")) s)
    (hok : m.generate fuel p s = (.ok (), s'))
    (prog : Program) (hshow : ShowsProgram prog ast) (hpo : .integer ∈ p.mutations → prog.Ok)
    (hmut : Mutable R m.env p.mutations ast) (hn : prog.noComments = true) :
    ∃ count ≤ p.numberOfMutants, ∀ k : Nat,
      (k < count → ∃ t ∈ p.mutations, ∃ mutator : Mutator R, Vyper.mutatorFor m.env t = some mutator ∧
        ∃ (pos : Pos) (node node' : Json) (rng rng' : R) (rep : MutatorResult) (comment : Option Json) (text : String),
          nodeAt pos (fileTree name ast) = some node ∧ mutator.isMutable node = true ∧
          mutator.mutate node rng = .ok (node', rep, comment, rng') ∧
          content (Path.join p.outputDirectory (base ++ "_" ++ toString k ++ ".vy")) s' = some text ∧
          (Writable t node' → ∃ prog' prog'', InProgram (changeOf m.env.floatText t) prog prog' ∧
            (prog'' = prog' ∨ ∃ note, comment = some (Vyper.commentNode note) ∧ NewComment note prog' prog'') ∧
            (prog''.Ok → prog''.Shallow → readProgram text.toList = some prog'.bare ∧
              (readProgram text.toList = some prog.bare → t ∈ mayBeIdle ∧ InProgram (idleOf m.env.floatText t) prog prog')))) ∧
      (count ≤ k → content (Path.join p.outputDirectory (base ++ "_" ++ toString k ++ ".vy")) s' =
        content (Path.join p.outputDirectory (base ++ "_" ++ toString k ++ ".vy")) s) := by
  obtain ⟨count, h1, h2⟩ := C75_written_partial m hsh hc hw env hprint fuel p s s' base hb hs name ast hr htmp hout hok prog hshow
    hpo hmut
  refine ⟨count, h1, fun k => ⟨fun hk => ?_, (h2 k).2⟩⟩
  obtain ⟨t, ht, mu, hmu, pos, nd, nd', rng, rng', rep, comment, text, e1, e2, -, e3, e4, e5⟩ := (h2 k).1 hk
  refine ⟨t, ht, mu, hmu, pos, nd, nd', rng, rng', rep, comment, text, e1, e2, e3, e4, fun hwr => ?_⟩
  obtain ⟨prog', prog'', g1, g2, g3⟩ := e5 hwr
  refine ⟨prog', prog'', g1, g2, fun a b => ⟨(g3 a b).2.1, fun he => ?_⟩⟩
  rw [(g3 a b).2.1, Option.some.injEq] at he
  exact ⟨Decidable.byContradiction fun h => C85_vyper_other g1 hn h he, C85_vyper_change g1 hn he⟩

namespace IdleDemo
open DemoVyper Demo

/-- `a - b` -/
def difference (a b : Json) : Json := DemoVyper.node "BinOp" 17 [("left", a), ("op", DemoVyper.node "Sub" 18 []), ("right", b)]

/-- **C85: counterexample.** In a run with `SwapOperatorArguments` the function that returns `a - a` is mutated.  The file for the
mutant is the program with a new comment, and is read as the program itself. -/
theorem C85_vyper_counterexample :
    let p := { params with mutations := [.swapOperatorArguments] }
    let tree := fileTree "x.vy" (module_ (difference (name 21 "a") (name 22 "a")))
    let r := (machine tree).generate 100 p disk
    let before := program (.bin (.leaf "a") .sub (.leaf "a"))
    ∃ ast text, tree = fileTree "x.vy" ast ∧ ShowsProgram before ast ∧ before.Ok ∧ before.Shallow ∧ before.noComments = true ∧
      InProgram (changeOf (machine tree).env.floatText .swapOperatorArguments) before before ∧
      Mutable ListRand (machine tree).env p.mutations ast ∧ r.1 = .ok () ∧
      r.2.lookup "out/x.vy_0.vy" = some (DemoVyper.text text) ∧
      text = "# SwapOperatorArguments Mutator: Swapped 'a' for 'a'\n    return a - a" ∧
      (readProgram (DemoVyper.text text).toList).bind result = some "(a-a)" ∧ result before = some "(a-a)" := by
  refine ⟨_, _, rfl, demo_shows ⟨⟨_, rfl, rfl⟩, .inl rfl, ⟨_, rfl, shows_name _ _⟩, _, rfl, shows_name _ _⟩, ?_, ?_, rfl, ?_,
    mutable_of_check (by decide +kernel), by decide +kernel, ?_, rfl, by decide +kernel, by decide +kernel⟩
  · demo_ok
  · unfold Program.Shallow
    decide +kernel
  · exact .mk (pre := [_]) (.body (pre := []) (.simple (.ret (.mk (pre := []) (.here ⟨_, _, _, rfl, rfl, by decide⟩)))))
  · decide +kernel

end IdleDemo
end VyPrint

namespace SolGrammar

theorem unbraced_append (a b : List String) : unbraced (a ++ b) = unbraced a ++ unbraced b := by simp [unbraced]

theorem unbraced_one {t : String} (h1 : t ≠ "{") (h2 : t ≠ "}") : unbraced [t] = [t] := by simp [unbraced, h1, h2]

theorem unbraced_cons {t : String} (h1 : t ≠ "{") (h2 : t ≠ "}") (ts : List String) : unbraced (t :: ts) = t :: unbraced ts := by
  simp [unbraced, h1, h2]

theorem braces_unbraced {xs ys : List String} (h : Within Braces xs ys) : unbraced ys = unbraced xs := by
  obtain ⟨pre, u, v, post, rfl, rfl, rfl | rfl⟩ := h
  · rfl
  · simp [unbraced]

theorem numeral_unbraced (k : Int) : unbraced (numeralToks k) = numeralToks k := by
  have key : ∀ (n : Nat) (c : Char), Char.isDigit c = false → toString n ≠ String.ofList [c] := by
    intro n c h2 h
    have h := congrArg String.toList h
    rw [String.toList_ofList] at h
    have : (Nat.repr n).toList = [c] := h
    have hd := Nat.isDigit_of_mem_toDigits (b := 10) (by decide) (by decide) (n := n) (c := c) (by
      rw [Nat.repr, String.toList_ofList] at this; rw [this]; exact List.mem_singleton.2 rfl)
    rw [h2] at hd; cases hd
  have h1 := key k.natAbs '{' (by decide)
  have h2 := key k.natAbs '}' (by decide)
  unfold numeralToks
  split
  · rw [unbraced_cons (by decide) (by decide), unbraced_one h1 h2]
  · exact unbraced_one h1 h2

theorem class_unbraced {t : MutationType} {o : String} (h : o ∈ operatorClass t) : o ≠ "{" ∧ o ≠ "}" := by
  cases t <;> revert o <;> decide

theorem level_unbraced (o : Operator) : o.text ≠ "{" ∧ o.text ≠ "}" := by
  cases o <;> decide

/-- **C85 (Solidity, one change).** If a change that an algorithm makes to a stretch of tokens leaves them as they are, except for
braces, then it found something that it cannot change: equal operands, arguments or statements that change places, or a number,
value or condition that is the new one. -/
theorem C85_solidity_change {t : MutationType} {u v : List String} (h : tokenChange t u v) (he : unbraced v = unbraced u) :
    t ∈ mayBeIdle ∧ idleTokens t u := by
  have ops : ∀ t' : MutationType, (∃ o o', u = [o] ∧ v = [o'] ∧ o' ≠ o ∧ o ∈ operatorClass t' ∧ o' ∈ operatorClass t') → False := by
    rintro t' ⟨o, o', rfl, rfl, hne, h1, h2⟩
    rw [unbraced_one (class_unbraced h1).1 (class_unbraced h1).2, unbraced_one (class_unbraced h2).1 (class_unbraced h2).2] at he
    exact hne (List.cons.inj he).1
  cases t
  case swapOperatorArguments =>
    obtain ⟨l, o, r, rfl, rfl, ho⟩ := h
    exact ⟨by decide, l, o, r, rfl, ho, he.symm⟩
  case functionCall =>
    obtain ⟨f, p, q, rfl⟩ := h
    have := congrArg List.length he
    simp [unbraced] at this
    omega
  case swapFunctionArguments =>
    obtain ⟨a, m, b, rfl, rfl⟩ := h
    exact ⟨by decide, a, m, b, rfl, he.symm⟩
  case unaryOp =>
    obtain ⟨o, o', rfl, rfl, hne, h1, h2⟩ := h
    have hu : ∀ o ∈ unaryClass true, o ≠ "{" ∧ o ≠ "}" := by decide
    rw [unbraced_one (hu _ h1).1 (hu _ h1).2, unbraced_one (hu _ h2).1 (hu _ h2).2] at he
    exact absurd (List.cons.inj he).1 hne
  case integer =>
    obtain ⟨t, k, hu, rfl⟩ := h
    rw [numeral_unbraced] at he
    exact ⟨by decide, t, k, hu, he.symm⟩
  case assignment =>
    obtain ⟨o, r, t, rfl, rfl, ho, ht⟩ := h
    rw [unbraced_cons (level_unbraced o).1 (level_unbraced o).2, unbraced_cons (level_unbraced o).1 (level_unbraced o).2] at he
    have he := (List.cons.inj he).2
    refine ⟨by decide, o, r, rfl, ho, ?_⟩
    rcases ht with ⟨k, rfl⟩ | rfl | rfl
    · exact .inl ⟨k, by rw [← he, numeral_unbraced]⟩
    · exact .inr (.inl he.symm)
    · exact .inr (.inr he.symm)
  case ifStatement =>
    obtain ⟨c, c', rfl, rfl, hc⟩ := h
    have he : unbraced c' = unbraced c := by
      rw [unbraced_cons (t := "if") (by decide) (by decide), unbraced_cons (t := "(") (by decide) (by decide), unbraced_append,
        unbraced_cons (t := "if") (by decide) (by decide), unbraced_cons (t := "(") (by decide) (by decide), unbraced_append] at he
      exact List.append_cancel_right (List.cons.inj (List.cons.inj he).2).2
    rcases hc with rfl | rfl | rfl
    · exact ⟨by decide, c, rfl, .inl he.symm⟩
    · exact ⟨by decide, c, rfl, .inr he.symm⟩
    · have := congrArg List.length he
      simp [unbraced] at this
      omega
  case swapLines =>
    obtain ⟨a, m, b, rfl, rfl⟩ := h
    exact ⟨by decide, a, m, b, rfl, he.symm⟩
  case require =>
    have h : v = "!" :: "(" :: (u ++ [")"]) := h
    subst h
    have := congrArg List.length he
    simp [unbraced] at this
    omega
  case uncheckedBlock =>
    have h : v = "unchecked" :: "{" :: (u ++ ["}"]) := h
    subst h
    have := congrArg List.length he
    simp [unbraced] at this
  case elimDelegateCall =>
    obtain ⟨rfl, rfl⟩ := h
    exact absurd he (by decide)
  case deleteStatement => exact absurd h id
  all_goals exact (ops _ h).elim

end SolGrammar

namespace SolPrint
open SolGrammar Json

variable {S R : Type} [Rand R]

/-- **C85 (Solidity).** After a run that ends well for a Solidity source file, a file for a mutant with the tokens of the source
file, except for braces, is one where the algorithm found something that it cannot change, or a node that is no part of the
file.  Missing: the algorithms that change nothing (`C85_solidity_counterexample`), and the mutants that are missing in
property C76. -/
theorem C85_solidity_partial (m : Machine S R) (hsh : ∀ l, (m.shuffle l).Perm l) {content : String → S → Option String}
    (hc : Contents m.toSys content) (hw : ∀ f t s, (m.write f t s).1 = true → content f (m.write f t s).2 = some t)
    (env : PrintEnv) (hprint : ∀ j, m.print .solidity j = Language.print env .solidity j)
    (fuel : Nat) (p : Params R) (s s' : S) (base : String)
    (hb : Path.fileName p.fileName = some base) (hs : p.useStdout = false) (ast : Json)
    (hr : (m.reading p s).1 = .ok (.solidity, ast))
    (htmp : ∀ n : Nat, ¬ InTemp m.toSys (Path.join p.outputDirectory (base ++ "_" ++ toString n ++ ".sol")))
    (hout : ∀ (n : Nat) t s, content (Path.join p.outputDirectory (base ++ "_" ++ toString n ++ ".sol")) (m.stdout t s) =
      content (Path.join p.outputDirectory (base ++ "_" ++ toString n ++ ".sol")) s)
    (hok : m.generate fuel p s = (.ok (), s')) (f : SourceFile) (hshow : ShowsFile f ast) (hp : f.Plain true) :
    ∃ count ≤ p.numberOfMutants, ∀ k : Nat,
      (k < count → ∃ t ∈ p.mutations, ∃ mutator : Mutator R, Solidity.mutatorFor m.env t = some mutator ∧
        ∃ (pos : Pos) (node node' : Json) (rng rng' : R) (rep : MutatorResult) (comment : Option Json) (text : String),
          nodeAt pos ast = some node ∧ mutator.isMutable node = true ∧
          mutator.mutate node rng = .ok (node', rep, comment, rng') ∧
          content (Path.join p.outputDirectory (base ++ "_" ++ toString k ++ ".sol")) s' = some text ∧
          (Writable t node node' →
            (∀ q n, nodeAt q (replaceAt pos node' ast) = some n → ¬ BranchBlock (commentTarget .solidity rep node') n) →
            ∃ f' f'', (InFile (changeOf t) f f' ∨ f' = f ∧ visible pos ast = false) ∧
              (f'' = f' ∨ ∃ note, comment = some (Solidity.commentNode note) ∧ NewComment note f' f'') ∧
              (f''.Plain true → unbraced (SolGrammar.tokens text.toList) = unbraced f.toks →
                visible pos ast = false ∨
                  t ∈ mayBeIdle ∧ ∃ pre u post, f.toks = pre ++ (u ++ post) ∧ idleTokens t u))) ∧
      (count ≤ k → content (Path.join p.outputDirectory (base ++ "_" ++ toString k ++ ".sol")) s' =
        content (Path.join p.outputDirectory (base ++ "_" ++ toString k ++ ".sol")) s) := by
  obtain ⟨count, h1, h2⟩ := C76_written_partial m hsh hc hw env hprint fuel p s s' base hb hs ast hr htmp hout hok f hshow
  refine ⟨count, h1, fun k => ⟨fun hk => ?_, (h2 k).2⟩⟩
  obtain ⟨t, ht, mu, hmu, pos, nd, nd', rng, rng', rep, comment, text, e1, e2, -, e3, e4, e5⟩ := (h2 k).1 hk
  refine ⟨t, ht, mu, hmu, pos, nd, nd', rng, rng', rep, comment, text, e1, e2, e3, e4, fun hwr hbr => ?_⟩
  obtain ⟨f', f'', g1, g2, g3, g4, g5⟩ := e5 hwr hbr
  refine ⟨f', f'', g1, g2, fun hp' he => ?_⟩
  rw [g5 hp'] at he
  have he' : unbraced f'.toks = unbraced f.toks := by
    rcases g4 with g4 | g4
    · rw [← g4, he]
    · rw [← braces_unbraced g4, he]
  rcases g3 hp with ⟨pre, u, v, post, a1, a2, a3⟩ | ⟨-, g3⟩
  · rw [a1, a2] at he'
    simp only [unbraced_append, List.append_cancel_left_eq, List.append_cancel_right_eq] at he'
    have := C85_solidity_change a3 he'
    exact .inr ⟨this.1, pre, u, post, a1, this.2⟩
  · exact .inl g3

namespace IdleDemo
open Demo DemoMachine

/-- `x - x` -/
def difference : Json :=
  .obj [("id", .num (.int 21)), ("leftExpression", variable_ 22 "x"), ("nodeType", .str "BinaryOperation"), ("operator", .str "-"),
    ("rightExpression", variable_ 23 "x")]

/-- **C85: counterexample.** In a run with `SwapOperatorArguments` the function with `x - x` is mutated.  The file for the mutant
has a new comment, and the tokens of the source file. -/
theorem C85_solidity_counterexample :
    let p : Params ListRand := { params with
      numberOfMutants := 1, mutations := [.swapOperatorArguments], verify := false }
    let r := (machineWith difference).generate 100 p disk
    let f := file [.expr (.bin (.leaf "x") .sub (.leaf "x"))]
    ShowsFile f (program_ [statement 20 difference]) ∧ f.Plain true ∧ InFile (changeOf .swapOperatorArguments) f f ∧ r.1 = .ok () ∧
    ∃ text, r.2.lookup "out/b.sol_0.sol" = some text ∧
      text = textOf "// SwapOperatorArguments Mutator: switched '' and ''\n        x - x;" ∧
      SolGrammar.tokens text.toList = f.toks := by
  refine ⟨shows_demo ⟨?_, trivial⟩, plain_demo ?_, ?_, by decide +kernel, _, by decide +kernel, rfl, by decide +kernel⟩
  · simp only [ShowsStmt]
    refine ⟨rfl, _, rfl, ?_⟩
    simp only [Shows]
    refine ⟨rfl, ?_⟩
    rw [if_neg (by decide)]
    exact ⟨rfl, ⟨_, rfl, .inl ⟨rfl, rfl⟩⟩, _, rfl, .inl ⟨rfl, rfl⟩⟩
  · simp only [stmtsPlain, Stmt.Plain, Legible]
    exact ⟨⟨by decide, by decide⟩, trivial⟩
  · exact .items (.mk (pre := []) (.contract (.members (.mk (pre := []) (.fn (.body (.mk (.block (pre := []) (.expr
      (.here ⟨_, _, _, rfl, rfl, by decide⟩))))))))))

/-- `x - x - x` -/
def differences : Json :=
  .obj [("id", .num (.int 24)), ("leftExpression", difference), ("nodeType", .str "BinaryOperation"), ("operator", .str "-"),
    ("rightExpression", variable_ 25 "x")]

/-- **C85: counterexample.** The text may be the same although the tree is not: in a run with `SwapOperatorArguments` the function
with `x - x - x` is mutated to one with `x - (x - x)`, but it is written as `x - x - x`. -/
theorem C85_regrouped_counterexample :
    let p : Params ListRand := { params with
      numberOfMutants := 1, mutations := [.swapOperatorArguments], verify := false }
    let r := (machineWith differences).generate 100 p disk
    let f := file [.expr (.bin (.bin (.leaf "x") .sub (.leaf "x")) .sub (.leaf "x"))]
    let f' := file [.expr (.bin (.leaf "x") .sub (.bin (.leaf "x") .sub (.leaf "x")))]
    ShowsFile f (program_ [statement 20 differences]) ∧ f.Plain true ∧ InFile (changeOf .swapOperatorArguments) f f' ∧ r.1 = .ok () ∧
    ∃ text, r.2.lookup "out/b.sol_0.sol" = some text ∧
      text = textOf "// SwapOperatorArguments Mutator: switched '' and ''\n        x - x - x;" ∧
      SolGrammar.tokens text.toList = f.toks := by
  refine ⟨shows_demo ⟨?_, trivial⟩, plain_demo ?_, ?_, by decide +kernel, _, by decide +kernel, rfl, by decide +kernel⟩
  · simp only [ShowsStmt]
    refine ⟨rfl, _, rfl, ?_⟩
    simp only [Shows]
    refine ⟨rfl, ?_⟩
    rw [if_neg (by decide)]
    refine ⟨rfl, ⟨_, rfl, rfl, ?_⟩, _, rfl, .inl ⟨rfl, rfl⟩⟩
    rw [if_neg (by decide)]
    exact ⟨rfl, ⟨_, rfl, .inl ⟨rfl, rfl⟩⟩, _, rfl, .inl ⟨rfl, rfl⟩⟩
  · simp only [stmtsPlain, Stmt.Plain, Legible]
    exact ⟨⟨by decide, by decide⟩, trivial⟩
  · exact .items (.mk (pre := []) (.contract (.members (.mk (pre := []) (.fn (.body (.mk (.block (pre := []) (.expr
      (.here ⟨_, _, _, rfl, rfl, by decide⟩))))))))))

/-- The statements change: `x - y` becomes `y - x`, and the tokens are others. -/
example : tokenChange .swapOperatorArguments ["x", "-", "y"] ["y", "-", "x"] ∧
    unbraced ["y", "-", "x"] ≠ unbraced ["x", "-", "y"] ∧ idleTokens .swapOperatorArguments ["x", "-", "x"] :=
  ⟨⟨["x"], "-", ["y"], rfl, rfl, by decide⟩, by decide, ["x"], "-", ["x"], rfl, by decide, rfl⟩

end IdleDemo
end SolPrint
end Mutagenyx
