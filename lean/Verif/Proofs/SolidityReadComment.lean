import Verif.Proofs.SolidityReadItems
import Verif.Spec.SolidityMutation

/-!
# A comment and what a file is read as
-/

namespace Mutagenyx
namespace SolGrammar

section
variable {text : String}

theorem comment_no_expr {e e' : Expr} (h : InExpr (commentIn text) e e') : False := by
  induction h with
  | here h => exact h
  | _ => assumption

theorem comment_no_opt {e e' : Option Expr} (h : InSome (InExpr (commentIn text)) e e') : False := by
  cases h with
  | mk h => exact comment_no_expr h

theorem comment_no_ty {t t' : Ty} (h : InTy (commentIn text) t t') : False := by
  induction h with
  | length h => exact comment_no_expr h
  | _ => assumption

theorem comment_no_var {v v' : Var} (h : InVar (commentIn text) v v') : False := by
  cases h with
  | type h => exact comment_no_ty h
  | value h => exact comment_no_opt h

theorem comment_no_vars {vs vs' : List Var} (h : InList (InVar (commentIn text)) vs vs') : False := by
  cases h with
  | mk h => exact comment_no_var h

theorem comment_no_uses {us us' : List Use} (h : InList (InUse (commentIn text)) us us') : False := by
  cases h with
  | mk h =>
    cases h with
    | args h =>
      generalize hx : Use.args _ = x at h
      cases h with
      | mk h =>
        cases h with
        | mk h => exact comment_no_expr h

theorem bareStmts_append : ∀ a b : List Stmt, bareStmts (a ++ b) = bareStmts a ++ bareStmts b
  | [], b => by simp [bareStmts]
  | s :: a, b => by
    have := bareStmts_append a b
    cases s <;> simp [bareStmts, this]

theorem bareStmts_cons {s : Stmt} (hs : ∀ t, s ≠ .comment t) (b : List Stmt) : bareStmts (s :: b) = s.bare :: bareStmts b := by
  cases s <;> simp [bareStmts] at hs ⊢

theorem bareClauses_append : ∀ a b : List Stmt, bareClauses (a ++ b) = bareClauses a ++ bareClauses b
  | [], b => by simp [bareClauses]
  | s :: a, b => by
    have := bareClauses_append a b
    simp [bareClauses, this]

theorem stmtsClear_append : ∀ {a b : List Stmt}, stmtsClear (a ++ b) ↔ stmtsClear a ∧ stmtsClear b
  | [], b => by simp [stmtsClear]
  | s :: a, b => by simp [stmtsClear, stmtsClear_append (a := a), and_assoc]

theorem clausesClear_cons {s : Stmt} {a : List Stmt} : clausesClear (s :: a) ↔ clausesClear [s] ∧ clausesClear a := by
  cases s <;> simp [clausesClear, and_assoc]

theorem clausesClear_append : ∀ {a b : List Stmt}, clausesClear (a ++ b) ↔ clausesClear a ∧ clausesClear b
  | [], b => by simp [clausesClear]
  | s :: a, b => by
    rw [List.cons_append, clausesClear_cons, clausesClear_append (a := a), clausesClear_cons (a := a), and_assoc]

theorem simple_bare {i : Stmt} (h : SimpleClear i.bare) : (∃ e, i = .expr e) ∨ ∃ vs e, i = .decl vs e := by
  cases i <;> simp [Stmt.bare, SimpleClear] at h ⊢

theorem clear_no_comment {s : Stmt} (h : s.bare.Clear) (t : String) : s ≠ .comment t := by
  rintro rfl
  simp [Stmt.bare, Stmt.Clear] at h

/-- What a new comment does to a statement that is read. -/
structure Quiet (s s' : Stmt) : Prop where
  clear : s.bare.Clear → s'.bare.Clear ∧ (s'.bare.open_ = true → s.bare.open_ = true) ∧
    (s'.bare = s.bare ∨ InStmt braced s.bare s'.bare)
  clause : clausesClear [s.bare] → clausesClear [s'.bare] ∧ (s'.bare = s.bare ∨ InStmt braced s.bare s'.bare)
  here : ∀ t, s ≠ .comment t
  there : ∀ t, s' ≠ .comment t

theorem quiet_block {a b : List Stmt} {s s' : Stmt} (h : Quiet s s') (hc : stmtsClear (bareStmts (a ++ s :: b))) :
    stmtsClear (bareStmts (a ++ s' :: b)) ∧ (bareStmts (a ++ s' :: b) = bareStmts (a ++ s :: b) ∨
      ∃ p q x x', bareStmts (a ++ s :: b) = p ++ x :: q ∧ bareStmts (a ++ s' :: b) = p ++ x' :: q ∧ InStmt braced x x') := by
  rw [bareStmts_append, bareStmts_cons h.here, stmtsClear_append] at hc
  simp only [stmtsClear] at hc
  rw [bareStmts_append, bareStmts_cons h.there, bareStmts_append, bareStmts_cons h.here, stmtsClear_append]
  simp only [stmtsClear]
  obtain ⟨h1, -, h2⟩ := h.clear hc.2.1
  refine ⟨⟨hc.1, h1, hc.2.2⟩, ?_⟩
  rcases h2 with h2 | h2
  · exact .inl (by rw [h2])
  · exact .inr ⟨_, _, _, _, rfl, rfl, h2⟩

theorem quiet {s s' : Stmt} (h : InStmt (commentIn text) s s') : Quiet s s' := by
  induction h with
  | @here s s' h =>
    rcases h with ⟨a, b, rfl, rfl⟩ | ⟨a, b, rfl, rfl⟩ | ⟨c, t, rfl, rfl⟩ | ⟨c, t, f, rfl, rfl⟩ | ⟨c, t, f, rfl, rfl⟩ |
      ⟨c, t, rfl, rfl⟩ | ⟨c, t, rfl, rfl⟩ | ⟨i, c, st, t, rfl, rfl⟩
    all_goals refine ⟨fun h => ?_, fun h => by simp [Stmt.bare, clausesClear] at h, fun _ h => (by cases h), fun _ h => (by cases h)⟩
    · have e : bareStmts (a ++ .comment text :: b) = bareStmts (a ++ b) := by simp [bareStmts_append, bareStmts]
      simp only [Stmt.bare, e]
      exact ⟨h, fun h => h, .inl trivial⟩
    · have e : bareStmts (a ++ .comment text :: b) = bareStmts (a ++ b) := by simp [bareStmts_append, bareStmts]
      simp only [Stmt.bare, e]
      exact ⟨h, fun h => h, .inl trivial⟩
    · simp only [Stmt.bare, Stmt.Clear] at h
      have e : bareStmts [.comment text, t] = [t.bare] := by
        rw [bareStmts, bareStmts_cons (clear_no_comment h.2), bareStmts]
      simp only [Stmt.bare, e, Stmt.Clear, stmtsClear, Stmt.open_]
      exact ⟨⟨h.1, h.2, trivial⟩, fun _ => trivial, .inr (.here (.inl ⟨_, _, rfl, rfl⟩))⟩
    · simp only [Stmt.bare, Stmt.Clear] at h
      have e : bareStmts [.comment text, t] = [t.bare] := by
        rw [bareStmts, bareStmts_cons (clear_no_comment h.2.1), bareStmts]
      simp only [Stmt.bare, e, Stmt.Clear, stmtsClear, Stmt.open_]
      exact ⟨⟨h.1, ⟨h.2.1, trivial⟩, trivial, h.2.2.2⟩, fun h => h, .inr (.here (.inr (.inl ⟨_, _, _, rfl, rfl⟩)))⟩
    · simp only [Stmt.bare, Stmt.Clear] at h
      have e : bareStmts [.comment text, f] = [f.bare] := by
        rw [bareStmts, bareStmts_cons (clear_no_comment h.2.2.2), bareStmts]
      simp only [Stmt.bare, e, Stmt.Clear, stmtsClear, Stmt.open_]
      exact ⟨⟨h.1, h.2.1, h.2.2.1, h.2.2.2, trivial⟩, fun h => (by cases h), .inr (.here (.inr (.inr (.inl ⟨_, _, _, rfl, rfl⟩))))⟩
    · simp only [Stmt.bare, Stmt.Clear] at h
      have e : bareStmts [.comment text, t] = [t.bare] := by
        rw [bareStmts, bareStmts_cons (clear_no_comment h.2), bareStmts]
      simp only [Stmt.bare, e, Stmt.Clear, stmtsClear, Stmt.open_]
      exact ⟨⟨h.1, h.2, trivial⟩, fun h => (by cases h), .inr (.here (.inr (.inr (.inr (.inl ⟨_, _, rfl, rfl⟩)))))⟩
    · simp only [Stmt.bare, Stmt.Clear] at h
      have e : bareStmts [.comment text, t] = [t.bare] := by
        rw [bareStmts, bareStmts_cons (clear_no_comment h.2), bareStmts]
      simp only [Stmt.bare, e, Stmt.Clear, stmtsClear, Stmt.open_]
      exact ⟨⟨h.1, h.2, trivial⟩, fun h => h, .inr (.here (.inr (.inr (.inr (.inr (.inl ⟨_, _, rfl, rfl⟩))))))⟩
    · simp only [Stmt.bare, Stmt.Clear] at h
      have e : bareStmts [.comment text, t] = [t.bare] := by
        rw [bareStmts, bareStmts_cons (clear_no_comment h.2.2.2), bareStmts]
      simp only [Stmt.bare, e, Stmt.Clear, stmtsClear, Stmt.open_]
      exact ⟨⟨h.1, h.2.1, h.2.2.1, h.2.2.2, trivial⟩, fun h => (by cases h),
        .inr (.here (.inr (.inr (.inr (.inr (.inr ⟨_, _, _, _, rfl, rfl⟩))))))⟩
  | expr h => exact (comment_no_expr h).elim
  | declared h =>
    cases h with
    | mk h =>
      cases h with
      | mk h => exact (comment_no_var h).elim
  | value h => exact (comment_no_opt h).elim
  | block h ih =>
    refine ⟨fun h => ?_, fun h => by simp [Stmt.bare, clausesClear] at h, fun _ h => (by cases h), fun _ h => (by cases h)⟩
    simp only [Stmt.bare, Stmt.Clear] at h
    obtain ⟨h1, h2⟩ := quiet_block ih h
    simp only [Stmt.bare, Stmt.Clear, Stmt.open_]
    refine ⟨h1, fun h => h, ?_⟩
    rcases h2 with h2 | ⟨p, q, x, x', e1, e2, h2⟩
    · exact .inl (by rw [h2])
    · rw [e1, e2]; exact .inr (.block h2)
  | unchecked h ih =>
    refine ⟨fun h => ?_, fun h => by simp [Stmt.bare, clausesClear] at h, fun _ h => (by cases h), fun _ h => (by cases h)⟩
    simp only [Stmt.bare, Stmt.Clear] at h
    obtain ⟨h1, h2⟩ := quiet_block ih h
    simp only [Stmt.bare, Stmt.Clear, Stmt.open_]
    refine ⟨h1, fun h => h, ?_⟩
    rcases h2 with h2 | ⟨p, q, x, x', e1, e2, h2⟩
    · exact .inl (by rw [h2])
    · rw [e1, e2]; exact .inr (.unchecked h2)
  | ifCondition h => exact (comment_no_expr h).elim
  | ifBody h ih =>
    refine ⟨fun h => ?_, fun h => by simp [Stmt.bare, clausesClear] at h, fun _ h => (by cases h), fun _ h => (by cases h)⟩
    simp only [Stmt.bare, Stmt.Clear] at h
    obtain ⟨h1, h2, h3⟩ := ih.clear h.2
    simp only [Stmt.bare, Stmt.Clear, Stmt.open_]
    exact ⟨⟨h.1, h1⟩, fun _ => trivial, h3.imp (fun e => by rw [e]) .ifBody⟩
  | elseCondition h => exact (comment_no_expr h).elim
  | elseBody h ih =>
    refine ⟨fun h => ?_, fun h => by simp [Stmt.bare, clausesClear] at h, fun _ h => (by cases h), fun _ h => (by cases h)⟩
    simp only [Stmt.bare, Stmt.Clear] at h
    obtain ⟨h1, h2, h3⟩ := ih.clear h.2.1
    simp only [Stmt.bare, Stmt.Clear, Stmt.open_]
    refine ⟨⟨h.1, h1, ?_, h.2.2.2⟩, fun h => h, h3.imp (fun e => by rw [e]) .elseBody⟩
    rcases Bool.eq_false_or_eq_true (Stmt.open_ (Stmt.bare _)) with hx | hx
    · have := h2 hx
      rw [h.2.2.1] at this
      cases this
    · exact hx
  | elseOther h ih =>
    refine ⟨fun h => ?_, fun h => by simp [Stmt.bare, clausesClear] at h, fun _ h => (by cases h), fun _ h => (by cases h)⟩
    simp only [Stmt.bare, Stmt.Clear] at h
    obtain ⟨h1, h2, h3⟩ := ih.clear h.2.2.2
    simp only [Stmt.bare, Stmt.Clear, Stmt.open_]
    exact ⟨⟨h.1, h.2.1, h.2.2.1, h1⟩, h2, h3.imp (fun e => by rw [e]) .elseOther⟩
  | whileCondition h => exact (comment_no_expr h).elim
  | whileBody h ih =>
    refine ⟨fun h => ?_, fun h => by simp [Stmt.bare, clausesClear] at h, fun _ h => (by cases h), fun _ h => (by cases h)⟩
    simp only [Stmt.bare, Stmt.Clear] at h
    obtain ⟨h1, h2, h3⟩ := ih.clear h.2
    simp only [Stmt.bare, Stmt.Clear, Stmt.open_]
    exact ⟨⟨h.1, h1⟩, h2, h3.imp (fun e => by rw [e]) .whileBody⟩
  | doCondition h => exact (comment_no_expr h).elim
  | doBody h ih =>
    refine ⟨fun h => ?_, fun h => by simp [Stmt.bare, clausesClear] at h, fun _ h => (by cases h), fun _ h => (by cases h)⟩
    simp only [Stmt.bare, Stmt.Clear] at h
    obtain ⟨h1, h2, h3⟩ := ih.clear h.2
    simp only [Stmt.bare, Stmt.Clear, Stmt.open_]
    exact ⟨⟨h.1, h1⟩, fun h => h, h3.imp (fun e => by rw [e]) .doBody⟩
  | forInit h ih =>
    refine ⟨fun hc => ?_, fun h => by simp [Stmt.bare, clausesClear] at h, fun _ h => (by cases h), fun _ h => (by cases h)⟩
    simp only [Stmt.bare, Stmt.Clear] at hc
    exfalso
    rcases simple_bare hc.1 with ⟨e, rfl⟩ | ⟨vs, e, rfl⟩
    · cases h with
      | here h => simp [commentIn] at h
      | expr h => exact comment_no_expr h
    · cases h with
      | here h => simp [commentIn] at h
      | declared h =>
        cases h with
        | mk h =>
          cases h with
          | mk h => exact comment_no_var h
      | value h => exact comment_no_opt h
  | forCondition h => exact (comment_no_expr h).elim
  | forStep h => exact (comment_no_opt h).elim
  | forBody h ih =>
    refine ⟨fun h => ?_, fun h => by simp [Stmt.bare, clausesClear] at h, fun _ h => (by cases h), fun _ h => (by cases h)⟩
    simp only [Stmt.bare, Stmt.Clear] at h
    obtain ⟨h1, h2, h3⟩ := ih.clear h.2.2.2
    simp only [Stmt.bare, Stmt.Clear, Stmt.open_]
    exact ⟨⟨h.1, h.2.1, h.2.2.1, h1⟩, h2, h3.imp (fun e => by rw [e]) .forBody⟩
  | result h => exact (comment_no_opt h).elim
  | emit h => exact (comment_no_expr h).elim
  | revert h => exact (comment_no_expr h).elim
  | tried h => exact (comment_no_expr h).elim
  | tryReturns h => exact (comment_no_vars h).elim
  | tryBody h ih =>
    refine ⟨fun h => ?_, fun h => by simp [Stmt.bare, clausesClear] at h, fun _ h => (by cases h), fun _ h => (by cases h)⟩
    simp only [Stmt.bare, Stmt.Clear] at h
    obtain ⟨h1, -, h3⟩ := ih.clear (by simp only [Stmt.bare, Stmt.Clear]; exact h.2.2.2.1)
    simp only [Stmt.bare, Stmt.Clear] at h1 h3
    simp only [Stmt.bare, Stmt.Clear, Stmt.open_]
    refine ⟨⟨h.1, h.2.1, h.2.2.1, h1, h.2.2.2.2⟩, fun h => h, h3.imp (fun e => ?_) .tryBody⟩
    rw [Stmt.block.inj e]
  | tryClause h ih =>
    refine ⟨fun h => ?_, fun h => by simp [Stmt.bare, clausesClear] at h, fun _ h => (by cases h), fun _ h => (by cases h)⟩
    simp only [Stmt.bare, Stmt.Clear, bareClauses_append, bareClauses] at h
    rw [clausesClear_append, clausesClear_cons] at h
    obtain ⟨h1, h3⟩ := ih.clause h.2.2.2.2.2.1
    simp only [Stmt.bare, Stmt.Clear, Stmt.open_, bareClauses_append, bareClauses]
    rw [clausesClear_append, clausesClear_cons]
    exact ⟨⟨h.1, h.2.1, h.2.2.1, h.2.2.2.1, h.2.2.2.2.1, h1, h.2.2.2.2.2.2⟩, fun h => h, h3.imp (fun e => by rw [e]) .tryClause⟩
  | clauseParams h =>
    cases h with
    | mk h => exact (comment_no_vars h).elim
  | clauseBody h ih =>
    refine ⟨fun h => by simp [Stmt.bare, Stmt.Clear] at h, fun h => ?_, fun _ h => (by cases h), fun _ h => (by cases h)⟩
    simp only [Stmt.bare, clausesClear] at h
    obtain ⟨h1, -, h3⟩ := ih.clear (by simp only [Stmt.bare, Stmt.Clear]; exact h.2.2.1)
    simp only [Stmt.bare, Stmt.Clear] at h1 h3
    simp only [Stmt.bare, clausesClear]
    refine ⟨⟨h.1, h.2.1, h1, trivial⟩, h3.imp (fun e => ?_) .clauseBody⟩
    rw [Stmt.block.inj e]

theorem quiet_body {b b' : Option (List Stmt)} (h : InBody (commentIn text) b b') (hc : bodyClear (b.map bareStmts)) :
    bodyClear (b'.map bareStmts) ∧ (b'.map bareStmts = b.map bareStmts ∨ InBody braced (b.map bareStmts) (b'.map bareStmts)) := by
  cases h with
  | mk h =>
    obtain ⟨h1, -, h3⟩ := (quiet h).clear (by simp only [Stmt.bare, Stmt.Clear]; exact hc _ rfl)
    simp only [Stmt.bare, Stmt.Clear] at h1 h3
    refine ⟨fun ss hs => ?_, h3.imp (fun e => ?_) fun h => .mk h⟩
    · cases hs; exact h1
    · simp only [Option.map_some, Stmt.block.inj e]

theorem quiet_member {m m' x : Member} (h : InMember (commentIn text) m m') (hb : m.bare = some x) (hc : x.Clear) :
    ∃ x', m'.bare = some x' ∧ x'.Clear ∧ (x' = x ∨ InMember braced x x') := by
  cases h with
  | state h => exact (comment_no_var h).elim
  | fn h =>
    cases h with
    | params h => exact (comment_no_vars h).elim
    | modifiers h => exact (comment_no_uses h).elim
    | returns h => exact (comment_no_vars h).elim
    | body h =>
      cases hb
      obtain ⟨h1, h2⟩ := quiet_body h hc.1.body
      refine ⟨_, rfl, ⟨⟨hc.1.kind, hc.1.name, hc.1.params, hc.1.visibility, hc.1.mutability, hc.1.override, hc.1.modifiers,
        hc.1.returns, h1⟩, rfl⟩, h2.imp (fun e => ?_) fun h => ?_⟩
      · simp only [Fn.bare, e]
      · exact .fn (InFn.body (f := Fn.bare _) h)
  | modifierParams h => exact (comment_no_vars h).elim
  | modifierBody h =>
    cases hb
    obtain ⟨h1, h2⟩ := quiet_body h hc.2.2.1
    exact ⟨_, rfl, ⟨hc.1, hc.2.1, h1, rfl⟩, h2.imp (fun e => by rw [e]) .modifierBody⟩
  | event h => exact (comment_no_vars h).elim
  | error h => exact (comment_no_vars h).elim
  | struct h => exact (comment_no_vars h).elim
  | using_ h => exact (comment_no_ty h).elim
  | operators h => exact (comment_no_ty h).elim
  | type h => exact (comment_no_ty h).elim

theorem member_bare {m m' : Member} (h : InMember (commentIn text) m m') : ∃ x, m.bare = some x := by
  cases h <;> exact ⟨_, rfl⟩

theorem quiet_contract {k k' : Contract} (h : InContract (commentIn text) k k') (hc : k.bare.Clear) :
    k'.bare.Clear ∧ (k'.bare = k.bare ∨ InContract braced k.bare k'.bare) := by
  cases h with
  | here h =>
    obtain ⟨a, b, e, rfl⟩ := h
    have : Contract.bare { k with members := a ++ .comment text :: b } = k.bare := by
      simp only [Contract.bare, e, List.filterMap_append]
      rfl
    rw [this]
    exact ⟨hc, .inl rfl⟩
  | bases h => exact (comment_no_uses h).elim
  | @members ms' h =>
    generalize hm : k.members = ms at h
    cases h with
    | @mk m m' pre post h =>
      obtain ⟨x, hx⟩ := member_bare h
      have e : k.bare.members = pre.filterMap Member.bare ++ x :: post.filterMap Member.bare := by
        simp [Contract.bare, hm, List.filterMap_append, hx]
      obtain ⟨x', h1, h2, h3⟩ := quiet_member h hx (hc.members _ (by rw [e]; simp))
      have e' : Contract.bare { k with members := pre ++ m' :: post } =
          { k.bare with members := pre.filterMap Member.bare ++ x' :: post.filterMap Member.bare } := by
        simp [Contract.bare, List.filterMap_append, h1]
      rw [e']
      refine ⟨⟨hc.doc, hc.kind, hc.name, hc.bases, fun y hy => ?_⟩, ?_⟩
      · simp only [List.mem_append, List.mem_cons] at hy
        rcases hy with hy | rfl | hy
        · exact hc.members y (by rw [e]; simp only [List.mem_append]; exact .inl hy)
        · exact h2
        · exact hc.members y (by rw [e]; simp only [List.mem_append, List.mem_cons]; exact .inr (.inr hy))
      · rcases h3 with rfl | h3
        · left
          rw [← e]
        · right
          refine .members ?_
          rw [e]
          exact .mk h3

theorem quiet_item {i i' x : Item} (h : InItem (commentIn text) i i') (hb : i.bare = some x) (hc : x.Clear) :
    ∃ x', i'.bare = some x' ∧ x'.Clear ∧ (x' = x ∨ InItem braced x x') := by
  cases h with
  | contract h =>
    cases hb
    obtain ⟨h1, h2⟩ := quiet_contract h hc
    exact ⟨_, rfl, h1, h2.imp (fun e => by rw [e]) .contract⟩
  | member h =>
    obtain ⟨y, hy⟩ := member_bare h
    simp only [Item.bare, hy, Option.map_some, Option.some.injEq] at hb
    subst hb
    obtain ⟨y', h1, h2, h3⟩ := quiet_member h hy hc
    refine ⟨.member y', ?_, h2, h3.imp (fun e => by rw [e]) .member⟩
    simp only [Item.bare, h1, Option.map_some]

theorem item_bare {i i' : Item} (h : InItem (commentIn text) i i') : ∃ x, i.bare = some x := by
  cases h with
  | contract h => exact ⟨_, rfl⟩
  | member h =>
    obtain ⟨y, hy⟩ := member_bare h
    exact ⟨.member y, by simp only [Item.bare, hy, Option.map_some]⟩

/-- A new comment does not change what a file is read as, but for braces. -/
theorem quiet_file {f f' : SourceFile} (h : NewComment text f f') (hc : f.bare.Clear) :
    f'.bare.Clear ∧ (f'.bare = f.bare ∨ InFile braced f.bare f'.bare) := by
  cases h with
  | @items is' h =>
    generalize hm : f.items = is at h
    cases h with
    | @mk i i' pre post h =>
      obtain ⟨x, hx⟩ := item_bare h
      have e : f.bare.items = pre.filterMap Item.bare ++ x :: post.filterMap Item.bare := by
        simp [SourceFile.bare, hm, List.filterMap_append, hx]
      obtain ⟨x', h1, h2, h3⟩ := quiet_item h hx (hc.2 _ (by rw [e]; simp))
      have e' : SourceFile.bare { f with items := pre ++ i' :: post } =
          { f.bare with items := pre.filterMap Item.bare ++ x' :: post.filterMap Item.bare } := by
        simp [SourceFile.bare, List.filterMap_append, h1]
      rw [e']
      refine ⟨⟨rfl, fun y hy => ?_⟩, ?_⟩
      · simp only [List.mem_append, List.mem_cons] at hy
        rcases hy with hy | rfl | hy
        · exact hc.2 y (by rw [e]; simp only [List.mem_append]; exact .inl hy)
        · exact h2
        · exact hc.2 y (by rw [e]; simp only [List.mem_append, List.mem_cons]; exact .inr (.inr hy))
      · rcases h3 with rfl | h3
        · left
          rw [← e]
        · right
          refine .items ?_
          rw [e]
          exact .mk h3

end

end SolGrammar
end Mutagenyx
