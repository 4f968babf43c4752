import Verif.Proofs.SolidityPrinter
import Verif.Proofs.VyperPrinter

/-!
# Indentation is only written with line breaks

Whenever the calls that print a node write indentation, they also break the line.
-/

namespace Mutagenyx
namespace NodePrinter

variable {σ : Type}

/-- If there is a call to indent, then there is one to break the line. -/
def Anchored (ps : List (Piece σ)) : Prop := Piece.op .indent ∈ ps → Piece.op .newline ∈ ps

theorem anchored_nil : Anchored ([] : List (Piece σ)) := fun h => by cases h

theorem anchored_append {a b : List (Piece σ)} (ha : Anchored a) (hb : Anchored b) : Anchored (a ++ b) := fun h =>
  List.mem_append.2 ((List.mem_append.1 h).imp ha hb)

theorem anchored_nl_left {a : List (Piece σ)} : Anchored (nl ++ a) := fun _ => List.mem_append_left _ (by simp [nl])

theorem anchored_nl_right {a : List (Piece σ)} : Anchored (a ++ nl) := fun _ => List.mem_append_right _ (by simp [nl])

theorem anchored_op {o : Op} (h : o ≠ .indent) : Anchored [Piece.op (σ := σ) o] := fun hm => by
  have := List.mem_singleton.1 hm
  exact absurd (Piece.op.inj this).symm h

theorem anchored_tok {t : String} : Anchored (tok (σ := σ) t) := anchored_op (by simp)
theorem anchored_token {t : List Char} : Anchored [Piece.op (σ := σ) (.token t)] := anchored_op (by simp)
theorem anchored_string {t : List Char} : Anchored [Piece.op (σ := σ) (.string t)] := anchored_op (by simp)
theorem anchored_triple {t : List Char} : Anchored [Piece.op (σ := σ) (.triple t)] := anchored_op (by simp)
theorem anchored_flow {t u : List Char} : Anchored [Piece.op (σ := σ) (.flow t u)] := anchored_op (by simp)
theorem anchored_sp : Anchored (sp (σ := σ)) := anchored_op (by simp)
theorem anchored_nl : Anchored (nl (σ := σ)) := anchored_op (by simp)
theorem anchored_inc : Anchored (inc (σ := σ)) := anchored_op (by simp)
theorem anchored_dec : Anchored (dec (σ := σ)) := anchored_op (by simp)
theorem anchored_crash : Anchored (crash (σ := σ)) := anchored_op (by simp)

theorem anchored_sub {s : σ} {n : Json} : Anchored [Piece.sub s n] := fun h => by simp at h
theorem anchored_quote {s : σ} {n : Json} {next : List Char} : Anchored [Piece.quote s n next] := fun h => by simp at h

theorem anchored_ite {c : Prop} [Decidable c] {a b : List (Piece σ)} (ha : Anchored a) (hb : Anchored b) :
    Anchored (if c then a else b) := by
  split
  · exact ha
  · exact hb

theorem anchored_when {c : Bool} {a : List (Piece σ)} (ha : Anchored a) : Anchored (when c a) :=
  anchored_ite ha anchored_nil

theorem anchored_onSome {α : Type} {o : Option α} {f : α → List (Piece σ)} (h : ∀ a, Anchored (f a)) :
    Anchored (onSome o f) := by
  cases o with
  | none => exact anchored_nil
  | some a => exact h a

theorem anchored_onField {key : String} {node : Json} {f : Json → List (Piece σ)} (h : ∀ n, Anchored (f n)) :
    Anchored (onField key node f) := anchored_onSome h

theorem anchored_field {s : σ} {key : String} {node : Json} : Anchored (field s key node) :=
  anchored_onField fun _ => anchored_sub

theorem anchored_onArray {key : String} {node : Json} {f : List Json → List (Piece σ)} (h : ∀ xs, Anchored (f xs)) :
    Anchored (onArray key node f) := anchored_onField fun _ => anchored_onSome h

theorem anchored_onStr {key : String} {node : Json} {f : String → List (Piece σ)} (h : ∀ t, Anchored (f t)) :
    Anchored (onStr key node f) := anchored_onSome h

theorem anchored_strTok {key : String} {node : Json} : Anchored (strTok (σ := σ) key node) :=
  anchored_onStr fun _ => anchored_tok

theorem anchored_arrayLoop {node : Json → List (Piece σ)} {between : List (Piece σ)} {len : Nat}
    (hb : Anchored between) (h : ∀ x, Anchored (node x)) : (i : Nat) → (xs : List Json) →
    Anchored (arrayLoop node between len i xs)
  | _, [] => anchored_nil
  | i, x :: xs => anchored_append (h x) (anchored_append (anchored_when hb) (anchored_arrayLoop hb h (i + 1) xs))

theorem anchored_arrayWith {node : Json → List (Piece σ)} {between : List (Piece σ)} {xs : List Json}
    (hb : Anchored between) (h : ∀ x, Anchored (node x)) : Anchored (arrayWith node between xs) :=
  anchored_arrayLoop hb h 0 xs

theorem anchored_array {s : σ} {xs : List Json} : Anchored (array s xs) :=
  anchored_arrayWith (anchored_append anchored_tok anchored_sp) fun _ => anchored_sub

theorem anchored_flatMap {α : Type} {xs : List α} {f : α → List (Piece σ)} (h : ∀ x ∈ xs, Anchored (f x)) :
    Anchored (xs.flatMap f) := by
  induction xs with
  | nil => exact anchored_nil
  | cons x xs ih =>
    rw [List.flatMap_cons]
    exact anchored_append (h x (List.mem_cons_self ..)) (ih fun y hy => h y (List.mem_cons_of_mem _ hy))

/-- A node printer that only indents with a line break, if what it does for the children does. -/
def AnchoredLayout (l : Layout σ) : Prop := ∀ inner, Anchored inner → Anchored (around l inner)

theorem anchoredLayout_ite {c : Prop} [Decidable c] {a b : Layout σ} (ha : AnchoredLayout a) (hb : AnchoredLayout b) :
    AnchoredLayout (if c then a else b) := by
  split
  · exact ha
  · exact hb

theorem anchoredLayout_of {l : Layout σ} (h1 : Anchored l.entry) (h2 : Anchored l.body) (h3 : Anchored l.exit) :
    AnchoredLayout l := fun _ hi =>
  anchored_append h1 (anchored_append h2 (anchored_append (anchored_ite hi anchored_nil) h3))

/-- The printers of a language only indent with a line break. -/
def AnchoredPrinter (pf : σ → Json → Layout σ) : Prop := ∀ s n, AnchoredLayout (pf s n)

theorem anchored_pieces {pf : σ → Json → Layout σ} (h : AnchoredPrinter pf) (s : σ) : (n : Json) →
    Anchored (pieces (pf s) n) := by
  have key : ∀ k n, depth n ≤ k → Anchored (pieces (pf s) n) := by
    intro k
    induction k with
    | zero =>
      intro n hn
      rw [pieces_eq]
      refine h s n _ (anchored_flatMap fun x hx => ?_)
      exact absurd (depth_children hx) (by omega)
    | succ k ih =>
      intro n hn
      rw [pieces_eq]
      refine h s n _ (anchored_flatMap fun x hx => ?_)
      have := depth_children hx
      exact ih x (by omega)
  exact fun n => key _ n (Nat.le_refl _)

theorem anchored_expand {checks : Bool} {f : σ → Json → List Op} {ps : List (Piece σ)} (h : Anchored ps)
    (hf : ∀ p ∈ ps, ∀ n, p.node? = some n → ∀ s, Op.indent ∈ f s n → Op.newline ∈ f s n) :
    Op.indent ∈ expand checks f ps → Op.newline ∈ expand checks f ps := by
  have key : ∀ {ps : List (Piece σ)}, (∀ p ∈ ps, ∀ n, p.node? = some n → ∀ s, Op.indent ∈ f s n → Op.newline ∈ f s n) →
      Op.indent ∈ expand checks f ps → Piece.op .indent ∈ ps ∨ Op.newline ∈ expand checks f ps := by
    intro ps hf hm
    induction ps with
    | nil => cases hm
    | cons p ps ih =>
      have ih := ih fun p hp => hf p (List.mem_cons_of_mem _ hp)
      have h1 := hf p (List.mem_cons_self ..)
      cases p with
      | op o =>
        rcases List.mem_cons.1 hm with rfl | hm
        · exact Or.inl (List.mem_cons_self ..)
        · exact (ih hm).imp (List.mem_cons_of_mem _) (List.mem_cons_of_mem _)
      | sub s n =>
        rcases List.mem_append.1 hm with hm | hm
        · exact Or.inr (List.mem_append_left _ (h1 n rfl s hm))
        · exact (ih hm).imp (List.mem_cons_of_mem _) (List.mem_append_right _)
      | quote s n next =>
        simp only [expand] at hm ⊢
        rcases List.mem_cons.1 hm with hm | hm
        · exfalso
          split at hm <;> cases hm
        · exact (ih hm).imp (List.mem_cons_of_mem _) (List.mem_cons_of_mem _)
  have key2 : ∀ {ps : List (Piece σ)}, Piece.op .newline ∈ ps → Op.newline ∈ expand checks f ps := by
    intro ps hm
    induction ps with
    | nil => cases hm
    | cons p ps ih =>
      rcases List.mem_cons.1 hm with rfl | hm
      · exact List.mem_cons_self ..
      · have ih := ih hm
        cases p with
        | op o => exact List.mem_cons_of_mem _ ih
        | sub s n => exact List.mem_append_right _ ih
        | quote s n next => exact List.mem_cons_of_mem _ ih
  intro hm
  exact (key hf hm).elim (fun hi => key2 (h hi)) id

/-- When the calls that print a node indent, they also break the line. -/
theorem anchored_ops {pf : σ → Json → Layout σ} (hg : GoodPrinter pf) (h : AnchoredPrinter pf) (checks : Bool) (s : σ)
    (n : Json) : Op.indent ∈ ops checks pf s n → Op.newline ∈ ops checks pf s n := by
  have key : ∀ k n, depth n ≤ k → ∀ s, Op.indent ∈ ops checks pf s n → Op.newline ∈ ops checks pf s n := by
    intro k
    induction k with
    | zero =>
      intro n hn s
      rw [ops_eq hg]
      refine anchored_expand (anchored_pieces h s n) fun p hp m hm t => ?_
      have := (good_pieces hg s n).below p hp m hm
      omega
    | succ k ih =>
      intro n hn s
      rw [ops_eq hg]
      refine anchored_expand (anchored_pieces h s n) fun p hp m hm t => ?_
      have := (good_pieces hg s n).below p hp m hm
      exact ih m (by omega) t
  exact key _ n (Nat.le_refl _) s

/-- Take a list of pieces apart into the cases of `Anchored`. -/
macro "anchored_step" : tactic => `(tactic| with_reducible first
  | assumption
  | exact anchored_tok | exact anchored_sp | exact anchored_nl | exact anchored_inc | exact anchored_dec
  | exact anchored_strTok | exact anchored_crash | exact anchored_nil | exact anchored_field | exact anchored_flow
  | exact anchored_string | exact anchored_triple | exact anchored_token | exact anchored_sub | exact anchored_array
  | exact anchored_quote | exact anchored_nl_left | exact anchored_nl_right
  | apply anchored_when
  | apply anchored_ite
  | apply anchored_append
  | (refine anchored_onArray fun xs => ?_)
  | (refine anchored_onField fun n => ?_)
  | (refine anchored_onStr fun t => ?_)
  | (refine anchored_onSome fun a => ?_)
  | (refine anchored_flatMap fun x hx => ?_)
  | (refine anchored_arrayWith ?_ fun x => ?_))

/-- Prove that a list of pieces is anchored. -/
macro "anchored" : tactic => `(tactic| ((try simp only [List.append_assoc]); repeat' anchored_step))

end NodePrinter

/-! ### Solidity -/

namespace SolPrint

open NodePrinter

variable {s : PrintSettings} {node : Json}

theorem anchored_documentation : Anchored (documentation s node) := by unfold documentation; anchored
theorem anchored_operator : Anchored (operator node) := by unfold operator; anchored
theorem anchored_statements : Anchored (statements s node) := by unfold statements; anchored
theorem anchored_returnParameters : Anchored (returnParameters s node) := by unfold returnParameters; anchored

theorem anchored_nullableList : (xs : List Json) → Anchored (nullableList s xs)
  | [] => anchored_nil
  | [_] => anchored_sub
  | x :: y :: xs => by
    have := anchored_nullableList (y :: xs)
    unfold nullableList
    anchored

theorem anchored_pragmaLoop {len : Nat} : (i : Nat) → (prev : String) → (vs : List Json) →
    Anchored (pragmaLoop len i prev vs)
  | _, _, [] => anchored_nil
  | i, prev, v :: vs => by
    unfold pragmaLoop
    split
    · exact anchored_pragmaLoop _ _ _
    · next t _ =>
      have := anchored_pragmaLoop (len := len) (i + 1) t vs
      dsimp only
      anchored

theorem anchored_pragma : Anchored (pragma node) := by
  unfold pragma
  refine anchored_onArray fun xs => ?_
  have := anchored_pragmaLoop (len := xs.length) 0 "pragma" xs
  anchored

theorem anchored_userType : Anchored (userType node) := by unfold userType; split <;> anchored

theorem anchored_indentedStatement {n : Json} : Anchored (indentedStatement s n) := by
  unfold indentedStatement; anchored

theorem anchored_ifStatement : Anchored (ifStatement s node) := by
  unfold ifStatement
  have h := fun n => anchored_indentedStatement (s := s) (n := n)
  anchored
  all_goals exact h _

theorem anchored_forStatement : Anchored (forStatement s node) := by
  unfold forStatement
  have h := fun n => anchored_indentedStatement (s := s) (n := n)
  anchored
  all_goals exact h _

theorem anchored_clauseLoop : (i : Nat) → (xs : List Json) → Anchored (clauseLoop s i xs)
  | _, [] => anchored_nil
  | i, x :: xs => by
    have := anchored_clauseLoop (i + 1) xs
    unfold clauseLoop
    anchored

theorem anchored_tryStatement : Anchored (tryStatement s node) := by
  unfold tryStatement
  anchored
  exact anchored_clauseLoop _ _

theorem anchored_literal : Anchored (literal node) := by
  unfold literal
  refine anchored_append (anchored_onStr fun v => ?_) (anchored_onStr fun u => ?_)
  · split <;> anchored
  · anchored

theorem anchored_namedLoop {len : Nat} : (i : Nat) → (ks vs : List Json) → Anchored (namedLoop s len i ks vs)
  | i, k :: ks, v :: vs => by
    have := anchored_namedLoop (len := len) (i + 1) ks vs
    unfold namedLoop
    split <;> anchored
  | _, [], _ => by unfold namedLoop; anchored
  | _, _ :: _, [] => by unfold namedLoop; anchored

theorem anchored_optionLoop {len : Nat} : (i : Nat) → (ks vs : List Json) → Anchored (optionLoop s len i ks vs)
  | i, k :: ks, v :: vs => by
    have := anchored_optionLoop (len := len) (i + 1) ks vs
    unfold optionLoop
    split <;> anchored
  | _, [], _ => by unfold optionLoop; anchored
  | _, _ :: _, [] => by unfold optionLoop; anchored

theorem anchored_functionCallBody : Anchored (functionCall s node).body := by
  unfold functionCall
  dsimp only
  split
  · refine anchored_onSome fun xs => anchored_ite anchored_crash ?_
    anchored
    exact anchored_namedLoop _ _ _
  · unfold arguments; anchored

theorem anchored_functionCallOptions : Anchored (functionCallOptions s node) := by
  unfold functionCallOptions
  refine anchored_append anchored_field (anchored_onSome fun ns => anchored_onSome fun os => ?_)
  have := anchored_optionLoop (s := s) (len := ns.length) 0 ns os
  anchored

theorem anchored_typeNameExpression : Anchored (typeNameExpression s node) := by
  unfold typeNameExpression
  refine anchored_when (anchored_onField fun t => ?_)
  split <;> anchored

theorem anchored_yulCase : Anchored (yulCase s node) := by
  unfold yulCase
  refine anchored_append (anchored_onField fun v => ?_) anchored_field
  split <;> anchored

theorem anchored_variableDeclarationStatement : Anchored (variableDeclarationStatement s node) := by
  unfold variableDeclarationStatement
  anchored
  exact anchored_nullableList _

theorem anchored_tuple : Anchored (tuple s node) := by
  unfold tuple
  anchored
  exact anchored_nullableList _

theorem anchored_sourceUnitBody : Anchored (sourceUnit s node).body := by
  unfold sourceUnit
  dsimp only
  exact anchored_onArray fun xs => anchored_nl_right

/-- The Solidity node printers only indent with a line break. -/
theorem anchored_layout : AnchoredPrinter layout := by
  intro s node
  unfold layout
  cases node.getStrForKey "nodeType" with
  | none => exact anchoredLayout_of anchored_nil anchored_nil anchored_nil
  | some t =>
    simp only
    have h1 := anchored_documentation (s := s) (node := node)
    have h2 := anchored_operator (node := node)
    have h3 := anchored_statements (s := s) (node := node)
    have h4 := anchored_returnParameters (s := s) (node := node)
    repeat' apply anchoredLayout_ite
    all_goals
      (refine anchoredLayout_of ?_ ?_ ?_ <;> try dsimp only) <;> first
          | with_reducible exact anchored_nil
          | with_reducible exact anchored_pragma | with_reducible exact anchored_userType
          | with_reducible exact anchored_ifStatement | with_reducible exact anchored_forStatement
          | with_reducible exact anchored_tryStatement | with_reducible exact anchored_literal
          | with_reducible exact anchored_functionCallOptions | with_reducible exact anchored_typeNameExpression
          | with_reducible exact anchored_yulCase | with_reducible exact anchored_variableDeclarationStatement
          | with_reducible exact anchored_tuple | with_reducible exact anchored_functionCallBody
          | with_reducible exact anchored_sourceUnitBody
          | (dsimp only [sourceUnit, contract, structDef, importDirective, functionCall, elementaryType, mapping,
            variableDeclaration, functionDefinition,
            spaceAndArray, parameterList, inheritance, modifierInvocation, usingFor,
            modifierDefinition, structuredDoc, overrideSpecifier, functionTypeName, eventDefinition,
            enumDefinition, block, returnStatement, emitStatement, comment, inlineAssembly,
            tryCatchClause, whileStatement, doWhileStatement, binaryOperation, assignment,
            unaryOperation, conditional, yulVariableDeclaration, yulAssignment, yulLiteral, yulFor,
            yulSwitch, yulFunction, arguments]; anchored; done)
          | (anchored; done)

/-- When the calls that print a Solidity node indent, they also break the line. -/
theorem anchored_printOps (checks : Bool) (s : PrintSettings) (node : Json) :
    Op.indent ∈ printOps checks s node → Op.newline ∈ printOps checks s node :=
  anchored_ops good_layout anchored_layout checks s node

end SolPrint

/-! ### Vyper -/

namespace VyPrint

open NodePrinter

variable {s : PrintSettings} {node : Json}

theorem anchored_valueAssignment : Anchored (valueAssignment s node) := by unfold valueAssignment; anchored

theorem anchored_bodyAsNodes : Anchored (bodyAsNodes s node) :=
  anchored_onArray fun _ => anchored_flatMap fun _ _ => anchored_nl_right

theorem anchored_withParens : Anchored (withParens s node) := by unfold withParens; anchored

theorem anchored_docString {doc : String} : Anchored (docString doc) := by unfold docString; anchored

theorem anchored_variableDecl : Anchored (variableDecl s node) := by
  unfold variableDecl
  have := anchored_valueAssignment (s := s) (node := node)
  anchored

theorem anchored_argumentLoop {len first : Nat} : (i : Nat) → (as ds : List Json) →
    Anchored (argumentLoop s len first i as ds)
  | _, [], _ => by unfold argumentLoop; anchored
  | i, a :: as, ds => by
    unfold argumentLoop
    split
    · cases ds with
      | nil => simp only; anchored
      | cons x ds =>
        have := anchored_argumentLoop (len := len) (first := first) (i + 1) as ds
        simp only; anchored
    · have := anchored_argumentLoop (len := len) (first := first) (i + 1) as ds
      anchored

theorem anchored_arguments {checks : Bool} : Anchored (arguments checks s node) := by
  unfold arguments
  anchored
  all_goals exact anchored_argumentLoop _ _ _

theorem anchored_augAssign : Anchored (augAssign s node) := by unfold augAssign; anchored

theorem anchored_intNode {env : PrintEnv} : Anchored (intNode env node) := by
  unfold intNode
  split
  · anchored
  · split <;> anchored

theorem anchored_binOp : Anchored (binOp s node) := by
  unfold binOp
  have h := fun n => anchored_withParens (s := s) (node := n)
  anchored
  all_goals exact h _

theorem anchored_boolOp : Anchored (boolOp s node) := by
  unfold boolOp
  refine anchored_onArray fun xs => ?_
  split
  · next l r t =>
    have h1 := anchored_withParens (s := s) (node := l)
    have h2 := anchored_withParens (s := s) (node := r)
    anchored
  · anchored

theorem anchored_moduleNode : Anchored (moduleNode s node) := by
  unfold moduleNode
  anchored
  exact anchored_docString

theorem anchored_nameConstant : Anchored (nameConstant node) := by
  unfold nameConstant
  refine anchored_onField fun n => ?_
  split <;> anchored

theorem anchored_unaryOp : Anchored (unaryOp s node) := by
  unfold unaryOp
  anchored
  exact anchored_withParens

theorem anchored_comment : Anchored (comment s node) := by
  unfold comment
  refine anchored_onField fun n => ?_
  split <;> anchored

theorem anchored_bytesNode : Anchored (bytesNode node) := by
  unfold bytesNode
  refine anchored_onStr fun t => anchored_ite anchored_tok ?_
  split <;> anchored

theorem anchoredLayout_functionDef :
    AnchoredLayout { entry := decorators s node, body := functionDef s node : Layout PrintSettings } := by
  by_cases h : hasDecorators node = true
  · intro inner _ _
    refine List.mem_append_left _ ?_
    unfold hasDecorators at h
    dsimp only
    unfold decorators onArray onField
    cases hf : Json.field? "decorator_list" node with
    | none => simp [hf] at h
    | some v =>
      cases v with
      | arr xs =>
        cases xs with
        | nil => simp [hf, Json.asArray] at h
        | cons x xs => simp [onSome, Json.asArray, nl]
      | _ => simp [hf, Json.asArray] at h
  · refine anchoredLayout_of ?_ ?_ anchored_nil
    · dsimp only
      unfold decorators
      refine anchored_onArray fun xs => ?_
      split
      · exact anchored_nil
      · simp only [List.append_assoc]
        exact anchored_append anchored_tok (anchored_append anchored_sub anchored_nl_left)
    · dsimp only
      unfold functionDef
      rw [when, if_neg h]
      anchored

/-- The Vyper node printers only indent with a line break. -/
theorem anchored_layout (env : PrintEnv) : AnchoredPrinter (layout env) := by
  intro s node
  unfold layout
  cases node.getStrForKey "ast_type" with
  | none => exact anchoredLayout_of anchored_nil anchored_nil anchored_nil
  | some t =>
    simp only
    have h1 := anchored_valueAssignment (s := s) (node := node)
    repeat' apply anchoredLayout_ite
    all_goals first
      | with_reducible exact anchoredLayout_functionDef
      | ((refine anchoredLayout_of ?_ ?_ ?_ <;> try dsimp only) <;> first
          | with_reducible exact anchored_nil
          | with_reducible exact anchored_variableDecl | with_reducible exact anchored_arguments
          | with_reducible exact anchored_augAssign | with_reducible exact anchored_intNode
          | with_reducible exact anchored_binOp | with_reducible exact anchored_boolOp
          | with_reducible exact anchored_moduleNode | with_reducible exact anchored_nameConstant
          | with_reducible exact anchored_unaryOp | with_reducible exact anchored_comment
          | with_reducible exact anchored_bytesNode | with_reducible exact anchored_bodyAsNodes
          | (dsimp only [assertNode, call, bodyEntry, forNode, ifNode, returnNode, importNode, importFrom, listDef, logNode,
              andOr, keyword, dict]; anchored; done)
          | (anchored; done))

/-- When the calls that print a Vyper node indent, they also break the line. -/
theorem anchored_printOps (env : PrintEnv) (s : PrintSettings) (node : Json) :
    Op.indent ∈ printOps env s node → Op.newline ∈ printOps env s node :=
  anchored_ops (good_layout env) (anchored_layout env) env.checks s node

end VyPrint
end Mutagenyx
