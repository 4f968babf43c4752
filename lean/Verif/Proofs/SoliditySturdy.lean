import Verif.Proofs.Sturdy
import Verif.Proofs.SolidityPrinter

/-!
# The printing of Solidity trees ends
-/

namespace Mutagenyx
namespace SolPrint

open NodePrinter Printer

variable {checks : Bool} {print : PrintSettings → Json → List Op} {w : Option Nat} {K b : Nat}
  {s : PrintSettings} {node : Json}

theorem fine_documentation (hk : Kids checks print w K node) (hb : K ≤ b) :
    FineP checks print w b (documentation s node) := by unfold documentation; fine

theorem fine_operator : FineP checks print w b (operator node) := by unfold operator; fine

theorem fine_statements (hk : Kids checks print w K node) (hb : K ≤ b) (hb' : K + 1 ≤ b) :
    FineP checks print w b (statements s node) := by unfold statements; fine

theorem fine_returnParameters (hk : Kids checks print w K node) (hb : K ≤ b) :
    FineP checks print w b (returnParameters s node) := by unfold returnParameters; fine

theorem fine_nullableList (hb : K ≤ b) : (xs : List Json) → (∀ x ∈ xs, Kid checks print w K x) →
    FineP checks print w b (nullableList s xs)
  | [], _ => fine_nil
  | [x], h => fine_sub (h x (by simp)) hb
  | x :: y :: xs, h => by
    have hx := h x (by simp)
    have := fine_nullableList hb (y :: xs) fun z hz => h z (List.mem_cons_of_mem _ hz)
    unfold nullableList
    fine

theorem fine_pragmaLoop {len : Nat} : (i : Nat) → (prev : String) → (vs : List Json) →
    FineP checks print w b (pragmaLoop len i prev vs)
  | _, _, [] => fine_nil
  | i, prev, v :: vs => by
    unfold pragmaLoop
    split
    · exact fine_pragmaLoop _ _ _
    · next t _ =>
      have := fine_pragmaLoop (len := len) (i + 1) t vs
      dsimp only
      fine

theorem fine_pragma (hk : Kids checks print w K node) : FineP checks print w b (pragma node) := by
  unfold pragma
  refine fine_onArray hk fun xs _ _ => ?_
  have := fine_pragmaLoop (checks := checks) (print := print) (w := w) (b := b) (len := xs.length) 0 "pragma" xs
  fine

theorem fine_userType : FineP checks print w b (userType node) := by
  unfold userType
  split <;> fine

theorem fine_indentedStatement {n : Json} (h : Kid checks print w K n) (hb' : K + 1 ≤ b) :
    FineP checks print w b (indentedStatement s n) := by
  unfold indentedStatement; fine

theorem fine_ifStatement (hk : Kids checks print w K node) (hb : K ≤ b) (hb' : K + 1 ≤ b) :
    FineP checks print w b (ifStatement s node) := by
  unfold ifStatement
  fine
  all_goals exact fine_indentedStatement ‹_› hb'

theorem fine_forStatement (hk : Kids checks print w K node) (hb : K ≤ b) (hb' : K + 1 ≤ b) :
    FineP checks print w b (forStatement s node) := by
  unfold forStatement
  fine
  all_goals exact fine_indentedStatement ‹_› hb'

theorem fine_clauseLoop (hb : K ≤ b) : (i : Nat) → (xs : List Json) → (∀ x ∈ xs, Kid checks print w K x) →
    FineP checks print w b (clauseLoop s i xs)
  | _, [], _ => fine_nil
  | i, x :: xs, h => by
    have hx := h x (by simp)
    have := fine_clauseLoop hb (i + 1) xs fun z hz => h z (List.mem_cons_of_mem _ hz)
    unfold clauseLoop
    fine

theorem fine_tryStatement (hk : Kids checks print w K node) (hb : K ≤ b) :
    FineP checks print w b (tryStatement s node) := by
  unfold tryStatement
  fine
  exact fine_clauseLoop hb _ _ ‹_›

theorem fine_literal : FineP checks print w b (literal node) := by
  unfold literal
  refine fine_append (fine_onStr fun v _ => ?_) (fine_onStr fun u _ => ?_)
  · split <;> fine
  · fine

theorem fine_namedLoop {len : Nat} (hb : K ≤ b) : (i : Nat) → (ks vs : List Json) → (∀ x ∈ vs, Kid checks print w K x) →
    (∀ x ∈ ks, x.asStr.isSome) → FineP checks print w b (namedLoop s len i ks vs)
  | i, k :: ks, v :: vs, h, h' => by
    have hv := h v (List.mem_cons_self ..)
    have := fine_namedLoop (len := len) hb (i + 1) ks vs (fun y hy => h y (List.mem_cons_of_mem _ hy))
      fun y hy => h' y (List.mem_cons_of_mem _ hy)
    have hs := h' k (List.mem_cons_self ..)
    unfold namedLoop
    split
    · next e => rw [e] at hs; cases hs
    · fine
  | _, [], _, _, _ => by unfold namedLoop; fine
  | _, _ :: _, [], _, _ => by unfold namedLoop; fine

theorem fine_optionLoop {len : Nat} (hb : K ≤ b) : (i : Nat) → (ks vs : List Json) → (∀ x ∈ vs, Kid checks print w K x) →
    (∀ x ∈ ks, x.asStr.isSome) → FineP checks print w b (optionLoop s len i ks vs)
  | i, k :: ks, v :: vs, h, h' => by
    have hv := h v (List.mem_cons_self ..)
    have := fine_optionLoop (len := len) hb (i + 1) ks vs (fun y hy => h y (List.mem_cons_of_mem _ hy))
      fun y hy => h' y (List.mem_cons_of_mem _ hy)
    have hs := h' k (List.mem_cons_self ..)
    unfold optionLoop
    split
    · next e => rw [e] at hs; cases hs
    · fine
  | _, [], _, _, _ => by unfold optionLoop; fine
  | _, _ :: _, [], _, _ => by unfold optionLoop; fine

theorem fine_functionCallBody (hk : Kids checks print w K node) (hb : K ≤ b) (hb' : K + 1 ≤ b)
    (h : ∀ k ks vs, node.getArrayForKey "names" = some (k :: ks) → node.getArrayForKey "arguments" = some vs →
      (k :: ks).length = vs.length ∧ ∀ x ∈ k :: ks, x.asStr.isSome) :
    FineP checks print w b (functionCall s node).body := by
  unfold functionCall
  dsimp only
  split
  · next k ks hn =>
    refine fine_onGetArray hk fun xs hxs hkx => ?_
    obtain ⟨h1, h2⟩ := h k ks xs hn hxs
    rw [if_neg (by rw [h1]; simp)]
    have := fine_namedLoop (s := s) (len := (k :: ks).length) (Nat.le_refl K) 0 (k :: ks) xs hkx h2
    fine
  · unfold arguments; fine

theorem fine_functionCallOptions (hk : Kids checks print w K node) (hb : K ≤ b)
    (h : ∀ ks vs, node.getArrayForKey "names" = some ks → node.getArrayForKey "options" = some vs →
      ks.length = vs.length ∧ ∀ x ∈ ks, x.asStr.isSome) : FineP checks print w b (functionCallOptions s node) := by
  unfold functionCallOptions
  refine fine_append (fine_field hk hb) (fine_onGetArray hk fun ns hns _ => fine_onGetArray hk fun os hos hko => ?_)
  obtain ⟨h1, h2⟩ := h ns os hns hos
  rw [if_neg (by rw [h1]; simp)]
  have := fine_optionLoop (s := s) (len := ns.length) hb 0 ns os hko h2
  fine

theorem fine_typeNameExpression (hk : Kids checks print w K node) (hb : K ≤ b) :
    FineP checks print w b (typeNameExpression s node) := by
  unfold typeNameExpression
  refine fine_when fun _ => fine_onField hk fun t _ ht => ?_
  split <;> fine

theorem fine_yulCase (hk : Kids checks print w K node) (hb : K ≤ b) : FineP checks print w b (yulCase s node) := by
  unfold yulCase
  refine fine_append (fine_onField hk fun v _ hv => ?_) (fine_field hk hb)
  split <;> fine

theorem fine_variableDeclarationStatement (hk : Kids checks print w K node) (hb : K ≤ b) :
    FineP checks print w b (variableDeclarationStatement s node) := by
  unfold variableDeclarationStatement
  fine
  exact fine_nullableList hb _ ‹_›

theorem fine_tuple (hk : Kids checks print w K node) (hb : K ≤ b) : FineP checks print w b (tuple s node) := by
  unfold tuple
  fine
  exact fine_nullableList hb _ ‹_›

theorem fine_importBody (hk : Kids checks print w K node) (hb : K ≤ b) :
    FineP checks print w b (importDirective s node).body := by
  unfold importDirective
  dsimp only
  fine
  exact fine_field (‹Kid _ _ _ _ _› : Kid checks print w K _).2 hb

theorem fineLayout_structDef (hk : Kids checks print w K node) (hb' : K + 1 ≤ b) :
    FineLayout checks print w b (structDef s node) := by
  intro inner _
  have e : around (structDef s node) inner =
      (tok "struct" ++ sp ++ strTok "name" node ++ sp ++ tok "{" ++ nl) ++
        (inc ++ onArray "members" node (arrayWith (fun n => ind ++ [.sub s n] ++ tok ";") nl) ++ dec) ++
        (nl ++ ind ++ tok "}") := by
    simp [around, structDef]
  rw [e]
  fine

theorem words_splitLines (cur : List Char) : (t : List Char) → ∃ l ls, splitLines t = l :: ls ∧
    wordsFrom cur t = wordsFrom cur l ++ ls.flatMap words
  | [] => ⟨[], [], rfl, by simp⟩
  | c :: t => by
    by_cases hc : c = '\n'
    · obtain ⟨l, ls, h1, h2⟩ := words_splitLines [] t
      refine ⟨[], l :: ls, by rw [splitLines, if_pos hc, h1], ?_⟩
      subst hc
      have e : wordsFrom cur ('\n' :: t) = (if cur = [] then [] else [cur]) ++ wordsFrom [] t := by simp [wordsFrom]
      rw [e, h2]
      simp [wordsFrom, words]
    · by_cases hs : c = ' '
      · obtain ⟨l, ls, h1, h2⟩ := words_splitLines [] t
        refine ⟨c :: l, ls, by rw [splitLines, if_neg hc, h1], ?_⟩
        rw [wordsFrom, if_pos (Or.inl hs), h2, wordsFrom, if_pos (Or.inl hs), List.append_assoc]
      · obtain ⟨l, ls, h1, h2⟩ := words_splitLines (cur ++ [c]) t
        refine ⟨c :: l, ls, by rw [splitLines, if_neg hc, h1], ?_⟩
        rw [wordsFrom, if_neg (by simp [hc, hs]), h2, wordsFrom, if_neg (by simp [hc, hs])]

theorem shortWords_line {t l : List Char} (h : ShortWords w t) (hl : l ∈ splitLines t) : ShortWords w l := by
  obtain ⟨W, hW, hx⟩ := h
  obtain ⟨m, ls, h1, h2⟩ := words_splitLines [] t
  rw [h1] at hl
  refine ⟨W, hW, fun x hxl => hx x ?_⟩
  unfold words
  rw [h2]
  rcases List.mem_cons.1 hl with rfl | hl
  · exact List.mem_append_left _ hxl
  · exact List.mem_append_right _ (List.mem_flatMap.2 ⟨l, hl, hxl⟩)

theorem fine_structuredDoc (h : ∀ t, node.getStrForKey "text" = some t → ShortWords w t.toList) :
    FineLayout checks print w b (structuredDoc node) := by
  refine fineLayout_of ?_ ?_ ?_ <;> unfold structuredDoc <;> dsimp only
  · fine
  · refine fine_onStr fun t ht => fine_flatMap fun l hl => ?_
    have := fine_tokSpFlow (checks := checks) (print := print) (b := b) (u := "*") (next := " *   ".toList) (by decide)
      (shortWords_line (h t ht) hl) (by decide)
    have e : (nl ++ ind ++ sp ++ tok "*" ++ sp ++ [.op (.flow l " *   ".toList)] : Ps) =
        nl ++ ind ++ sp ++ (tok "*" ++ sp ++ [.op (.flow l " *   ".toList)]) := by simp only [List.append_assoc]
    rw [e]
    fine
  · fine

theorem fine_comment (hk : Kids checks print w K node) (hb : K ≤ b)
    (h : ∀ t, node.getStrForKey "text" = some t → t.toList ≠ [] → ShortWords w t.toList) :
    FineP checks print w b (comment s node) := by
  unfold comment
  refine fine_append ?_ (fine_field hk hb)
  cases ht : node.getStrForKey "text" with
  | none =>
    have e : onStr "text" node (fun t => when (!t.toList.isEmpty) [.op (.flow t.toList "// ".toList)]) = ([] : Ps) := by
      unfold onStr; rw [ht]; rfl
    rw [e]
    fine
  | some t =>
    have e : onStr "text" node (fun t => when (!t.toList.isEmpty) [.op (.flow t.toList "// ".toList)]) =
        (when (!t.toList.isEmpty) [.op (.flow t.toList "// ".toList)] : Ps) := by
      unfold onStr; rw [ht]; rfl
    rw [e]
    by_cases hn : t.toList = []
    · rw [hn]
      exact fine_append (fine_append fine_tok fine_sp) fine_nil
    · have e : (!t.toList.isEmpty) = true := by cases h : t.toList with
        | nil => exact absurd h hn
        | cons => rfl
      rw [e]
      exact fine_tokSpFlow (by decide) (h t ht hn) (by decide)

theorem fine_inlineEntry (h : ∀ t, node.getStrForKey "documentation" = some t → ShortWords w t.toList) :
    FineP checks print w b (inlineAssembly s node).entry := by
  unfold inlineAssembly
  dsimp only
  refine fine_onStr fun d hd => ?_
  have := fine_tokSpFlow (checks := checks) (print := print) (b := b) (u := "///") (next := "/// ".toList) (by decide)
    (h d hd) (by decide)
  exact fine_append (fine_append this fine_nl) fine_ind

theorem fineLayout_inlineAssembly (hk : Kids checks print w K node) (hb : K ≤ b)
    (h : ∀ t, node.getStrForKey "documentation" = some t → ShortWords w t.toList) :
    FineLayout checks print w b (inlineAssembly s node) := by
  refine fineLayout_of (fine_inlineEntry h) ?_ ?_ <;> unfold inlineAssembly <;> dsimp only <;> fine

theorem fineLayout_importDirective (hk : Kids checks print w K node) (hb : K ≤ b) :
    FineLayout checks print w b (importDirective s node) := by
  refine fineLayout_of ?_ (fine_importBody hk hb) ?_ <;> unfold importDirective <;> dsimp only <;> fine

theorem fineLayout_functionCall (hk : Kids checks print w K node) (hb : K ≤ b) (hb' : K + 1 ≤ b)
    (h : ∀ k ks vs, node.getArrayForKey "names" = some (k :: ks) → node.getArrayForKey "arguments" = some vs →
      (k :: ks).length = vs.length ∧ ∀ x ∈ k :: ks, x.asStr.isSome) :
    FineLayout checks print w b (functionCall s node) := by
  refine fineLayout_of ?_ (fine_functionCallBody hk hb hb' h) ?_ <;> unfold functionCall <;> dsimp only <;> fine

theorem fineLayout_contract (hk : Kids checks print w K node) (hb : K ≤ b) (hb' : K + 1 ≤ b) :
    FineLayout checks print w b (contract s node) := by
  have h1 := fine_documentation (s := s) hk hb
  refine fineLayout_of ?_ ?_ ?_ <;> unfold contract <;> dsimp only <;> fine

theorem fineLayout_block (hk : Kids checks print w K node) (hb : K ≤ b) (hb' : K + 1 ≤ b) :
    FineLayout checks print w b (block s node) := by
  have h1 := fine_statements (s := s) hk hb hb'
  refine fineLayout_of ?_ ?_ ?_ <;> unfold block <;> dsimp only <;> fine

theorem fine_usingFor (hk : Kids checks print w K node) (hb : K ≤ b) (hb' : K + 1 ≤ b) :
    FineP checks print w b (usingFor s node) := by
  unfold usingFor
  fine
  exact fine_onField (‹Kid _ _ _ _ _› : Kid checks print w K _).2 fun _ _ _ => fine_strTok

theorem fine_enumDefinition (hk : Kids checks print w K node) (hb : K ≤ b) (hb' : K + 1 ≤ b) :
    FineP checks print w b (enumDefinition s node) := by unfold enumDefinition; fine

theorem fine_yulFor (hk : Kids checks print w K node) (hb : K ≤ b) (hb' : K + 1 ≤ b) :
    FineP checks print w b (yulFor s node) := by unfold yulFor; fine

theorem fine_yulSwitch (hk : Kids checks print w K node) (hb : K ≤ b) (hb' : K + 1 ≤ b) :
    FineP checks print w b (yulSwitch s node) := by unfold yulSwitch; fine

theorem indents_of {t : String} (h : node.getStrForKey "nodeType" = some t)
    (ht : t ∈ ["ContractDefinition", "StructDefinition", "EnumDefinition", "UsingForDirective", "Block",
      "UncheckedBlock", "YulBlock", "IfStatement", "ForStatement", "FunctionCall", "YulForLoop", "YulSwitch"]) :
    indents node = true := by
  unfold indents
  rw [h]
  exact decide_eq_true ht

theorem fineLayout_ite' {c : Prop} [Decidable c] {x y : Layout PrintSettings} (hx : c → FineLayout checks print w b x)
    (hy : FineLayout checks print w b y) : FineLayout checks print w b (if c then x else y) :=
  fineLayout_ite hx fun _ => hy

set_option maxHeartbeats 2000000 in
theorem fine_layout (ho : Sturdy w node) (hk : Kids checks (printOps checks) w K node) (hb : K ≤ b)
    (hi : indents node = true → K + 1 ≤ b) : FineLayout checks (printOps checks) w b (layout s node) := by
  generalize printOps checks = print at hk
  unfold layout
  cases hT : node.getStrForKey "nodeType" with
  | none => exact fineLayout_of fine_nil fine_nil fine_nil
  | some t =>
    simp only
    have h1 := fine_documentation (s := s) hk hb
    have h2 := fine_operator (checks := checks) (print := print) (w := w) (b := b) (node := node)
    have h4 := fine_returnParameters (s := s) hk hb
    repeat' (refine fineLayout_ite' (fun h => ?_) ?_)
    all_goals first
      | (have hb' : K + 1 ≤ b := hi (indents_of hT (by rw [h]; decide))
         rw [h] at hT
         with_reducible first
          | exact fineLayout_structDef hk hb'
          | exact fineLayout_functionCall hk hb hb' (ho.call hT)
          | exact fineLayout_contract hk hb hb'
          | exact fineLayout_block hk hb hb'
          | exact fineLayout_of fine_nil (fine_ifStatement hk hb hb') fine_nil
          | exact fineLayout_of fine_nil (fine_forStatement hk hb hb') fine_nil
          | exact fineLayout_of fine_nil (fine_usingFor hk hb hb') fine_nil
          | exact fineLayout_of fine_nil (fine_enumDefinition hk hb hb') fine_nil
          | exact fineLayout_of fine_nil (fine_yulFor hk hb hb') fine_nil
          | exact fineLayout_of fine_nil (fine_yulSwitch hk hb hb') fine_nil)
      | (rw [h] at hT
         with_reducible first
          | exact fine_structuredDoc (ho.doc hT)
          | exact fineLayout_of fine_nil (fine_comment hk hb (ho.comment hT)) fine_nil
          | exact fineLayout_of fine_nil (fine_functionCallOptions hk hb (ho.options hT)) fine_nil
          | exact fineLayout_inlineAssembly hk hb (ho.assembly hT)
          | exact fineLayout_importDirective hk hb)
      | ((refine fineLayout_of ?_ ?_ ?_ <;> try dsimp only) <;> first
          | with_reducible exact fine_nil
          | with_reducible exact fine_pragma hk | with_reducible exact fine_userType
          | with_reducible exact fine_tryStatement hk hb | with_reducible exact fine_literal
          | with_reducible exact fine_typeNameExpression hk hb
          | with_reducible exact fine_yulCase hk hb | with_reducible exact fine_variableDeclarationStatement hk hb
          | with_reducible exact fine_tuple hk hb
          | (dsimp only [sourceUnit, elementaryType, mapping, variableDeclaration, functionDefinition,
            spaceAndArray, parameterList, inheritance, modifierInvocation,
            modifierDefinition, overrideSpecifier, functionTypeName, eventDefinition,
            returnStatement, emitStatement,
            tryCatchClause, whileStatement, doWhileStatement, binaryOperation, assignment,
            unaryOperation, conditional, yulVariableDeclaration, yulAssignment, yulLiteral,
            yulFunction, arguments]; fine; done)
          | (fine; done))

/-- Every tree of sturdy nodes is printed. -/
theorem prints (checks : Bool) (j : Json) (ho : ∀ m, Json.Within m j → Sturdy w m)
    (hr : RoomFor w (Json.nest indents j)) : ∃ text, printText checks j = .ok text := by
  have h := fine_ops (w := w) (checks := checks) good_layout (c := indents) (Ok := Sturdy w)
    (fun n hn => nest_pos (key := "nodeType") hn (by
      unfold indents at hn
      cases h : n.getStrForKey "nodeType" with
      | none => rw [h] at hn; cases hn
      | some t => rfl))
    (fun s n K b ho hk hb hi => fine_layout ho hk hb hi) j ho {}
  obtain ⟨q, h1, _⟩ := h _ (ready_new hr)
  exact ⟨q.out, by unfold printText printOps; rw [h1]⟩

end SolPrint
end Mutagenyx
