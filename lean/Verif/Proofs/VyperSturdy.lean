import Verif.Proofs.Sturdy
import Verif.Proofs.VyperPrinter

/-!
# The printing of Vyper trees ends
-/

namespace Mutagenyx
namespace VyPrint

open NodePrinter Printer

variable {checks : Bool} {print : PrintSettings → Json → List Op} {w : Option Nat} {K b : Nat}
  {s : PrintSettings} {node : Json}

theorem fine_valueAssignment (hk : Kids checks print w K node) (hb : K ≤ b) :
    FineP checks print w b (valueAssignment s node) := by unfold valueAssignment; fine

theorem fine_bodyAsNodes (hk : Kids checks print w K node) (hb : K ≤ b) :
    FineP checks print w b (bodyAsNodes s node) := by unfold bodyAsNodes; fine

theorem fine_indentedLoop {len : Nat} (hb : K ≤ b) : (i : Nat) → (xs : List Json) → (∀ x ∈ xs, Kid checks print w K x) →
    FineP checks print w b (indentedLoop s len i xs)
  | _, [], _ => fine_nil
  | i, x :: xs, h => fine_append fine_ind (fine_append (fine_sub (h x (List.mem_cons_self ..)) hb)
      (fine_append (fine_when fun _ => fine_nl) (fine_indentedLoop hb (i + 1) xs fun y hy => h y (List.mem_cons_of_mem _ hy))))

theorem fine_indentedArray {xs : List Json} (h : ∀ x ∈ xs, Kid checks print w K x) (hb : K ≤ b) :
    FineP checks print w b (indentedArray s xs) := fine_indentedLoop hb 0 xs h

theorem fine_indentedBody (hk : Kids checks print w K node) (hb : K ≤ b) :
    FineP checks print w b (indentedBody s node) := fine_onArray hk fun _ _ h => fine_indentedArray h hb

theorem fine_withParens (h : Kid checks print w K node) (hb : K ≤ b) :
    FineP checks print w b (withParens s node) := by unfold withParens; fine

theorem fine_docString {doc : String} (h : '\n' ∉ doc.toList → ShortWords w doc.toList) :
    FineP checks print w b (docString doc) := by
  unfold docString
  split
  · exact fine_triple
  · exact fine_append (fine_tokFlow (by decide) (h ‹_›) (by decide)) fine_tok

theorem fine_variableDecl (hk : Kids checks print w K node) (hb : K ≤ b) :
    FineP checks print w b (variableDecl s node) := by
  unfold variableDecl
  have := fine_valueAssignment (s := s) hk hb
  fine

theorem fine_decorators (hk : Kids checks print w K node) (hb : K ≤ b) :
    FineP checks print w b (decorators s node) := by
  unfold decorators
  refine fine_onArray hk fun xs _ hxs => ?_
  cases xs with
  | nil => fine
  | cons x xs =>
    have hx := hxs x (List.mem_cons_self ..)
    have h : ∀ y ∈ xs, Kid checks print w K y := fun y hy => hxs y (List.mem_cons_of_mem _ hy)
    clear hxs
    simp only
    fine

theorem fine_functionDef (hk : Kids checks print w K node) (hb : K ≤ b) (hb' : K + 1 ≤ b)
    (hd : ∀ d v, Json.field? "doc_string" node = some d → d.getStrForKey "value" = some v → '\n' ∉ v.toList →
      ShortWords w v.toList) : FineP checks print w b (functionDef s node) := by
  unfold functionDef
  fine
  · exact fine_docString fun h => hd _ _ ‹_› ‹_› h
  · exact fine_indentedArray ‹_› (Nat.le_refl _)

theorem fine_argumentLoop {len first : Nat} (hb : K ≤ b) : (i : Nat) → (as ds : List Json) →
    (∀ x ∈ as, Kid checks print w K x) → (∀ x ∈ ds, Kid checks print w K x) →
    as.length ≤ ds.length + (first - i) → FineP checks print w b (argumentLoop s len first i as ds)
  | _, [], _, _, _, _ => by unfold argumentLoop; fine
  | i, a :: as, ds, h1, h2, hl => by
    have ha := h1 a (List.mem_cons_self ..)
    have has : ∀ x ∈ as, Kid checks print w K x := fun y hy => h1 y (List.mem_cons_of_mem _ hy)
    simp only [List.length_cons] at hl
    unfold argumentLoop
    split
    · cases ds with
      | nil => simp only [List.length_nil] at hl; omega
      | cons x ds =>
        have hd := h2 x (List.mem_cons_self ..)
        simp only [List.length_cons] at hl
        have := fine_argumentLoop (len := len) (first := first) hb (i + 1) as ds has
          (fun y hy => h2 y (List.mem_cons_of_mem _ hy)) (by omega)
        simp only; fine
    · have := fine_argumentLoop (len := len) (first := first) hb (i + 1) as ds has h2 (by omega)
      fine

theorem fine_arguments (hk : Kids checks print w K node) (hb : K ≤ b)
    (h : ∀ ds as, Json.field? "defaults" node = some (.arr ds) → Json.field? "args" node = some (.arr as) →
      ds.length ≤ as.length) : FineP checks print w b (arguments checks s node) := by
  unfold arguments
  refine fine_onArray hk fun ds hds hkd => fine_ite (fun _ => ?_) fun _ => fine_onArray hk fun as has hka => ?_
  · fine
  · have := h ds as hds has
    rw [if_neg (by omega)]
    exact fine_argumentLoop hb _ _ _ hka hkd (by omega)

theorem fine_augAssign (hk : Kids checks print w K node) (hb : K ≤ b) :
    FineP checks print w b (augAssign s node) := by unfold augAssign; fine

theorem fine_intNode {env : PrintEnv} : FineP checks print w b (intNode env node) := by
  unfold intNode
  split
  · fine
  · split <;> fine

theorem fine_binOp (hk : Kids checks print w K node) (hb : K ≤ b) : FineP checks print w b (binOp s node) := by
  unfold binOp
  fine
  all_goals exact fine_withParens ‹_› hb

theorem fine_boolOp (hk : Kids checks print w K node) (hb : K ≤ b) : FineP checks print w b (boolOp s node) := by
  unfold boolOp
  refine fine_onArray hk fun xs _ hxs => ?_
  split
  · next l r t _ =>
    have h1 := fine_withParens (s := s) (hxs l (by simp)) hb
    have h2 := fine_withParens (s := s) (hxs r (by simp)) hb
    fine
  · fine

theorem fine_assertNode (hk : Kids checks print w K node) (hb : K ≤ b) :
    FineP checks print w b (assertNode s node) := by unfold assertNode; fine

theorem fine_moduleNode (hk : Kids checks print w K node) (hb : K ≤ b)
    (hd : ∀ d v, Json.field? "doc_string" node = some d → d.getStrForKey "value" = some v → '\n' ∉ v.toList →
      ShortWords w v.toList) : FineP checks print w b (moduleNode s node) := by
  unfold moduleNode
  fine
  exact fine_docString fun h => hd _ _ ‹_› ‹_› h

theorem fine_call (hk : Kids checks print w K node) (hb : K ≤ b) :
    FineP checks print w b (call s node) := by unfold call; fine

theorem fine_nameConstant (hk : Kids checks print w K node) : FineP checks print w b (nameConstant node) := by
  unfold nameConstant
  refine fine_onField hk fun n _ hn => ?_
  split <;> fine

theorem fine_unaryOp (hk : Kids checks print w K node) (hb : K ≤ b) :
    FineP checks print w b (unaryOp s node) := by
  unfold unaryOp
  fine
  exact fine_withParens ‹_› hb

theorem fine_forNode (hk : Kids checks print w K node) (hb : K ≤ b) (hb' : K + 1 ≤ b) :
    FineP checks print w b (forNode s node) := by
  unfold forNode
  have := fine_bodyAsNodes (s := s) hk (Nat.le_refl K)
  fine

theorem fine_ifNode (hk : Kids checks print w K node) (hb : K ≤ b) (hb' : K + 1 ≤ b) :
    FineP checks print w b (ifNode s node) := by
  unfold ifNode
  have := fine_indentedBody (s := s) hk (Nat.le_refl K)
  fine
  exact fine_indentedArray ‹_› (Nat.le_refl _)

theorem fine_listDef {kw : String} (hk : Kids checks print w K node) (hb : K ≤ b) (hb' : K + 1 ≤ b) :
    FineP checks print w b (listDef kw s node) := by
  unfold listDef
  have := fine_indentedBody (s := s) hk (Nat.le_refl K)
  fine

theorem fine_importFrom (hk : Kids checks print w K node) : FineP checks print w b (importFrom node) := by
  unfold importFrom; fine

theorem fine_comment (hk : Kids checks print w K node) (hb : K ≤ b)
    (h1 : ∀ t, Json.field? "value" node = some (.str t) → ShortWords w t.toList)
    (h2 : ∀ kvs, Json.field? "value" node = some (.obj kvs) →
      ∀ s p, Printer.run checks (print s (.obj kvs)) (Printer.new 4 150) = .ok p → ShortWords w p.out) :
    FineP checks print w b (comment s node) := by
  unfold comment
  refine fine_onField hk fun n hn hkn => ?_
  split
  · exact fine_tokSpFlow (by decide) (h1 _ hn) (by decide)
  · exact fine_quote hkn hb (by decide) (by decide) (h2 _ hn)
  · fine

theorem bytePairs_even : (v : List Char) → (∀ c ∈ v, c.utf8Size = 1) → v.length % 2 = 0 → ∃ ps, bytePairs v = some ps
  | [], _, _ => ⟨[], rfl⟩
  | [c], _, h => by simp at h
  | c :: d :: cs, h, hl => by
    obtain ⟨ps, hps⟩ := bytePairs_even cs (fun x hx => h x (by simp [hx])) (by simp only [List.length_cons] at hl; omega)
    have h1 := h c (by simp)
    have h2 := h d (by simp)
    refine ⟨[c, d] :: ps, ?_⟩
    rw [bytePairs, if_neg (by omega), if_pos ⟨h1, h2⟩, hps]
    rfl

theorem fine_bytesNode (h : ∀ v, node.getStrForKey "value" = some v →
    (∀ c ∈ v.toList, c.utf8Size = 1) ∧ v.toList.length % 2 = 0) : FineP checks print w b (bytesNode node) := by
  unfold bytesNode
  refine fine_onStr fun v hv => fine_ite (fun _ => fine_tok) fun _ => ?_
  obtain ⟨ps, hps⟩ := bytePairs_even v.toList (h v hv).1 (h v hv).2
  rw [hps]
  exact fine_token

theorem fine_dictLoop {len : Nat} (hb : K ≤ b) : (i : Nat) → (ks vs : List Json) → (∀ x ∈ ks, Kid checks print w K x) →
    (∀ x ∈ vs, Kid checks print w K x) → FineP checks print w b (dictLoop s len i ks vs)
  | i, k :: ks, v :: vs, h1, h2 => by
    have hk := h1 k (List.mem_cons_self ..)
    have hv := h2 v (List.mem_cons_self ..)
    have := fine_dictLoop (len := len) hb (i + 1) ks vs (fun y hy => h1 y (List.mem_cons_of_mem _ hy))
      fun y hy => h2 y (List.mem_cons_of_mem _ hy)
    unfold dictLoop
    fine
  | _, [], _, _, _ => by unfold dictLoop; fine
  | _, _ :: _, [], _, _ => by unfold dictLoop; fine

theorem fine_dict (hk : Kids checks print w K node) (hb : K ≤ b) (hb' : K + 1 ≤ b)
    (h : ∀ ks vs, Json.field? "keys" node = some (.arr ks) → Json.field? "values" node = some (.arr vs) →
      ks.length = vs.length) : FineP checks print w b (dict s node) := by
  unfold dict
  refine fine_onArray hk fun ks hks hkk => fine_onArray hk fun vs hvs hkv => ?_
  rw [if_neg (by rw [h ks vs hks hvs]; simp)]
  fine
  exact fine_dictLoop (Nat.le_refl _) _ _ _ ‹_› ‹_›

theorem fineLayout_bodyEntry {kw : String} {body : Ps} (h : FineP checks print w K body) (hb' : K + 1 ≤ b) :
    FineLayout checks print w b { entry := bodyEntry kw node, body := body, exit := dec } := by
  intro inner _
  have e : around { entry := bodyEntry kw node, body := body, exit := dec } inner =
      (tok kw ++ sp ++ onStr "name" node fun n => tok n ++ tok ":" ++ nl) ++ (inc ++ body ++ dec) := by
    simp [around, bodyEntry]
  rw [e]
  fine

theorem indents_of {t : String} (h : node.getStrForKey "ast_type" = some t)
    (ht : t ∈ ["FunctionDef", "InterfaceDef", "StructDef", "EventDef", "EnumDef", "For", "If", "Dict"]) :
    indents node = true := by
  unfold indents
  rw [h]
  exact decide_eq_true ht

theorem fine_layout (env : PrintEnv) (ho : Sturdy env w node)
    (hk : Kids env.checks (printOps env) w K node) (hb : K ≤ b)
    (hi : indents node = true → K + 1 ≤ b) :
    FineLayout env.checks (printOps env) w b (layout env s node) := by
  have hq := ho.quote
  generalize printOps env = print at hk hq
  unfold layout
  cases hT : node.getStrForKey "ast_type" with
  | none => exact fineLayout_of fine_nil fine_nil fine_nil
  | some t =>
    simp only
    repeat' (refine fineLayout_ite (fun h => ?_) (fun _ => ?_))
    all_goals first
      | (have hb' : K + 1 ≤ b := hi (indents_of hT (by rw [h]; decide))
         rw [h] at hT
         first
          | with_reducible exact fineLayout_bodyEntry (fine_bodyAsNodes hk (Nat.le_refl _)) hb'
          | with_reducible exact fineLayout_of (fine_decorators hk hb) (fine_functionDef hk hb hb' (ho.doc (.inl hT))) fine_nil
          | with_reducible exact fineLayout_of fine_nil (fine_forNode hk hb hb') fine_nil
          | with_reducible exact fineLayout_of fine_nil (fine_ifNode hk hb hb') fine_nil
          | with_reducible exact fineLayout_of fine_nil (fine_listDef hk hb hb') fine_nil
          | with_reducible exact fineLayout_of fine_tok (fine_dict hk hb hb' (ho.dict hT)) fine_tok)
      | (rw [h] at hT
         first
          | with_reducible exact fineLayout_of fine_nil (fine_arguments hk hb (ho.arguments hT)) fine_nil
          | with_reducible exact fineLayout_of fine_nil (fine_moduleNode hk hb (ho.doc (.inr hT))) fine_nil
          | with_reducible exact fineLayout_of fine_nil (fine_comment hk hb (ho.comment hT) (hq hT)) fine_nil
          | with_reducible exact fineLayout_of fine_nil (fine_bytesNode (ho.bytes hT)) fine_nil)
      | (refine fineLayout_of ?_ ?_ ?_ <;> dsimp only <;> first
          | with_reducible exact fine_nil | with_reducible exact fine_variableDecl hk hb
          | with_reducible exact fine_augAssign hk hb | with_reducible exact fine_intNode
          | with_reducible exact fine_binOp hk hb | with_reducible exact fine_boolOp hk hb
          | with_reducible exact fine_assertNode hk hb | with_reducible exact fine_call hk hb
          | with_reducible exact fine_nameConstant hk | with_reducible exact fine_unaryOp hk hb
          | with_reducible exact fine_importFrom hk
          | (have := fine_valueAssignment (s := s) hk hb; fine; done)
          | (unfold returnNode; fine; done)
          | (unfold importNode; fine; done)
          | (unfold logNode; fine; done)
          | (unfold andOr; fine; done)
          | (unfold keyword; fine; done))

/-- Every tree of sturdy nodes is printed. -/
theorem prints (env : PrintEnv) (j : Json) (ho : ∀ m, Json.Within m j → Sturdy env w m)
    (hr : RoomFor w (Json.nest indents j)) : ∃ text, printText env j = .ok text := by
  have h := fine_ops (w := w) (checks := env.checks) (good_layout env) (c := indents) (Ok := Sturdy env w)
    (fun n hn => nest_pos (key := "ast_type") hn (by
      unfold indents at hn
      cases h : n.getStrForKey "ast_type" with
      | none => rw [h] at hn; cases hn
      | some t => rfl))
    (fun s n K b ho hk hb hi => fine_layout env ho hk hb hi) j ho {}
  obtain ⟨q, h1, _⟩ := h _ (ready_new hr)
  exact ⟨q.out, by unfold printText printOps; rw [h1]⟩

end VyPrint
end Mutagenyx
