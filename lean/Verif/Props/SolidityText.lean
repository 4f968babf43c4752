import Verif.Proofs.SolidityRows
import Verif.Props.SolidityMutants

/-!
# C77 and C78: the text of a Solidity mutant
-/

namespace Mutagenyx
namespace SolPrint
open NodePrinter SolGrammar SolText
open Json hiding field

variable {S R : Type} [Rand R] {checks : Bool}

/-! ### Statements in their lists -/

/-- The list with this number of the node. -/
theorem list_place {b : Json} {i : Nat} {j : Json} {p : Pos} (h1 : nodeAt p j = some b) (h2 : HoldsStatements .solidity b i)
    {xs : List Json} (h3 : nodeAt (p ++ [i]) j = some (.arr xs)) :
    ∃ kvs t k, b = .obj kvs ∧ IsA t b ∧
      (t, k) ∈ [("Block", "statements"), ("UncheckedBlock", "statements"), ("ContractDefinition", "nodes")] ∧
      kvs[i]? = some (k, .arr xs) ∧ (kvs.map Prod.fst).findIdx? (· == k) = some i ∧
      ∀ w, replaceAt (p ++ [i]) w j = replaceAt p (.obj (setField i w kvs)) j := by
  obtain ⟨kvs, t, k, rfl, ht, htk, hk, hfirst⟩ := h2
  have h3' := h3
  rw [nodeAt_append, h1] at h3'
  simp only [Option.bind_some, nodeAt, children] at h3'
  have hx : kvs[i]? = some (k, .arr xs) := by
    rw [List.getElem?_map] at hk h3'
    cases hx : kvs[i]? with
    | none => rw [hx] at hk; cases hk
    | some x =>
      rw [hx] at hk h3'
      simp only [Option.map_some, Option.some.injEq] at hk h3'
      rw [← hk, ← h3']
  refine ⟨kvs, t, k, rfl, ht, htk, hx, ?_, fun w => ?_⟩
  · have hlt : i < (kvs.map Prod.fst).length := (List.getElem?_eq_some_iff.1 hk).1
    refine List.findIdx?_eq_some_iff_getElem.2 ⟨hlt, ?_, fun m hm => ?_⟩
    · have := (List.getElem?_eq_some_iff.1 hk).2
      simp [this]
    · have := hfirst m hm
      rw [List.getElem?_eq_getElem (by omega)] at this
      simpa using this
  · rw [← replaceAt_append h1]
    have hc : (kvs.map Prod.snd)[i]? = some (.arr xs) := by simp [hx]
    simp only [replaceAt, children, hc, setChildren, setField]

/-- The calls before a statement in a list. -/
theorem rows_before (k : String) : (pre : List Json) →
    ∃ M, Op.newline :: pre.flatMap (fun y => row checks k y ++ gap k) = M ++ [.newline] ∧ Balanced M := by
  intro pre
  have hgap : Balanced (gap k) := by
    unfold gap
    split
    · exact ⟨rfl, Above.cons (Above.cons (Above.nil (by simp [Printer.change])) (by simp [Printer.change])) (by omega)⟩
    · exact ⟨rfl, Above.cons (Above.nil (by simp [Printer.change])) (by omega)⟩
  have hall : ∀ pre : List Json, Balanced (Op.newline :: pre.flatMap (fun y => row checks k y ++ gap k)) := by
    have : ∀ pre : List Json, Balanced (pre.flatMap (fun y => row checks k y ++ gap k)) := by
      intro pre
      induction pre with
      | nil => exact ⟨rfl, Above.nil (by omega)⟩
      | cons x xs ih =>
        have hr := row_balanced (checks := checks) k x
        rw [List.flatMap_cons]
        refine ⟨by rw [changes_append, changes_append, hr.1, hgap.1, ih.1]; rfl, Above.append (Above.append hr.2 ?_) ?_⟩
        · rw [hr.1]; exact hgap.2
        · rw [changes_append, hr.1, hgap.1]; exact ih.2
    intro pre
    exact ⟨by rw [changes_cons, (this pre).1]; rfl, Above.cons (this pre).2 (by omega)⟩
  have hend : ∀ pre : List Json, ∃ M, Op.newline :: pre.flatMap (fun y => row checks k y ++ gap k) = M ++ [.newline] := by
    intro pre
    induction pre with
    | nil => exact ⟨[], rfl⟩
    | cons x xs ih =>
      obtain ⟨M, hM⟩ := ih
      cases xs with
      | nil =>
        refine ⟨.newline :: (row checks k x ++ (gap k).dropLast), ?_⟩
        unfold gap
        split <;> simp
      | cons y ys =>
        cases M with
        | nil =>
          simp [row] at hM
        | cons m M =>
          simp only [List.cons_append, List.cons.injEq] at hM
          refine ⟨.newline :: (row checks k x ++ gap k ++ M), ?_⟩
          rw [List.flatMap_cons, hM.2]
          simp
  obtain ⟨M, hM⟩ := hend pre
  refine ⟨M, hM, ?_⟩
  have hb := hall pre
  rw [hM] at hb
  refine ⟨?_, fun n => ?_⟩
  · have := hb.1
    rw [changes_append] at this
    simpa [Printer.changes, Printer.change] using this
  · have := hb.2 (min n M.length)
    rw [List.take_append_of_le_length (by omega), List.take_eq_take_min] at this
    rwa [List.take_eq_take_min, show min n M.length = min (min n M.length) M.length by omega]

/-- All the calls for a tree with these statements or declarations in it. -/
theorem tree_ops {p : Pos} {j b : Json} {i d : Nat} (hd : levelAt p j = some d) (hj : IsObj j) (h1 : nodeAt p j = some b)
    (h2 : HoldsStatements .solidity b i) {xs : List Json} (h3 : nodeAt (p ++ [i]) j = some (.arr xs)) :
    ∃ k X Y, (k = "nodes" ↔ b.getStrForKey "nodeType" = some "ContractDefinition") ∧
      Printer.changes X = (d + 1 : Nat) ∧ Above 0 X ∧ Printer.EndsTheLine Y ∧
      ∀ pre s post, printOps checks {} (replaceAt (p ++ [i]) (.arr (pre ++ s :: post)) j) =
        X ++ (.newline :: (pre.flatMap (fun y => row checks k y ++ gap k) ++
          (row checks k s ++ (post.flatMap (fun y => gap k ++ row checks k y) ++ Y)))) := by
  obtain ⟨kvs, t, k, rfl, ht, htk, hx, hi, hrep⟩ := list_place h1 h2 h3
  obtain ⟨A, B, a1, a2, a3⟩ := surrounds_at (checks := checks) p j _ d hd h1 trivial hj
  obtain ⟨X, Y, b1, b2, b3, b4⟩ := list_ops (checks := checks) hx hi trivial ht htk
  have hv := varies_setField hx hi trivial
  refine ⟨k, A ++ X, Y ++ B, ?_, ?_, ?_, ?_, fun pre s post => ?_⟩
  · have ht : getStrForKey "nodeType" (.obj kvs) = some t := ht
    rw [ht]
    simp only [List.mem_cons, Prod.mk.injEq, List.not_mem_nil, or_false] at htk
    rcases htk with ⟨rfl, rfl⟩ | ⟨rfl, rfl⟩ | ⟨rfl, rfl⟩ <;> decide
  · rw [changes_append, a1, b1]; omega
  · refine a2.append ?_
    rw [a1]
    exact b2.mono (by omega)
  · obtain ⟨y, rfl | rfl⟩ := b3
    · exact ⟨y ++ B, .inl (by simp)⟩
    · exact ⟨y ++ B, .inr (by simp)⟩
  · have hw : Container (.arr (pre ++ s :: post)) := trivial
    have hf : Fits (getStrForKey "nodeType" (.obj kvs)) (.obj (setField i (.arr (pre ++ s :: post)) kvs)) :=
      ⟨trivial, hv.str _ hw _ (by decide)⟩
    rw [hrep, a3 _ hf, b4]
    simp

theorem new_limits {ops : List Op} {q : Printer} (h : Printer.run checks ops (Printer.new 4 150) = .ok q) :
    q.indent ≤ 36 ∧ q.tabWidth = 4 ∧ q.pageWidth = 150 := by
  obtain ⟨h1, h2, h3, h4⟩ := Printer.run_limits h (Nat.zero_le _)
  rw [h2] at h1
  exact ⟨h1, h3, h4⟩

theorem printText_run {j : Json} {text : List Char} : printText checks j = .ok text ↔
    ∃ q, Printer.run checks (printOps checks {} j) (Printer.new 4 150) = .ok q ∧ q.out = text := by
  unfold printText
  constructor
  · intro h
    split at h
    · cases h; exact ⟨_, ‹_›, rfl⟩
    all_goals cases h
  · rintro ⟨q, h, rfl⟩
    rw [h]

theorem isObj_of_nodeAt {p : Pos} {j b : Json} {d : Nat} (hd : levelAt p j = some d) (h1 : nodeAt p j = some b) (hb : IsObj b) : IsObj j := by
  cases p with
  | nil => cases h1; exact hb
  | cons i p => cases j <;> first | trivial | simp [levelAt] at hd

/-- **C77 (trees).** If a statement of a block that is printed on one line is replaced by the comment made of it, then the text of the
tree is the same but for `// ` before the text of the statement, which is alone on its line; and the one tree can be printed if the
other can.  Missing: statements of several lines and those too long for the line, where the claim fails
(`C60_mutant_counterexample`, `C60_long_statement_counterexample`). -/
theorem C77_tree_partial (ast : Json) (p : Pos) (b : Json) (i d : Nat) (pre post : List Json) (stmt : Json) (s : List Char)
    (hd : levelAt p ast = some d) (h1 : nodeAt p ast = some b) (h2 : HoldsStatements .solidity b i)
    (ht : b.getStrForKey "nodeType" ≠ some "ContractDefinition")
    (h3 : nodeAt (p ++ [i]) ast = some (.arr (pre ++ stmt :: post)))
    (hs : printText checks stmt = .ok s) (hn : '\n' ∉ s) (hfit : 4 * (d + 1) + 4 + utf8Len s ≤ 150) :
    (∀ text, printText checks ast = .ok text → ∃ text',
      printText checks (replaceAt (p ++ [i]) (.arr (pre ++ Solidity.commentNodeFromNode stmt :: post)) ast) = .ok text' ∧
      CommentedOut (4 * (d + 1)) s text text') ∧
    (∀ text', printText checks (replaceAt (p ++ [i]) (.arr (pre ++ Solidity.commentNodeFromNode stmt :: post)) ast) = .ok text' →
      ∃ text, printText checks ast = .ok text ∧ CommentedOut (4 * (d + 1)) s text text') := by
  have hb : IsObj b := by obtain ⟨kvs, _, _, rfl, _⟩ := h2; trivial
  obtain ⟨k, X, Y, hk, x1, x2, y, hops⟩ := tree_ops (checks := checks) hd (isObj_of_nodeAt hd h1 hb) h1 h2 h3
  have hk : k ≠ "nodes" := fun h => ht (hk.1 h)
  obtain ⟨M, hM, hbal⟩ := rows_before (checks := checks) k pre
  obtain ⟨alone, hs1, hs2⟩ := printText_run.1 hs
  have hast : replaceAt (p ++ [i]) (.arr (pre ++ stmt :: post)) ast = ast := replaceAt_self h3
  have hrow : ∀ n, row checks k n = .indent :: printOps checks {} n := by intro n; simp [row, hk]
  have hgap : gap k = [.newline] := by simp [gap, hk]
  have hB : Printer.EndsTheLine (post.flatMap (fun y => gap k ++ row checks k y) ++ Y) := by
    cases post with
    | nil => simpa using y
    | cons q qs => exact ⟨row checks k q ++ (qs.flatMap (fun y => gap k ++ row checks k y) ++ Y), .inl (by simp [hgap])⟩
  have e1 : printOps checks {} ast = (X ++ M) ++ (.newline :: .indent :: (printOps checks {} stmt ++
      (post.flatMap (fun y => gap k ++ row checks k y) ++ Y))) := by
    have h := hops pre stmt post
    rw [hast, ← List.cons_append, hM, hrow stmt] at h
    rw [h]
    simp
  have e2 : printOps checks {} (replaceAt (p ++ [i]) (.arr (pre ++ Solidity.commentNodeFromNode stmt :: post)) ast) =
      (X ++ M) ++ (.newline :: .indent :: .token "//".toList :: .space :: (printOps checks {} stmt ++
        (post.flatMap (fun y => gap k ++ row checks k y) ++ Y))) := by
    have h := hops pre (Solidity.commentNodeFromNode stmt) post
    rw [← List.cons_append, hM, hrow (Solidity.commentNodeFromNode stmt), printOps_comment] at h
    rw [h]
    simp
  obtain ⟨g1, g2⟩ := Printer.run_commentedOut (checks := checks) (A := X ++ M) (n := 4 * (d + 1)) (p := Printer.new 4 150)
    (anchored_printOps checks {} stmt) hB hs1 (by rw [hs2]; rfl) hn (fun r hr => by
      obtain ⟨l1, l2, l3⟩ := new_limits hr
      have hlev := Printer.run_level (i := 0) hr (by decide) (Above.append (x2.mono (by omega)) (by
        rw [x1]
        exact Above.mono hbal.2 (by omega)))
      rw [changes_append, x1, hbal.1] at hlev
      have : r.indentLength = r.indent * 4 := by unfold Printer.indentLength; rw [l2]
      rw [this, l3]
      omega)
  refine ⟨fun text h => ?_, fun text' h => ?_⟩
  · obtain ⟨q, h5, rfl⟩ := printText_run.1 h
    rw [e1] at h5
    obtain ⟨q', h6, h7⟩ := g1 q h5
    exact ⟨q'.out, printText_run.2 ⟨q', by rw [e2]; exact h6, rfl⟩, h7⟩
  · obtain ⟨q', h5, rfl⟩ := printText_run.1 h
    rw [e2] at h5
    obtain ⟨q, h6, h7⟩ := g2 q' h5
    exact ⟨q.out, printText_run.2 ⟨q, by rw [e1]; exact h6, rfl⟩, h7⟩

theorem printOps_note (note : String) : ∃ F, (F = [] ∨ F = [.flow note.toList "// ".toList]) ∧
    printOps checks {} (Solidity.commentNode note) = .token "//".toList :: .space :: F := by
  obtain ⟨h1, h2, h3⟩ := sol_commentNode note
  have h1 : (Solidity.commentNode note).getStrForKey "nodeType" = some "Comment" := h1
  refine ⟨if note.toList.isEmpty then [] else [.flow note.toList "// ".toList], ?_, ?_⟩
  · split
    · exact .inl rfl
    · exact .inr rfl
  · rw [printOps_of (body := comment {} (Solidity.commentNode note)) (by simp [layout, h1])]
    cases hE : note.toList.isEmpty <;>
      simp [comment, onStr, h2, onSome, NodePrinter.field, onField, h3, expand, tok, sp, when, hE]

/-- A comment before a statement or declaration of a list. -/
theorem comment_lines {ast : Json} {p : Pos} {b : Json} {i d : Nat} {pre post : List Json} {s : Json} {note : String}
    (hd : levelAt p ast = some d) (h1 : nodeAt p ast = some b) (h2 : HoldsStatements .solidity b i)
    (h3 : nodeAt (p ++ [i]) ast = some (.arr (pre ++ s :: post))) {text' : List Char}
    (h : printText checks (replaceAt (p ++ [i]) (.arr (pre ++ Solidity.commentNode note :: s :: post)) ast) = .ok text') :
    ∃ text, printText checks ast = .ok text ∧ LinesAdded text text' := by
  have hb : IsObj b := by obtain ⟨kvs, _, _, rfl, _⟩ := h2; trivial
  obtain ⟨k, X, Y, -, x1, x2, y, hops⟩ := tree_ops (checks := checks) hd (isObj_of_nodeAt hd h1 hb) h1 h2 h3
  obtain ⟨M, hM, hbal⟩ := rows_before (checks := checks) k pre
  have hast : replaceAt (p ++ [i]) (.arr (pre ++ s :: post)) ast = ast := replaceAt_self h3
  obtain ⟨F, hF, hnote⟩ := printOps_note (checks := checks) note
  have hrow : row checks k (Solidity.commentNode note) = .indent :: .token "//".toList :: .space :: F := by
    have h1 : (Solidity.commentNode note).getStrForKey "nodeType" = some "Comment" := (sol_commentNode note).1
    simp [row, hnote, h1]
  have hgap : gap k = [.newline] ∨ gap k = [.newline, .newline] := by
    unfold gap
    split
    · exact .inr rfl
    · exact .inl rfl
  have e1 : printOps checks {} ast = (X ++ M) ++ (.newline :: (row checks k s ++
      (post.flatMap (fun y => gap k ++ row checks k y) ++ Y))) := by
    have h := hops pre s post
    rw [hast, ← List.cons_append, hM] at h
    rw [h]
    simp
  have e2 : printOps checks {} (replaceAt (p ++ [i]) (.arr (pre ++ Solidity.commentNode note :: s :: post)) ast) =
      (X ++ M) ++ (.newline :: ((.indent :: .token "//".toList :: .space :: F) ++ (gap k ++ (row checks k s ++
        (post.flatMap (fun y => gap k ++ row checks k y) ++ Y))))) := by
    have h := hops pre (Solidity.commentNode note) (s :: post)
    rw [← List.cons_append, hM, hrow] at h
    rw [h]
    simp
  obtain ⟨q', h5, rfl⟩ := printText_run.1 h
  rw [e2] at h5
  obtain ⟨q, h6, h7⟩ := Printer.run_linesAdded hF hgap (fun r hr => by
    obtain ⟨l1, l2, l3⟩ := new_limits hr
    have : r.indentLength = r.indent * 4 := by unfold Printer.indentLength; rw [l2]
    rw [this, l3]
    omega) h5
  exact ⟨q.out, printText_run.2 ⟨q, by rw [e1]; exact h6, rfl⟩, h7⟩

/-- **C78 (trees).** A comment in a list of statements or declarations adds lines to the text of the tree that are comments or empty,
and nothing else changes.  Missing: comments for which a block is made around a statement, and those in a block without
statements, which are not lines of their own. -/
theorem C78_tree_partial (ast mutant : Json) (id : Nat) (note : String) (text' : List Char) (hreg : Regular ast) (hon : OnLines id ast)
    (h : CommentAdded .solidity id (Solidity.commentNode note) ast mutant) (hp : printText checks mutant = .ok text') :
    ∃ text, printText checks ast = .ok text ∧ LinesAdded text text' := by
  have list : ∀ (p : Pos) (i : Nat) (b : Json) (pre post : List Json) (s : Json), nodeAt p ast = some b → HoldsStatements .solidity b i →
      nodeAt (p ++ [i]) ast = some (.arr (pre ++ s :: post)) →
      printText checks (replaceAt (p ++ [i]) (.arr (pre ++ Solidity.commentNode note :: s :: post)) ast) = .ok text' →
      ∃ text, printText checks ast = .ok text ∧ LinesAdded text text' := by
    intro p i b pre post s h1 h2 h3 h4
    have := hreg p b h1 (by
      obtain ⟨kvs, t, k, rfl, ht, htk, _⟩ := h2
      refine ⟨t, ?_, ht⟩
      simp only [statementLists, List.mem_cons, Prod.mk.injEq, List.not_mem_nil, or_false] at htk
      rcases htk with ⟨rfl, _⟩ | ⟨rfl, _⟩ | ⟨rfl, _⟩ <;> simp)
    obtain ⟨d, hd⟩ := Option.isSome_iff_exists.1 this
    exact comment_lines hd h1 h2 h3 h4
  cases h with
  | inList p i b pre post s h1 h2 h3 _ _ => exact list p i b pre post s h1 h2 h3 hp
  | atTop p i b xs _ h1 hid h2 h3 =>
    cases xs with
    | nil => exact absurd h3 (hon.2 p b i h1 h2 hid)
    | cons x xs => exact list p i b [] xs x h1 h2 h3 hp
  | inBlock p i n s t _ h1 h2 h3 h4 h5 h6 => exact absurd h6 (hon.1 p n i s t h1 h2 h3 h4 h5)

/-! ### Mutations and runs -/

/-- What `DeleteStatement` does to a block. -/
theorem delete_place {env : MutEnv} {m : Mutator R} (hm : Solidity.mutatorFor env .deleteStatement = some m) {node node' : Json}
    (hmu : m.isMutable node = true) {rng rng' : R} {rep : MutatorResult} {comment : Option Json}
    (h : m.mutate node rng = .ok (node', rep, comment, rng')) :
    ∃ i pre stmt post, IsA "Block" node ∧ HoldsStatements .solidity node i ∧ nodeAt [i] node = some (.arr (pre ++ stmt :: post)) ∧
      rep.mutatedNodeId = solidityId stmt ∧
      node' = replaceAt [i] (.arr (pre ++ Solidity.commentNodeFromNode stmt :: post)) node := by
  cases hm
  simp only [Solidity.deleteStatementMutable, Bool.and_eq_true] at hmu
  have hk := solidity_hasType.1 hmu.1
  obtain ⟨kvs, rfl⟩ := isObj_iff.1 (isKind_isObj hk)
  have hty : getStrForKey "nodeType" (.obj kvs) = some "Block" := by
    have := hmu.1
    unfold Solidity.hasType at this
    simpa using this
  simp only [Solidity.deleteStatementMutate] at h
  have hfst : (takeValueForKey "statements" (.obj kvs)).1 = objGet "statements" kvs := by
    rw [takeValueForKey_fst, get?_obj (by decide)]
  have hsnd := takeValueForKey_snd (k := "statements") (by decide) (.obj kvs)
  split at h
  · rename_i ss j1 heq
    rw [heq] at hfst hsnd
    simp only at hfst hsnd
    obtain ⟨i, c1, c2, c3, c4⟩ := children_of_field hfst.symm
    split at h
    · rename_i vi r1 hd
      split at h
      · cases h
      · rename_i k hidx
        split at h
        · cases h
        · rename_i v hv
          simp only [Outcome.ok.injEq, Prod.mk.injEq] at h
          obtain ⟨rfl, rfl, _, _⟩ := h
          have hlt : k < ss.length := (List.getElem?_eq_some_iff.1 hv).1
          have hss : ss = ss.take k ++ v :: ss.drop (k + 1) := by
            rw [← (List.getElem?_eq_some_iff.1 hv).2]
            simp
          refine ⟨i, ss.take k, v, ss.drop (k + 1), hty, ⟨kvs, "Block", "statements", rfl, hty, by decide, c3, c4⟩, by rw [← hss]; exact c1,
            rfl, ?_⟩
          have hhas : (get? "statements" (.obj kvs)).isSome = true := by rw [get?_obj (by decide), ← hfst]; rfl
          rw [c2, eraseIdx_insertIdx_self _ _ _ hlt, hsnd, if_pos hhas]
          have hset : ss.set k (Solidity.commentNodeFromNode v) = ss.take k ++ Solidity.commentNodeFromNode v :: ss.drop (k + 1) := by
            rw [List.set_eq_take_append_cons_drop, if_pos hlt]
          rw [hset]
          unfold setNodeForKey
          have hhas' : (get? "statements" (stepSet "statements" .null (.obj kvs))).isSome = true := by
            simp only [stepSet]
            rw [get?_obj (by decide), objGet_objReplace]
            rw [get?_obj (by decide)] at hhas
            simp [hhas]
          rw [pointerSet_plain (by decide), if_pos hhas']
          simp only [stepSet, objReplace_objReplace]
    all_goals cases h
  · cases h

/-- **C78.** After a run that ends well for a Solidity source file, the text of each file for a mutant is the text of the mutated
tree, or that text with new lines that are comments or empty.  Missing: mutants whose comment is put into a block made for it, into
a block without statements, or for the blocks of branches and catch clauses (`C78_block_counterexample`,
`C68_solidity_counterexample`). -/
theorem C78_written_partial (m : Machine S R) (hsh : ∀ l, (m.shuffle l).Perm l) {content : String → S → Option String}
    (hc : Contents m.toSys content) (hw : ∀ f t s, (m.write f t s).1 = true → content f (m.write f t s).2 = some t)
    (env : PrintEnv) (hprint : ∀ j, m.print .solidity j = Language.print env .solidity j)
    (fuel : Nat) (p : Params R) (s s' : S) (base : String)
    (hb : Path.fileName p.fileName = some base) (hs : p.useStdout = false) (ast : Json)
    (hr : (m.reading p s).1 = .ok (.solidity, ast))
    (htmp : ∀ n : Nat, ¬ InTemp m.toSys (Path.join p.outputDirectory (base ++ "_" ++ toString n ++ ".sol")))
    (hout : ∀ (n : Nat) t s, content (Path.join p.outputDirectory (base ++ "_" ++ toString n ++ ".sol")) (m.stdout t s) =
      content (Path.join p.outputDirectory (base ++ "_" ++ toString n ++ ".sol")) s)
    (hok : m.generate fuel p s = (.ok (), s')) :
    ∃ count ≤ p.numberOfMutants, ∀ k : Nat,
      (k < count → ∃ t ∈ p.mutations, ∃ mutator : Mutator R, Solidity.mutatorFor m.env t = some mutator ∧
        ∃ (pos : Pos) (node node' : Json) (rng rng' : R) (rep : MutatorResult) (comment : Option Json) (text : String),
          nodeAt pos ast = some node ∧ mutator.isMutable node = true ∧
          (p.functions ≠ [] → insideListed solidityCtx p.functions pos ast = true) ∧
          mutator.mutate node rng = .ok (node', rep, comment, rng') ∧
          content (Path.join p.outputDirectory (base ++ "_" ++ toString k ++ ".sol")) s' = some text ∧
          (Regular (replaceAt pos node' ast) → OnLines (commentTarget .solidity rep node') (replaceAt pos node' ast) →
            (∀ q n, nodeAt q (replaceAt pos node' ast) = some n → ¬ BranchBlock (commentTarget .solidity rep node') n) →
            ∃ old, printText env.checks (replaceAt pos node' ast) = .ok old ∧ (text.toList = old ∨ LinesAdded old text.toList))) ∧
      (count ≤ k → content (Path.join p.outputDirectory (base ++ "_" ++ toString k ++ ".sol")) s' =
        content (Path.join p.outputDirectory (base ++ "_" ++ toString k ++ ".sol")) s) := by
  have hn : ∀ n : Nat, base ++ "_" ++ toString n ++ "." ++ suffixOf .solidity = base ++ "_" ++ toString n ++ ".sol" := by
    intro n; rw [String.append_assoc (s₂ := ".")]; rfl
  obtain ⟨mutants, h1, h2, h3, h4⟩ := C68_files_partial m hsh hc hw fuel p s s' base hb hs .solidity ast hr
    (fun n => by rw [hn]; exact htmp n) (fun n => by rw [hn]; exact hout n) hok
  refine ⟨mutants.length, h4, fun k => ⟨fun hk => ?_, fun hk => by rw [← hn]; exact h2 k hk⟩⟩
  rcases hget : mutants[k] with ⟨mutant, report⟩
  obtain ⟨⟨t, ht, mu, hmu, pos, nd, nd', rng, rng', rep, comment, num, r1, r2, r3, -, r4, -, r5⟩, text, r6, r7⟩ :=
    h1 k mutant report (by rw [List.getElem?_eq_getElem hk, hget])
  refine ⟨t, ht, mu, hmu, pos, nd, nd', rng, rng', rep, comment, text, r1, r2, r3, r4, by rw [← hn]; exact r7, fun hreg hon hbr => ?_⟩
  have hprinted : printText env.checks mutant = .ok text.toList := text_printed (by rw [← hprint]; exact r6)
  cases r5 with
  | leftOut => exact ⟨_, hprinted, .inl rfl⟩
  | added c after h5 h6 =>
    subst h5
    obtain ⟨note, rfl⟩ := sol_comment_text hmu r4
    obtain ⟨old, e1, e2⟩ := C78_tree_partial _ _ _ note _ hreg hon h6 hprinted
    exact ⟨old, e1, .inr e2⟩
  | garbled c q n x _ _ h5 h6 => exact absurd h6 (hbr q n h5)

/-- **C77.** After a run that ends well for a Solidity source file, each file for a mutant of `DeleteStatement` of a statement that is
printed on one line is the text of the source file with `// ` before that statement, and perhaps with more lines that are comments
or empty.  Missing: statements of several lines and those too long for the line (`C60_mutant_counterexample`,
`C60_long_statement_counterexample`), and the comments missing from C78. -/
theorem C77_written_partial (m : Machine S R) (hsh : ∀ l, (m.shuffle l).Perm l) {content : String → S → Option String}
    (hc : Contents m.toSys content) (hw : ∀ f t s, (m.write f t s).1 = true → content f (m.write f t s).2 = some t)
    (env : PrintEnv) (hprint : ∀ j, m.print .solidity j = Language.print env .solidity j)
    (fuel : Nat) (p : Params R) (s s' : S) (base : String)
    (hb : Path.fileName p.fileName = some base) (hs : p.useStdout = false) (ast : Json)
    (hr : (m.reading p s).1 = .ok (.solidity, ast))
    (htmp : ∀ n : Nat, ¬ InTemp m.toSys (Path.join p.outputDirectory (base ++ "_" ++ toString n ++ ".sol")))
    (hout : ∀ (n : Nat) t s, content (Path.join p.outputDirectory (base ++ "_" ++ toString n ++ ".sol")) (m.stdout t s) =
      content (Path.join p.outputDirectory (base ++ "_" ++ toString n ++ ".sol")) s)
    (hok : m.generate fuel p s = (.ok (), s')) :
    ∃ count ≤ p.numberOfMutants, ∀ k : Nat,
      (k < count → ∃ t ∈ p.mutations, ∃ mutator : Mutator R, Solidity.mutatorFor m.env t = some mutator ∧
        ∃ (pos : Pos) (node node' : Json) (rng rng' : R) (rep : MutatorResult) (comment : Option Json) (text : String),
          nodeAt pos ast = some node ∧ mutator.isMutable node = true ∧
          (p.functions ≠ [] → insideListed solidityCtx p.functions pos ast = true) ∧
          mutator.mutate node rng = .ok (node', rep, comment, rng') ∧
          content (Path.join p.outputDirectory (base ++ "_" ++ toString k ++ ".sol")) s' = some text ∧
          (t = .deleteStatement → ∃ i stmts stmt, nodeAt (pos ++ [i]) ast = some (.arr stmts) ∧ stmt ∈ stmts ∧
            rep.mutatedNodeId = solidityId stmt ∧ ∀ d line,
            levelAt pos ast = some d → printText env.checks stmt = .ok line → '\n' ∉ line → 4 * (d + 1) + 4 + utf8Len line ≤ 150 →
            Regular (replaceAt pos node' ast) → OnLines (commentTarget .solidity rep node') (replaceAt pos node' ast) →
            (∀ q n, nodeAt q (replaceAt pos node' ast) = some n → ¬ BranchBlock (commentTarget .solidity rep node') n) →
            ∃ before old, printText env.checks ast = .ok before ∧ CommentedOut (4 * (d + 1)) line before old ∧
              (text.toList = old ∨ LinesAdded old text.toList))) ∧
      (count ≤ k → content (Path.join p.outputDirectory (base ++ "_" ++ toString k ++ ".sol")) s' =
        content (Path.join p.outputDirectory (base ++ "_" ++ toString k ++ ".sol")) s) := by
  obtain ⟨count, h1, h2⟩ := C78_written_partial m hsh hc hw env hprint fuel p s s' base hb hs ast hr htmp hout hok
  refine ⟨count, h1, fun k => ⟨fun hk => ?_, (h2 k).2⟩⟩
  obtain ⟨t, ht, mu, hmu, pos, nd, nd', rng, rng', rep, comment, text, r1, r2, r3, r4, r5, r6⟩ := (h2 k).1 hk
  refine ⟨t, ht, mu, hmu, pos, nd, nd', rng, rng', rep, comment, text, r1, r2, r3, r4, r5, fun hdel => ?_⟩
  subst hdel
  obtain ⟨i, pre, stmt, post, d1, d2, d3, d4, rfl⟩ := delete_place hmu r2 r4
  have d3' : nodeAt (pos ++ [i]) ast = some (.arr (pre ++ stmt :: post)) := by
    rw [nodeAt_append, r1]; exact d3
  refine ⟨i, _, stmt, d3', by simp, d4, fun d line g1 g2 g3 g4 g5 g6 g7 => ?_⟩
  obtain ⟨old, e1, e2⟩ := r6 g5 g6 g7
  rw [replaceAt_append r1] at e1
  obtain ⟨before, e3, e4⟩ := (C77_tree_partial (checks := env.checks) ast pos nd i d pre post stmt line g1 r1 d2
    (by rw [show getStrForKey "nodeType" nd = some "Block" from d1]; decide) d3' g2 g3 g4).2 old e1
  exact ⟨before, old, e3, e4, e2⟩

/-! ### Examples -/

namespace TextDemo
open DemoMachine Demo

/-- Whether all blocks and contracts of a tree are where they may be. -/
def regular (j : Json) : Bool :=
  (positions j).all fun p => match nodeAt p j with
    | none => true
    | some b => match b.getStrForKey "nodeType" with
      | none => true
      | some t => !["Block", "UncheckedBlock", "ContractDefinition"].contains t || (levelAt p j).isSome

theorem regular_spec {j : Json} (h : regular j = true) : Regular j := by
  rintro p b h1 ⟨t, ht, h2⟩
  have := List.all_eq_true.1 h p (mem_positions.2 (by rw [h1]; rfl))
  simp only [h1, h2, Bool.or_eq_true, Bool.not_eq_true', List.contains_eq_mem, decide_eq_false_iff_not] at this
  exact this.resolve_left fun h => h ht

/-- Whether all bodies of a tree are blocks and no list is empty. -/
def allBlocks (j : Json) : Bool :=
  (preorder j).all fun n => match n with
    | .obj kvs => (statementFields.all fun tk => kvs.all fun kv => n.getStrForKey "nodeType" != some tk.1 || kv.1 != tk.2 ||
        kv.2.getStrForKey "nodeType" == some "Block" || kv.2.getStrForKey "nodeType" == none) &&
      ((statementLists .solidity).all fun tk => kvs.all fun kv => n.getStrForKey "nodeType" != some tk.1 || kv.1 != tk.2 ||
        kv.2 != .arr [])
    | _ => true

theorem allBlocks_spec {j : Json} (h : allBlocks j = true) (id : Nat) : OnLines id j := by
  refine ⟨fun p n i s t h1 h2 h3 h4 h5 _ => ?_, fun p b i h1 h2 _ h3 => ?_⟩
  · obtain ⟨kvs, t', k, rfl, ht, htk, hk, -⟩ := h2
    rw [nodeAt_append, h1] at h3
    have hx : kvs[i]? = some (k, s) := by
      simp only [Option.bind_some, nodeAt, children] at h3
      rw [List.getElem?_map] at hk h3
      cases hx : kvs[i]? with
      | none => rw [hx] at hk; cases hk
      | some x =>
        rw [hx] at hk h3
        simp only [Option.map_some, Option.some.injEq] at hk h3
        rw [← hk, ← h3]
    have h6 := List.all_eq_true.1 h _ (mem_preorder_of_nodeAt h1)
    simp only [Bool.and_eq_true] at h6
    have h7 := List.all_eq_true.1 (List.all_eq_true.1 h6.1 _ htk) _ (List.mem_of_getElem? hx)
    simp [ht, h4, h5] at h7
  · obtain ⟨kvs, t', k, rfl, ht, htk, hk, -⟩ := h2
    rw [nodeAt_append, h1] at h3
    have hx : kvs[i]? = some (k, .arr []) := by
      simp only [Option.bind_some, nodeAt, children] at h3
      rw [List.getElem?_map] at hk h3
      cases hx : kvs[i]? with
      | none => rw [hx] at hk; cases hk
      | some x =>
        rw [hx] at hk h3
        simp only [Option.map_some, Option.some.injEq] at hk h3
        rw [← hk, ← h3]
    have h6 := List.all_eq_true.1 h _ (mem_preorder_of_nodeAt h1)
    simp only [Bool.and_eq_true] at h6
    have h7 := List.all_eq_true.1 (List.all_eq_true.1 h6.2 _ htk) _ (List.mem_of_getElem? hx)
    have ht : getStrForKey "nodeType" (.obj kvs) = some t' := ht
    simp [ht] at h7

/-- The machine with a program that has these statements. -/
def machineFor (js : List Json) : Machine DemoSystem.Disk ListRand :=
  { machine with readJson := fun f d => (d.lookup f).bind fun t => if t = treeText then some (program_ js) else none }

/-- The statements `a + b` and `c`, and a branch without braces. -/
def two : List Json := [statement 20 (sum 21 (variable_ 22 "a") (variable_ 23 "b")), statement 24 (variable_ 25 "c")]
def bare : Json :=
  .obj [("condition", variable_ 20 "c"), ("id", .num (.int 21)), ("nodeType", .str "IfStatement"),
    ("trueBody", statement 22 (sum 23 (variable_ 24 "a") (variable_ 25 "b")))]

/-- The parameters of a run that makes one mutant. -/
def oneOf (t : MutationType) (draws : List Nat) : Params ListRand :=
  { params with numberOfMutants := 1, mutations := [t], verify := false, rng := ⟨draws⟩ }

theorem noCode_spec {l : List Char} (h : Blank l ∨ ∃ n rest, l = List.replicate n ' ' ++ ("//".toList ++ rest)) : noCode l = true := by
  have hd : ∀ (n : Nat) (r : List Char), (List.replicate n ' ' ++ r).dropWhile (· == ' ') = r.dropWhile (· == ' ') := by
    intro n r
    induction n with
    | zero => rfl
    | succ n ih => rw [List.replicate_succ, List.cons_append, List.dropWhile_cons_of_pos (by decide), ih]
  rcases h with ⟨n, rfl⟩ | ⟨n, rest, rfl⟩
  · have := hd n []
    rw [List.append_nil] at this
    simp [noCode, this]
  · have : (List.replicate n ' ' ++ ("//".toList ++ rest)).dropWhile (· == ' ') = '/' :: '/' :: rest := by
      rw [hd]
      show ('/' :: '/' :: rest).dropWhile (· == ' ') = _
      rw [List.dropWhile_cons_of_neg (by decide)]
    simp only [noCode, this]

end TextDemo

/-- **C78 (code).** If lines that are comments or empty were added to a text, then the lines with something else on them are the same. -/
theorem C78_code {text text' : List Char} (h : LinesAdded text text') :
    (Printer.lines text').filter (fun l => !noCode l) = (Printer.lines text).filter (fun l => !noCode l) := by
  obtain ⟨pre, ls, post, rfl, rfl, h⟩ := h
  rw [Printer.lines_newline, Printer.lines_newline, Printer.lines_newline, List.filter_append, List.filter_append, List.filter_append]
  have : (Printer.lines ls).filter (fun l => !noCode l) = [] := by
    rw [List.filter_eq_nil_iff]
    intro l hl
    simp [TextDemo.noCode_spec (h l hl)]
  rw [this, List.nil_append]

/-- **C78 fails** for a branch without braces: a run that is to change an operator in the program
`contract C { function f() public { if(c) a + b; } }` ends well, but the mutant has new lines that are no comments. -/
theorem C78_block_counterexample :
    let r := (TextDemo.machineFor [TextDemo.bare]).generate 100 (TextDemo.oneOf .arithmeticBinaryOp [0, 1, 0, 0]) DemoMachine.disk
    let changed := replaceAt [3] (DemoMachine.statement 22 (setStrForKey "operator" "-"
      (DemoMachine.sum 23 (DemoMachine.variable_ 24 "a") (DemoMachine.variable_ 25 "b")))) TextDemo.bare
    r.1 = .ok () ∧ ∃ old text,
      printText true (DemoMachine.program_ [changed]) = .ok old ∧ r.2.lookup "out/b.sol_0.sol" = some text ∧
      text.toList = ("contract C {\n    function f() public {\n        if(c) {\n            " ++
        "// ArithmeticBinaryOp Mutator: changed '+' to '-'\n            a - b;\n        }\n    }\n}\n\n").toList ∧
      text.toList ≠ old ∧ ¬ LinesAdded old text.toList := by
  refine ⟨by decide +kernel, "contract C {\n    function f() public {\n        if(c) \n            a - b;\n    }\n}\n\n".toList,
    "contract C {\n    function f() public {\n        if(c) {\n            " ++
        "// ArithmeticBinaryOp Mutator: changed '+' to '-'\n            a - b;\n        }\n    }\n}\n\n",
    by decide +kernel, by decide +kernel, rfl, by decide +kernel, fun h => ?_⟩
  exact absurd (C78_code h) (by decide +kernel)

namespace TextDemo
open DemoMachine Demo

theorem contentsFor (js : List Json) : Contents (machineFor js).toSys (fun f d => d.lookup f) where
  write f t s g h := contents.write f t s g h
  remove f s g h := contents.remove f s g h
  exec program args s g h := contents.exec program args s g h

/-- The place of the block in the programs. -/
def blockPos : Pos := [2, 0, 6, 0, 0]

/-- Example: a run that deletes a statement of `contract C { function f() public { a + b; c; } }` meets the hypotheses of
`C77_written_partial`, also those about the place, and the file it writes is the source with one statement made a comment and with lines
that are comments. -/
example :
    let r := (machineFor two).generate 100 (oneOf .deleteStatement [0, 0, 0, 0]) disk
    r.1 = .ok () ∧
    r.2.lookup "out/b.sol_0.sol" = some (textOf "// DeleteStatement Mutator: deleted statement ''\n        // a + b;\n        c;") ∧
    ∃ text line before old, r.2.lookup "out/b.sol_0.sol" = some text ∧ (line = "a + b;".toList ∨ line = "c;".toList) ∧
      printText true (program_ two) = .ok before ∧ CommentedOut 8 line before old ∧
      (text.toList = old ∨ LinesAdded old text.toList) := by
  intro r
  have hok : r.1 = .ok () := by decide +kernel
  have hfile : r.2.lookup "out/b.sol_0.sol" =
    some (textOf "// DeleteStatement Mutator: deleted statement ''\n        // a + b;\n        c;") := by decide +kernel
  refine ⟨hok, hfile, ?_⟩
  have hgen : (machineFor two).generate 100 (oneOf .deleteStatement [0, 0, 0, 0]) disk = (.ok (), r.2) := by
    have hpair : ∀ x : Outcome Unit × DemoSystem.Disk, x.1 = .ok () → x = (.ok (), x.2) := by rintro ⟨a, b⟩ rfl; rfl
    exact hpair _ hok
  have hr : ((machineFor two).reading (oneOf .deleteStatement [0, 0, 0, 0]) disk).1 = .ok (.solidity, program_ two) := by decide +kernel
  have hn : ∀ n : Nat, "b.sol" ++ "_" ++ toString n ++ "." ++ suffixOf .solidity = "b.sol" ++ "_" ++ toString n ++ ".sol" := by
    intro n; rw [String.append_assoc (s₂ := ".")]; rfl
  generalize r.2 = s' at hgen hfile ⊢
  obtain ⟨count, h1, h2⟩ := C77_written_partial (machineFor two) (fun _ => .refl _) (contentsFor two) (fun f t s _ => holds f t s)
    ⟨true, fun _ => ""⟩ (fun _ => rfl) 100 (oneOf .deleteStatement [0, 0, 0, 0]) disk s' "b.sol" (by decide) rfl (program_ two) hr
    (fun n hp => by
      obtain ⟨rest, h⟩ := place_head n
      rw [hn] at h
      unfold InTemp at hp
      have hp : "/tmp".toList <+: (Path.join "out" ("b.sol" ++ "_" ++ toString n ++ ".sol")).toList := hp
      rw [h] at hp
      have := (List.cons_prefix_cons.1 (show '/' :: "tmp".toList <+: 'o' :: rest from hp)).1
      revert this; decide)
    (fun n t s => DemoSystem.lookup_put _ _ _ (fun e => by
      obtain ⟨rest, h⟩ := place_head n
      rw [hn] at h
      have e : Path.join "out" ("b.sol" ++ "_" ++ toString n ++ ".sol") = "stdout" := e
      rw [e] at h
      have h := (List.cons.inj (show 's' :: "tdout".toList = 'o' :: rest from h)).1
      revert h; decide) s)
    hgen
  have hname : Path.join "out" ("b.sol" ++ "_" ++ toString 0 ++ ".sol") = "out/b.sol_0.sol" := by decide +kernel
  have hcount : 0 < count := by
    rcases Nat.eq_zero_or_pos count with h | h
    · have h0 : s'.lookup (Path.join "out" ("b.sol" ++ "_" ++ toString 0 ++ ".sol")) =
        disk.lookup (Path.join "out" ("b.sol" ++ "_" ++ toString 0 ++ ".sol")) := (h2 0).2 (by omega)
      rw [hname, hfile, show disk.lookup "out/b.sol_0.sol" = none by decide +kernel] at h0
      cases h0
    · exact h
  obtain ⟨t, ht, mu, hmu, pos, nd, nd', rng, rng', rep, comment, text, e1, e2, -, e3, e4, e5⟩ := (h2 0).1 hcount
  have ht : t = .deleteStatement := by simpa [oneOf] using ht
  subst ht
  have e4 : s'.lookup (Path.join "out" ("b.sol" ++ "_" ++ toString 0 ++ ".sol")) = some text := e4
  rw [hname] at e4
  have hplace := delete_place hmu e2 e3
  cases hmu
  have hpos : ∀ p ∈ positions (program_ two), (match nodeAt p (program_ two) with
      | none => true
      | some n => !Solidity.deleteStatementMutable n || p == blockPos) = true := by decide +kernel
  have hp := hpos pos (mem_positions.2 (by rw [e1]; rfl))
  rw [e1] at hp
  have e2 : Solidity.deleteStatementMutable nd = true := e2
  simp only [e2, Bool.not_true, Bool.false_or, beq_iff_eq] at hp
  subst hp
  have hnd : nodeAt blockPos (program_ two) = some (.obj [("id", .num (.int 4)), ("nodeType", .str "Block"), ("statements", .arr two)]) := by
    decide +kernel
  rw [hnd] at e1
  cases e1
  obtain ⟨i, pre, stmt, post, -, ⟨kvs, t', k, hkvs, ht', htk, hk, -⟩, g3, -, rfl⟩ := hplace
  have hi : i = 2 := by
    cases hkvs
    have ht' : some "Block" = some t' := ht'
    cases ht'
    have hkk : k = "statements" := by simpa [statementLists] using htk
    subst hkk
    rcases i with _ | _ | _ | i <;> simp at hk ⊢
  subst hi
  have hlist : two = pre ++ stmt :: post := by
    have : some (Json.arr two) = some (.arr (pre ++ stmt :: post)) := g3
    simpa using this
  obtain ⟨i', stmts, stmt', d1, d2, d3, e5⟩ := e5 rfl
  have key : ∀ line, printText true stmt' = .ok line → '\n' ∉ line → utf8Len line ≤ 100 →
      regular (replaceAt blockPos (replaceAt [2] (.arr (pre ++ Solidity.commentNodeFromNode stmt :: post))
        (.obj [("id", .num (.int 4)), ("nodeType", .str "Block"), ("statements", .arr two)])) (program_ two)) = true →
      allBlocks (replaceAt blockPos (replaceAt [2] (.arr (pre ++ Solidity.commentNodeFromNode stmt :: post))
        (.obj [("id", .num (.int 4)), ("nodeType", .str "Block"), ("statements", .arr two)])) (program_ two)) = true →
      noBranch (replaceAt blockPos (replaceAt [2] (.arr (pre ++ Solidity.commentNodeFromNode stmt :: post))
        (.obj [("id", .num (.int 4)), ("nodeType", .str "Block"), ("statements", .arr two)])) (program_ two)) = true →
      (line = "a + b;".toList ∨ line = "c;".toList) → ∃ text line before old, s'.lookup "out/b.sol_0.sol" = some text ∧
        (line = "a + b;".toList ∨ line = "c;".toList) ∧ printText true (program_ two) = .ok before ∧ CommentedOut 8 line before old ∧
        (text.toList = old ∨ LinesAdded old text.toList) := by
    intro line a1 a2 a3 a4 a5 a6 a7
    obtain ⟨before, old, b1, b2, b3⟩ := e5 1 line (by decide +kernel) a1 a2 (by omega) (regular_spec a4) (allBlocks_spec a5 _)
      (fun q n hq => noBranch_spec a6 hq)
    exact ⟨text, line, before, old, e4, a7, b1, b2, b3⟩
  have hstmts : stmts = two := by
    rw [nodeAt_append, hnd] at d1
    rcases i' with _ | _ | _ | i'
    · cases d1
    · cases d1
    · have : some (Json.arr two) = some (.arr stmts) := d1
      simpa using this.symm
    · simp [nodeAt, children] at d1
  subst hstmts
  have hsplit : (pre = [] ∧ stmt = statement 20 (sum 21 (variable_ 22 "a") (variable_ 23 "b")) ∧
      post = [statement 24 (variable_ 25 "c")]) ∨
      (pre = [statement 20 (sum 21 (variable_ 22 "a") (variable_ 23 "b"))] ∧ stmt = statement 24 (variable_ 25 "c") ∧ post = []) := by
    rcases pre with _ | ⟨x, _ | ⟨y, pre⟩⟩
    · simp [two] at hlist
      exact .inl ⟨rfl, hlist.1.symm, hlist.2.symm⟩
    · simp [two] at hlist
      exact .inr ⟨by rw [hlist.1], hlist.2.1.symm, hlist.2.2⟩
    · simp [two] at hlist
  simp only [two, List.mem_cons, List.not_mem_nil, or_false] at d2
  rcases d2 with rfl | rfl <;> rcases hsplit with ⟨rfl, rfl, rfl⟩ | ⟨rfl, rfl, rfl⟩
  · exact key "a + b;".toList (by decide +kernel) (by decide) (by decide) (by decide +kernel) (by decide +kernel) (by decide +kernel) (.inl rfl)
  · exact key "a + b;".toList (by decide +kernel) (by decide) (by decide) (by decide +kernel) (by decide +kernel) (by decide +kernel) (.inl rfl)
  · exact key "c;".toList (by decide +kernel) (by decide) (by decide) (by decide +kernel) (by decide +kernel) (by decide +kernel) (.inr rfl)
  · exact key "c;".toList (by decide +kernel) (by decide) (by decide) (by decide +kernel) (by decide +kernel) (by decide +kernel) (.inr rfl)

end TextDemo
end SolPrint
end Mutagenyx
