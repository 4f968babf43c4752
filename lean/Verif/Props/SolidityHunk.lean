import Verif.Spec.SolidityHunk
import Verif.Props.SolidityText

/-!
# What changes in the text of a Solidity mutant: the lines of one statement (C84)
-/

namespace Mutagenyx
namespace SolPrint
open NodePrinter SolGrammar SolText
open Json hiding field

variable {checks : Bool} {S R : Type} [Rand R]

/-- The level of indentation after some of the calls for a tree that is not nested too deep. -/
theorem level_after {A B : List Op} {q : Printer} (hs : ∀ n, Printer.changes ((A ++ B).take n) ≤ 36) (ha : Above 0 A)
    (h : Printer.run checks A (Printer.new 4 150) = .ok q) : (q.indent : Int) = Printer.changes A := by
  have := Printer.C43_indentation_balances checks 4 150 (by omega) [] A _ q rfl h (fun k => by
    have h1 := ha k
    have h2 := hs (min k A.length)
    rw [List.take_append_of_le_length (Nat.min_le_right _ _), List.take_eq_take_min.symm] at h2
    rw [show (Printer.new 4 150).indent = 0 from rfl]
    constructor
    · simpa using h1
    · simpa using h2)
  simpa [Printer.new] using this

theorem alike_new {A B : List Op} {q r : Printer} (hq : Printer.run checks A (Printer.new 4 150) = .ok q)
    (hr : Printer.run checks B (Printer.new 4 150) = .ok r) (h : q.indent = r.indent) : Printer.Alike q r := by
  obtain ⟨-, h2, h3, h4⟩ := Printer.run_limits hq (Nat.zero_le _)
  obtain ⟨-, g2, g3, g4⟩ := Printer.run_limits hr (Nat.zero_le _)
  exact ⟨by rw [h3, g3], by rw [h4, g4], h, by rw [h2, g2]⟩

/-- What is written for a statement or declaration at the start of a line. -/
theorem row_text {A : List Op} {k : String} {n : Json} {r q : Printer} {e : Nat} {dec : Bool} (hk : k = "nodes" ↔ dec = true)
    (hA : Printer.run checks (A ++ [.newline]) (Printer.new 4 150) = .ok r) (he : r.indent = e)
    (h : Printer.run checks (row checks k n) r = .ok q) : ∃ a, TextAt checks dec e n a ∧ q.out = r.out ++ a := by
  obtain ⟨-, h2, h3, h4⟩ := Printer.run_limits hA (Nat.zero_le _)
  obtain ⟨t, hA, hn⟩ := Printer.run_two hA
  cases hn
  have hb : Printer.base { Printer.new 4 150 with indent := e } = Printer.base t.writeNewline := by
    simp only [Printer.base, Printer.mk.injEq]
    exact ⟨trivial, rfl, h3.symm, h4.symm, he.symm, h2.symm, trivial⟩
  obtain ⟨a, q', g1, g2, g3, -⟩ := Printer.run_elsewhere h hb
  refine ⟨a, ⟨q', ?_, by simpa [Printer.new] using g3⟩, g1⟩
  rw [← g2]
  unfold row
  simp only [hk]

/-- The calls for a tree around one of its statements or declarations. -/
theorem around {p : Pos} {ast b : Json} {i d : Nat} (hd : levelAt p ast = some d) (h1 : nodeAt p ast = some b)
    (h2 : HoldsStatements .solidity b i) {xs : List Json} (h3 : nodeAt (p ++ [i]) ast = some (.arr xs)) :
    ∃ k X Y, (k = "nodes" ↔ b.getStrForKey "nodeType" = some "ContractDefinition") ∧ Printer.EndsTheLine Y ∧
      Printer.changes X = (d + 1 : Nat) ∧ Above 0 X ∧
      ∀ pre s post, ∃ M, Balanced M ∧ Op.newline :: pre.flatMap (fun y => row checks k y ++ gap k) = M ++ [.newline] ∧
        printOps checks {} (replaceAt (p ++ [i]) (.arr (pre ++ s :: post)) ast) =
        ((X ++ M) ++ [.newline]) ++ (row checks k s ++ (post.flatMap (fun y => gap k ++ row checks k y) ++ Y)) := by
  have hb : IsObj b := by obtain ⟨kvs, _, _, rfl, _⟩ := h2; trivial
  obtain ⟨k, X, Y, hk, x1, x2, y, hops⟩ := tree_ops (checks := checks) hd (isObj_of_nodeAt hd h1 hb) h1 h2 h3
  refine ⟨k, X, Y, hk, y, x1, x2, fun pre s post => ?_⟩
  obtain ⟨M, hM, hbal⟩ := rows_before (checks := checks) k pre
  refine ⟨M, hbal, hM, ?_⟩
  rw [hops, ← List.cons_append, hM]
  simp

theorem ends_line {k : String} {Y : List Op} (y : Printer.EndsTheLine Y) (post : List Json) :
    Printer.EndsTheLine (post.flatMap (fun y => gap k ++ row checks k y) ++ Y) := by
  cases post with
  | nil => simpa using y
  | cons q qs =>
    rw [List.flatMap_cons]
    unfold gap
    split
    · exact ⟨_, .inl (by simp only [List.cons_append]; rfl)⟩
    · exact ⟨_, .inl (by simp only [List.cons_append]; rfl)⟩

theorem level_row {X M T : List Op} {d : Nat} (x1 : Printer.changes X = (d + 1 : Nat)) (x2 : Above 0 X) (hM : Balanced M)
    (hT : Balanced T) : Printer.changes (((X ++ M) ++ [Op.newline]) ++ T) = (d + 1 : Nat) ∧ Above 0 (((X ++ M) ++ [Op.newline]) ++ T) := by
  have hn : Printer.changes [Op.newline] = 0 := rfl
  refine ⟨by rw [changes_append, changes_append, changes_append, x1, hM.1, hT.1, hn]; omega, ?_⟩
  have e1 : Printer.changes (X ++ M) = (d + 1 : Nat) := by rw [changes_append, x1, hM.1]; omega
  have e2 : Printer.changes ((X ++ M) ++ [Op.newline]) = (d + 1 : Nat) := by rw [changes_append, e1, hn]; omega
  refine Above.append (Above.append (Above.append x2 ?_) ?_) ?_
  · exact Above.mono hM.2 (by omega)
  · rw [e1]; exact Above.cons (Above.nil (by simp [Printer.change]; omega)) (by omega)
  · rw [e2]; exact Above.mono hT.2 (by omega)

/-- The level of indentation before and after a statement or declaration of a tree. -/
theorem levels {X M T R : List Op} {d : Nat} (x1 : Printer.changes X = (d + 1 : Nat)) (x2 : Above 0 X) (hM : Balanced M)
    (hT : Balanced T) (hs : ∀ n, Printer.changes ((((X ++ M) ++ [Op.newline]) ++ (T ++ R)).take n) ≤ 36) {q : Printer}
    (h : Printer.run checks (((X ++ M) ++ [.newline]) ++ T) (Printer.new 4 150) = .ok q) : q.indent = d + 1 := by
  obtain ⟨l1, l2⟩ := level_row x1 x2 hM hT
  have := level_after (A := ((X ++ M) ++ [.newline]) ++ T) (B := R) (by simpa using hs) l2 h
  omega

theorem balanced_nil : Balanced [] := ⟨rfl, Above.nil (by omega)⟩

theorem balanced_both {a b : List Op} (ha : Balanced a) (hb : Balanced b) : Balanced (a ++ b) := by
  refine ⟨by rw [changes_append, ha.1, hb.1]; rfl, Above.append ha.2 ?_⟩
  rw [ha.1]; exact hb.2

/-- **C84 (trees).** If a statement of a block or a declaration of a contract is replaced by another one, then the text of the tree
changes only in the lines that are written for it.  Missing: trees that are nested deeper than the printer can indent
(`C58_deep_nesting_counterexample`). -/
theorem C84_tree_partial (ast : Json) (p : Pos) (b : Json) (i d : Nat) (pre post : List Json) (stmt stmt' : Json) (text text' : List Char)
    (hd : levelAt p ast = some d) (h1 : nodeAt p ast = some b) (h2 : HoldsStatements .solidity b i)
    (h3 : nodeAt (p ++ [i]) ast = some (.arr (pre ++ stmt :: post))) (h4 : printText checks ast = .ok text)
    (h5 : printText checks (replaceAt (p ++ [i]) (.arr (pre ++ stmt' :: post)) ast) = .ok text')
    (hs : Shallow checks ast) (hs' : Shallow checks (replaceAt (p ++ [i]) (.arr (pre ++ stmt' :: post)) ast)) :
    ∃ old new, TextAt checks (b.getStrForKey "nodeType" == some "ContractDefinition") (d + 1) stmt old ∧
      TextAt checks (b.getStrForKey "nodeType" == some "ContractDefinition") (d + 1) stmt' new ∧ LinesReplaced old new text text' := by
  obtain ⟨k, X, Y, hk, y, x1, x2, hops⟩ := around (checks := checks) hd h1 h2 h3
  have hk : k = "nodes" ↔ (b.getStrForKey "nodeType" == some "ContractDefinition") = true := by rw [hk]; simp
  generalize (b.getStrForKey "nodeType" == some "ContractDefinition") = dec at hk ⊢
  obtain ⟨M, hM, e, e1⟩ := hops pre stmt post
  obtain ⟨M', -, e', e2⟩ := hops pre stmt' post
  have hMM : M' = M := by
    have := e.symm.trans e'
    exact (List.append_cancel_right this).symm
  subst hMM
  rw [replaceAt_self h3] at e1
  have hend := ends_line (checks := checks) (k := k) y post
  generalize post.flatMap (fun y => gap k ++ row checks k y) ++ Y = B at e1 e2 hend
  obtain ⟨q, g1, rfl⟩ := printText_run.1 h4
  obtain ⟨q', g1', rfl⟩ := printText_run.1 h5
  unfold Shallow at hs hs'
  rw [e1] at g1 hs
  rw [e2] at g1' hs'
  obtain ⟨r, g2, g3⟩ := Printer.run_two g1
  obtain ⟨r', g2', g3'⟩ := Printer.run_two g1'
  rw [g2] at g2'
  cases g2'
  obtain ⟨t, g4, g5⟩ := Printer.run_two g3
  obtain ⟨t', g4', g5'⟩ := Printer.run_two g3'
  have hr : r.indent = d + 1 := levels (T := []) (R := row checks k stmt ++ B) x1 x2 hM balanced_nil (by simpa using hs) (by simpa using g2)
  have ht := Printer.run_two' g2 g4
  have ht' := Printer.run_two' g2 g4'
  have i1 : t.indent = d + 1 := levels x1 x2 hM (row_balanced k stmt) hs ht
  have i2 : t'.indent = d + 1 := levels x1 x2 hM (row_balanced k stmt') hs' ht'
  obtain ⟨a, a1, a2⟩ := row_text hk g2 hr g4
  obtain ⟨a', a1', a2'⟩ := row_text hk g2 hr g4'
  obtain ⟨rest, z, z1, z2, z3⟩ := Printer.run_next_line hend (alike_new ht ht' (by rw [i1, i2])) g5
  rw [g5'] at z2
  cases z2
  obtain ⟨w, w1, w2⟩ := Printer.run_two g2
  cases w2
  refine ⟨a, a', a1, a1', w.out, rest, ?_, ?_⟩
  · rw [z1, a2]; simp [Printer.writeNewline]
  · rw [z3, a2']; simp [Printer.writeNewline]

/-- The text between two statements or declarations. -/
theorem between {k : String} {mid : List Json} : ∃ D, (Op.newline :: D = (mid.flatMap (fun y => gap k ++ row checks k y) ++ gap k)) ∧
    ∃ E, Op.newline :: D = E ++ [.newline] ∧ Balanced E := by
  have hg : ∃ g, gap k = .newline :: g ∧ ∃ g', gap k = g' ++ [.newline] ∧ Balanced g' := by
    unfold gap
    split
    · exact ⟨_, rfl, [.newline], rfl, rfl, Above.cons (Above.nil (by simp [Printer.change])) (by omega)⟩
    · exact ⟨_, rfl, [], rfl, balanced_nil⟩
  have hgb : Balanced (gap k) := by
    unfold gap
    split
    · exact ⟨rfl, Above.cons (Above.cons (Above.nil (by simp [Printer.change])) (by simp [Printer.change])) (by omega)⟩
    · exact ⟨rfl, Above.cons (Above.nil (by simp [Printer.change])) (by omega)⟩
  obtain ⟨g, hg1, g', hg2, hg3⟩ := hg
  have hall : ∀ mid : List Json, Balanced (mid.flatMap (fun y => gap k ++ row checks k y)) := by
    intro mid
    induction mid with
    | nil => exact balanced_nil
    | cons x xs ih => rw [List.flatMap_cons]; exact balanced_both (balanced_both hgb (row_balanced k x)) ih
  have hD : ∃ D, Op.newline :: D = mid.flatMap (fun y => gap k ++ row checks k y) ++ gap k := by
    cases mid with
    | nil => exact ⟨g, by simp [hg1]⟩
    | cons x xs => exact ⟨g ++ row checks k x ++ xs.flatMap (fun y => gap k ++ row checks k y) ++ gap k, by
        rw [List.flatMap_cons]; conv => rhs; rw [hg1]
        simp [hg1]⟩
  obtain ⟨D, hD⟩ := hD
  refine ⟨D, hD, mid.flatMap (fun y => gap k ++ row checks k y) ++ g', ?_, balanced_both (hall mid) hg3⟩
  rw [hD, List.append_assoc, ← hg2]

/-- **C84 (swaps).** If two statements of a block or declarations of a contract change places, then the lines that are written for
them change places in the text of the tree, and nothing else changes.  Missing: trees that are nested deeper than the printer can
indent (`C58_deep_nesting_counterexample`). -/
theorem C84_swap_partial (ast : Json) (p : Pos) (b : Json) (i d : Nat) (pre mid post : List Json) (one two : Json)
    (text text' : List Char) (hd : levelAt p ast = some d) (h1 : nodeAt p ast = some b) (h2 : HoldsStatements .solidity b i)
    (h3 : nodeAt (p ++ [i]) ast = some (.arr (pre ++ one :: (mid ++ two :: post)))) (h4 : printText checks ast = .ok text)
    (h5 : printText checks (replaceAt (p ++ [i]) (.arr (pre ++ two :: (mid ++ one :: post))) ast) = .ok text')
    (hs : Shallow checks ast) (hs' : Shallow checks (replaceAt (p ++ [i]) (.arr (pre ++ two :: (mid ++ one :: post))) ast)) :
    ∃ first second, TextAt checks (b.getStrForKey "nodeType" == some "ContractDefinition") (d + 1) one first ∧
      TextAt checks (b.getStrForKey "nodeType" == some "ContractDefinition") (d + 1) two second ∧
      LinesSwapped first second text text' := by
  obtain ⟨k, X, Y, hk, y, x1, x2, hops⟩ := around (checks := checks) hd h1 h2 h3
  have hk : k = "nodes" ↔ (b.getStrForKey "nodeType" == some "ContractDefinition") = true := by rw [hk]; simp
  generalize (b.getStrForKey "nodeType" == some "ContractDefinition") = dec at hk ⊢
  obtain ⟨M, hM, e, e1⟩ := hops pre one (mid ++ two :: post)
  obtain ⟨M', -, e', e2⟩ := hops pre two (mid ++ one :: post)
  have hMM : M' = M := (List.append_cancel_right (e.symm.trans e')).symm
  subst hMM
  rw [replaceAt_self h3] at e1
  have hend := ends_line (checks := checks) (k := k) y post
  obtain ⟨D, hD, E, hE, hEb⟩ := between (checks := checks) (k := k) (mid := mid)
  have hsplit : ∀ x, (mid ++ x :: post).flatMap (fun y => gap k ++ row checks k y) ++ Y =
      (Op.newline :: D) ++ (row checks k x ++ (post.flatMap (fun y => gap k ++ row checks k y) ++ Y)) := by
    intro x
    rw [hD]
    simp
  rw [hsplit] at e1 e2
  generalize post.flatMap (fun y => gap k ++ row checks k y) ++ Y = B at e1 e2 hend
  obtain ⟨q, g1, rfl⟩ := printText_run.1 h4
  obtain ⟨q', g1', rfl⟩ := printText_run.1 h5
  unfold Shallow at hs hs'
  rw [e1] at g1 hs
  rw [e2] at g1' hs'
  have hDb : Balanced (Op.newline :: D) := by
    rw [hE]
    exact balanced_both hEb ⟨rfl, Above.cons (Above.nil (by simp [Printer.change])) (by omega)⟩
  have b1 := row_balanced (checks := checks) k one
  have b2 := row_balanced (checks := checks) k two
  obtain ⟨r, g2, g3⟩ := Printer.run_two g1
  obtain ⟨r', g2', g3'⟩ := Printer.run_two g1'
  rw [g2] at g2'
  cases g2'
  obtain ⟨t, g4, g5⟩ := Printer.run_two g3
  obtain ⟨t', g4', g5'⟩ := Printer.run_two g3'
  obtain ⟨m, g6, g7⟩ := Printer.run_two g5
  obtain ⟨m', g6', g7'⟩ := Printer.run_two g5'
  obtain ⟨u, g8, g9⟩ := Printer.run_two g7
  obtain ⟨u', g8', g9'⟩ := Printer.run_two g7'
  have hr : r.indent = d + 1 := levels (T := []) x1 x2 hM balanced_nil (by simpa using hs) (by simpa using g2)
  have ht := Printer.run_two' g2 g4
  have ht' := Printer.run_two' g2 g4'
  have i1 : t.indent = d + 1 := levels x1 x2 hM b1 hs ht
  have i2 : t'.indent = d + 1 := levels x1 x2 hM b2 hs' ht'
  have hm := Printer.run_two' g2 (Printer.run_two' g4 g6)
  have hm' := Printer.run_two' g2 (Printer.run_two' g4' g6')
  have i3 : m.indent = d + 1 := levels (R := row checks k two ++ B) x1 x2 hM (balanced_both b1 hDb) (by simpa using hs) hm
  have i4 : m'.indent = d + 1 := levels (R := row checks k one ++ B) x1 x2 hM (balanced_both b2 hDb) (by simpa using hs') hm'
  have hu := Printer.run_two' g2 (Printer.run_two' g4 (Printer.run_two' g6 g8))
  have hu' := Printer.run_two' g2 (Printer.run_two' g4' (Printer.run_two' g6' g8'))
  have i5 : u.indent = d + 1 := levels (R := B) x1 x2 hM (balanced_both b1 (balanced_both hDb b2)) (by simpa using hs) hu
  have i6 : u'.indent = d + 1 := levels (R := B) x1 x2 hM (balanced_both b2 (balanced_both hDb b1)) (by simpa using hs') hu'
  obtain ⟨a, a1, a2⟩ := row_text hk g2 hr g4
  obtain ⟨c, c1, c2⟩ := row_text hk g2 hr g4'
  obtain ⟨a', a1', a2'⟩ := row_text (A := ((X ++ M') ++ [Op.newline]) ++ (row checks k two ++ E)) hk (by
    have := hm'
    rw [hE] at this
    simpa using this) i4 g8'
  obtain ⟨c', c1', c2'⟩ := row_text (A := ((X ++ M') ++ [Op.newline]) ++ (row checks k one ++ E)) hk (by
    have := hm
    rw [hE] at this
    simpa using this) i3 g8
  have ha : a' = a := by
    obtain ⟨z, z1, z2⟩ := a1
    obtain ⟨z', z1', z2'⟩ := a1'
    rw [z1] at z1'
    cases z1'
    rw [← z2, ← z2']
  have hc : c' = c := by
    obtain ⟨z, z1, z2⟩ := c1
    obtain ⟨z', z1', z2'⟩ := c1'
    rw [z1] at z1'
    cases z1'
    rw [← z2, ← z2']
  subst ha hc
  obtain ⟨gap', z, z1, z2, z3⟩ := Printer.run_next_line ⟨D, .inl rfl⟩ (alike_new ht ht' (by rw [i1, i2])) g6
  rw [g6'] at z2
  cases z2
  obtain ⟨rest, v, v1, v2, v3⟩ := Printer.run_next_line hend (alike_new hu hu' (by rw [i5, i6])) g9
  rw [g9'] at v2
  cases v2
  obtain ⟨w, w1, w2⟩ := Printer.run_two g2
  cases w2
  refine ⟨a', c', a1, c1, w.out, '\n' :: gap', rest, rfl, ?_, ?_, ?_⟩
  · rw [hE] at g6
    obtain ⟨l, l1, l2⟩ := Printer.run_two g6
    cases l2
    have hl : (t.out ++ '\n' :: gap').getLast? = (l.out ++ ['\n']).getLast? := by rw [← z1]; rfl
    rw [List.getLast?_append, List.getLast?_append] at hl
    simpa using hl
  · rw [v1, c2', z1, a2]; simp [Printer.writeNewline]
  · rw [v3, a2', z3, c2]; simp [Printer.writeNewline]

/-- One line at a level of indentation. -/
theorem C84_line {e : Nat} {n : Json} {a line : List Char} (h : TextAt checks false e n a) (hs : printText checks n = .ok line)
    (hn : '\n' ∉ line) (hfit : 4 * e + 1 + utf8Len line ≤ 150) : a = List.replicate (4 * e) ' ' ++ line := by
  obtain ⟨alone, hs1, hs2⟩ := printText_run.1 hs
  obtain ⟨q, h1, h2⟩ := h
  simp only [Bool.false_eq_true, false_and, if_false, List.append_nil] at h1
  obtain ⟨r, h3, h4⟩ := Printer.run_two (a := [.indent]) (b := printOps checks {} n) h1
  have h5 : r = ({ Printer.new 4 150 with indent := e } : Printer).writeIndent := by
    have : Outcome.ok ({ Printer.new 4 150 with indent := e } : Printer).writeIndent = Outcome.ok r := h3
    cases this
    rfl
  have hout : r.out = List.replicate (4 * e) ' ' ∧ r.column = 1 + 4 * e ∧ r.pageWidth = 150 := by
    subst h5
    have hl : utf8Len (List.replicate (4 * e) ' ') = 4 * e := utf8Len_replicate_space _
    unfold Printer.writeIndent Printer.indentString Printer.indentLength
    simp only [Printer.new, Nat.mul_comm e 4]
    split
    · rename_i he
      have he : List.replicate (4 * e) ' ' = [] := List.isEmpty_iff.1 he
      have : 4 * e = 0 := by rw [← hl, he]; rfl
      exact ⟨he.symm, by simp only; omega, rfl⟩
    · refine ⟨rfl, ?_, rfl⟩
      simp only [Printer.basic]
      rw [hl]
  obtain ⟨t, t1, t2, -, -⟩ := Printer.run_again (anchored_printOps checks {} n) hs1 (by rw [hs2]; rfl) hn (r := r) (by
    rw [hout.2.1, hout.2.2]; omega)
  rw [h4] at t1
  cases t1
  rw [← h2, t2, hout.1]

/-! ### Mutations of blocks -/

/-- What it means for a block to take its statements out and to put others in. -/
theorem block_place {kvs : List (String × Json)} {ss : List Json} {j1 : Json} (hty : getStrForKey "nodeType" (.obj kvs) = some "Block")
    (h : takeValueForKey "statements" (.obj kvs) = (some (.arr ss), j1)) :
    ∃ i, HoldsStatements .solidity (.obj kvs) i ∧ nodeAt [i] (.obj kvs) = some (.arr ss) ∧
      ∀ ss', setNodeForKey "statements" (.arr ss') j1 = replaceAt [i] (.arr ss') (.obj kvs) := by
  have hfst : (takeValueForKey "statements" (.obj kvs)).1 = objGet "statements" kvs := by
    rw [takeValueForKey_fst, get?_obj (by decide)]
  have hsnd := takeValueForKey_snd (k := "statements") (by decide) (.obj kvs)
  rw [h] at hfst hsnd
  simp only at hfst hsnd
  obtain ⟨i, c1, c2, c3, c4⟩ := children_of_field hfst.symm
  refine ⟨i, ⟨kvs, "Block", "statements", rfl, hty, by decide, c3, c4⟩, c1, fun ss' => ?_⟩
  have hhas : (get? "statements" (.obj kvs)).isSome = true := by rw [get?_obj (by decide), ← hfst]; rfl
  rw [c2, hsnd, if_pos hhas]
  unfold setNodeForKey
  have hhas' : (get? "statements" (stepSet "statements" .null (.obj kvs))).isSome = true := by
    simp only [stepSet]
    rw [get?_obj (by decide), objGet_objReplace]
    rw [get?_obj (by decide)] at hhas
    simp [hhas]
  rw [pointerSet_plain (by decide), if_pos hhas']
  simp only [stepSet, objReplace_objReplace]

theorem block_obj {j : Json} (h : Solidity.hasType "Block" j = true) :
    ∃ kvs, j = .obj kvs ∧ getStrForKey "nodeType" (.obj kvs) = some "Block" := by
  obtain ⟨kvs, rfl⟩ := isObj_iff.1 (isKind_isObj (solidity_hasType.1 h))
  refine ⟨kvs, rfl, ?_⟩
  unfold Solidity.hasType at h
  simpa using h

/-- What `SwapLines` does to a block. -/
theorem swap_place {env : MutEnv} {m : Mutator R} (hm : Solidity.mutatorFor env .swapLines = some m) {node node' : Json}
    (hmu : m.isMutable node = true) {rng rng' : R} {rep : MutatorResult} {comment : Option Json}
    (h : m.mutate node rng = .ok (node', rep, comment, rng')) :
    ∃ i pre one mid two post, IsA "Block" node ∧ HoldsStatements .solidity node i ∧
      nodeAt [i] node = some (.arr (pre ++ one :: (mid ++ two :: post))) ∧
      node' = replaceAt [i] (.arr (pre ++ two :: (mid ++ one :: post))) node := by
  cases hm
  simp only [Solidity.swapLinesMutable, Bool.and_eq_true] at hmu
  obtain ⟨kvs, rfl, hty⟩ := block_obj hmu.1
  simp only [Solidity.swapLinesMutate] at h
  split at h
  · rename_i ss j1 heq
    obtain ⟨i, i1, i2, i3⟩ := block_place hty heq
    split at h
    · rename_i first r1 hf
      split at h
      · rename_i second r2 hsec
        split at h
        · cases h
        · rename_i a b ss' hx
          simp only [Outcome.ok.injEq, Prod.mk.injEq] at h
          obtain ⟨rfl, -⟩ := h
          have hne : first ≠ second := by
            have := (drawUntil_ok hsec).2
            simp only [Bool.and_eq_true, bne_iff_ne] at this
            exact Ne.symm this.1
          obtain ⟨h3, -, -⟩ := exchange_eq hne hx
          obtain ⟨pre, x, mid, y, post, -, -, rfl, rfl⟩ := VyPrint.exchanged_parts h3 (fun _ => True) (fun _ _ => trivial) (fun _ _ => trivial)
          exact ⟨i, pre, x, mid, y, post, hty, i1, i2, i3 _⟩
      all_goals cases h
    all_goals cases h
  · cases h

/-- What `UncheckedBlock` does to a block. -/
theorem unchecked_place {env : MutEnv} {m : Mutator R} (hm : Solidity.mutatorFor env .uncheckedBlock = some m) {node node' : Json}
    (hmu : m.isMutable node = true) {rng rng' : R} {rep : MutatorResult} {comment : Option Json}
    (h : m.mutate node rng = .ok (node', rep, comment, rng')) :
    ∃ i pre stmt post id, IsA "Block" node ∧ HoldsStatements .solidity node i ∧ nodeAt [i] node = some (.arr (pre ++ stmt :: post)) ∧
      node' = replaceAt [i] (.arr (pre ++ Solidity.uncheckedBlockNode [stmt] id :: post)) node := by
  cases hm
  simp only [Solidity.uncheckedBlockMutable, Bool.and_eq_true] at hmu
  obtain ⟨kvs, rfl, hty⟩ := block_obj hmu.1
  simp only [Solidity.uncheckedBlockMutate] at h
  split at h
  · rename_i ss j1 heq
    obtain ⟨i, i1, i2, i3⟩ := block_place hty heq
    split at h
    · rename_i k v rest r1 hd
      simp only [Outcome.ok.injEq, Prod.mk.injEq] at h
      obtain ⟨rfl, -⟩ := h
      obtain ⟨hv, rfl, -, -⟩ := uncheckedDraw_ok hd
      have hlt : k < ss.length := (List.getElem?_eq_some_iff.1 hv).1
      have hss : ss = ss.take k ++ v :: ss.drop (k + 1) := by
        rw [← (List.getElem?_eq_some_iff.1 hv).2]
        simp
      refine ⟨i, ss.take k, v, ss.drop (k + 1), i64AsU64 ((v.getIntForKey "id").getD 9999999), hty, i1, by rw [← hss]; exact i2, ?_⟩
      rw [eraseIdx_insertIdx_self _ _ _ hlt, List.set_eq_take_append_cons_drop, if_pos hlt]
      exact i3 _
    all_goals cases h
  · cases h

/-! ### Runs -/

/-- The tree with another node in it, seen from a statement or declaration around that node. -/
theorem replace_inside {ast node node' : Json} {q r : Pos} {i m : Nat} {stmts : List Json}
    (h1 : nodeAt (q ++ i :: m :: r) ast = some node) (h2 : nodeAt (q ++ [i]) ast = some (.arr stmts)) :
    ∃ pre stmt post, stmts = pre ++ stmt :: post ∧ stmts[m]? = some stmt ∧
      replaceAt (q ++ i :: m :: r) node' ast = replaceAt (q ++ [i]) (.arr (pre ++ replaceAt r node' stmt :: post)) ast := by
  have e : q ++ i :: m :: r = (q ++ [i]) ++ m :: r := by simp
  rw [e, nodeAt_append, h2] at h1
  simp only [Option.bind_some, nodeAt, children] at h1
  cases hm : stmts[m]? with
  | none => rw [hm] at h1; cases h1
  | some stmt =>
    have hlt : m < stmts.length := (List.getElem?_eq_some_iff.1 hm).1
    refine ⟨stmts.take m, stmt, stmts.drop (m + 1), ?_, rfl, ?_⟩
    · rw [← (List.getElem?_eq_some_iff.1 hm).2]; simp
    · rw [e, ← replaceAt_append h2]
      simp only [replaceAt, children, hm, setChildren]
      rw [List.set_eq_take_append_cons_drop, if_pos hlt]

/-- **C84.** After a run that ends well for a Solidity source file, the text of each mutant differs from the text of the source file
only in the lines of one statement or declaration around the mutated node, and in added lines that are comments or empty.  For
`SwapLines`, the lines of two statements change places; for `DeleteStatement` and `UncheckedBlock`, the lines of one statement of the
block are replaced by those of a comment and of an unchecked block.  Missing: trees nested deeper than the printer can indent
(`C58_deep_nesting_counterexample`), and the comments missing from C78. -/
theorem C84_written_partial (m : Machine S R) (hsh : ∀ l, (m.shuffle l).Perm l) {content : String → S → Option String}
    (hc : Contents m.toSys content) (hw : ∀ f t s, (m.write f t s).1 = true → content f (m.write f t s).2 = some t)
    (env : PrintEnv) (hprint : ∀ j, m.print .solidity j = Language.print env .solidity j)
    (fuel : Nat) (p : Params R) (s s' : S) (base : String)
    (hb : Path.fileName p.fileName = some base) (hs : p.useStdout = false) (ast : Json)
    (hr : (m.reading p s).1 = .ok (.solidity, ast))
    (htmp : ∀ n : Nat, ¬ InTemp m.toSys (Path.join p.outputDirectory (base ++ "_" ++ toString n ++ ".sol")))
    (hout : ∀ (n : Nat) t s, content (Path.join p.outputDirectory (base ++ "_" ++ toString n ++ ".sol")) (m.stdout t s) =
      content (Path.join p.outputDirectory (base ++ "_" ++ toString n ++ ".sol")) s)
    (hok : m.generate fuel p s = (.ok (), s')) :
    ∃ count ≤ p.numberOfMutants, (∀ k ≥ count, content (Path.join p.outputDirectory (base ++ "_" ++ toString k ++ ".sol")) s' =
        content (Path.join p.outputDirectory (base ++ "_" ++ toString k ++ ".sol")) s) ∧
      ∀ k < count, ∃ t ∈ p.mutations, ∃ mutator : Mutator R, Solidity.mutatorFor m.env t = some mutator ∧
        ∃ (pos : Pos) (node node' : Json) (rng rng' : R) (rep : MutatorResult) (comment : Option Json) (text : String),
          nodeAt pos ast = some node ∧ mutator.isMutable node = true ∧ mutator.mutate node rng = .ok (node', rep, comment, rng') ∧
          content (Path.join p.outputDirectory (base ++ "_" ++ toString k ++ ".sol")) s' = some text ∧
          ∀ before, printText env.checks ast = .ok before → Shallow env.checks ast → Shallow env.checks (replaceAt pos node' ast) →
            Regular (replaceAt pos node' ast) → OnLines (commentTarget .solidity rep node') (replaceAt pos node' ast) →
            (∀ q n, nodeAt q (replaceAt pos node' ast) = some n → ¬ BranchBlock (commentTarget .solidity rep node') n) →
            ∃ after, (text.toList = after ∨ LinesAdded after text.toList) ∧
              (∀ q i n r b d stmts, pos = q ++ i :: n :: r → nodeAt q ast = some b → HoldsStatements .solidity b i →
                nodeAt (q ++ [i]) ast = some (.arr stmts) → levelAt q ast = some d →
                ∃ stmt old new, stmts[n]? = some stmt ∧
                  TextAt env.checks (b.getStrForKey "nodeType" == some "ContractDefinition") (d + 1) stmt old ∧
                  TextAt env.checks (b.getStrForKey "nodeType" == some "ContractDefinition") (d + 1) (replaceAt r node' stmt) new ∧
                  LinesReplaced old new before after) ∧
              (t = .swapLines → ∀ d, levelAt pos ast = some d → ∃ i pre one mid two post first second,
                nodeAt (pos ++ [i]) ast = some (.arr (pre ++ one :: (mid ++ two :: post))) ∧
                TextAt env.checks false (d + 1) one first ∧ TextAt env.checks false (d + 1) two second ∧
                LinesSwapped first second before after) ∧
              (t = .deleteStatement ∨ t = .uncheckedBlock → ∀ d, levelAt pos ast = some d → ∃ i pre stmt stmt' post old new,
                nodeAt (pos ++ [i]) ast = some (.arr (pre ++ stmt :: post)) ∧
                (t = .deleteStatement → stmt' = Solidity.commentNodeFromNode stmt) ∧
                (t = .uncheckedBlock → ∃ id, stmt' = Solidity.uncheckedBlockNode [stmt] id) ∧
                TextAt env.checks false (d + 1) stmt old ∧ TextAt env.checks false (d + 1) stmt' new ∧
                LinesReplaced old new before after) := by
  obtain ⟨count, h1, h2⟩ := C78_written_partial m hsh hc hw env hprint fuel p s s' base hb hs ast hr htmp hout hok
  refine ⟨count, h1, fun k hk => (h2 k).2 hk, fun k hk => ?_⟩
  obtain ⟨t, ht, mu, hmu, pos, nd, nd', rng, rng', rep, comment, text, r1, r2, -, r4, r5, r6⟩ := (h2 k).1 hk
  refine ⟨t, ht, mu, hmu, pos, nd, nd', rng, rng', rep, comment, text, r1, r2, r4, r5, fun before g1 g2 g3 g4 g5 g6 => ?_⟩
  obtain ⟨after, e1, e2⟩ := r6 g4 g5 g6
  refine ⟨after, e2, fun q i n r b d stmts c1 c2 c3 c4 c5 => ?_, fun htt d hd => ?_, fun htt d hd => ?_⟩
  · subst c1
    obtain ⟨pre, stmt, post, d1, d2, d3⟩ := replace_inside (node' := nd') r1 c4
    subst d1
    rw [d3] at e1 g3
    obtain ⟨old, new, f1, f2, f3⟩ := C84_tree_partial ast q b i d pre post stmt _ before after c5 c2 c3 c4 g1 e1 g2 g3
    exact ⟨stmt, old, new, d2, f1, f2, f3⟩
  · subst htt
    obtain ⟨i, pre, one, mid, two, post, d1, d2, d3, rfl⟩ := swap_place hmu r2 r4
    have d3' : nodeAt (pos ++ [i]) ast = some (.arr (pre ++ one :: (mid ++ two :: post))) := by
      rw [nodeAt_append, r1]; exact d3
    rw [replaceAt_append r1] at e1 g3
    obtain ⟨first, second, f1, f2, f3⟩ := C84_swap_partial ast pos nd i d pre mid post one two before after hd r1 d2 d3' g1 e1 g2 g3
    rw [show getStrForKey "nodeType" nd = some "Block" from d1] at f1 f2
    exact ⟨i, pre, one, mid, two, post, first, second, d3', f1, f2, f3⟩
  · have key : ∃ i pre stmt stmt' post, IsA "Block" nd ∧ HoldsStatements .solidity nd i ∧ nodeAt [i] nd = some (.arr (pre ++ stmt :: post)) ∧
        (t = .deleteStatement → stmt' = Solidity.commentNodeFromNode stmt) ∧
        (t = .uncheckedBlock → ∃ id, stmt' = Solidity.uncheckedBlockNode [stmt] id) ∧
        nd' = replaceAt [i] (.arr (pre ++ stmt' :: post)) nd := by
      rcases htt with rfl | rfl
      · obtain ⟨i, pre, stmt, post, d1, d2, d3, -, d5⟩ := delete_place hmu r2 r4
        exact ⟨i, pre, stmt, _, post, d1, d2, d3, fun _ => rfl, fun h => (by cases h), d5⟩
      · obtain ⟨i, pre, stmt, post, id, d1, d2, d3, d5⟩ := unchecked_place hmu r2 r4
        exact ⟨i, pre, stmt, _, post, d1, d2, d3, fun h => (by cases h), fun _ => ⟨id, rfl⟩, d5⟩
    obtain ⟨i, pre, stmt, stmt', post, d1, d2, d3, d4, d5, rfl⟩ := key
    have d3' : nodeAt (pos ++ [i]) ast = some (.arr (pre ++ stmt :: post)) := by
      rw [nodeAt_append, r1]; exact d3
    rw [replaceAt_append r1] at e1 g3
    obtain ⟨old, new, f1, f2, f3⟩ := C84_tree_partial ast pos nd i d pre post stmt stmt' before after hd r1 d2 d3' g1 e1 g2 g3
    rw [show getStrForKey "nodeType" nd = some "Block" from d1] at f1 f2
    exact ⟨i, pre, stmt, stmt', post, old, new, d3', d4, d5, f1, f2, f3⟩

/-! ### Examples -/

namespace HunkDemo
open DemoMachine Demo TextDemo

/-- Whether a tree is not nested deeper than the printer can indent. -/
def shallow (checks : Bool) (j : Json) : Bool :=
  (List.range ((printOps checks {} j).length + 1)).all fun n => decide (Printer.changes ((printOps checks {} j).take n) ≤ 36)

theorem shallow_spec {j : Json} (h : shallow checks j = true) : Shallow checks j := by
  intro n
  have := List.all_eq_true.1 h (min n (printOps checks {} j).length) (List.mem_range.2 (by omega))
  rw [← List.take_eq_take_min] at this
  simpa using this

/-- Example: the statement `a + b` of the program becomes `c`. -/
example : ∃ before after, printText true (program_ two) = .ok before ∧
    printText true (replaceAt (blockPos ++ [2]) (.arr ([] ++ statement 30 (variable_ 31 "c") :: [statement 24 (variable_ 25 "c")])) (program_ two)) =
      .ok after ∧ LinesReplaced "        a + b;".toList "        c;".toList before after := by
  obtain ⟨before, h1⟩ : ∃ before, printText true (program_ two) = .ok before :=
    ⟨"contract C {\n    function f() public {\n        a + b;\n        c;\n    }\n}\n\n".toList, by decide +kernel⟩
  obtain ⟨after, h2⟩ : ∃ after, printText true (replaceAt (blockPos ++ [2])
      (.arr ([] ++ statement 30 (variable_ 31 "c") :: [statement 24 (variable_ 25 "c")])) (program_ two)) = .ok after :=
    ⟨"contract C {\n    function f() public {\n        c;\n        c;\n    }\n}\n\n".toList, by decide +kernel⟩
  obtain ⟨old, new, e1, e2, e3⟩ := C84_tree_partial (checks := true) (program_ two) blockPos
    (.obj [("id", .num (.int 4)), ("nodeType", .str "Block"), ("statements", .arr two)]) 2 1 []
    [statement 24 (variable_ 25 "c")] (statement 20 (sum 21 (variable_ 22 "a") (variable_ 23 "b"))) (statement 30 (variable_ 31 "c"))
    before after (by decide +kernel) (by decide +kernel)
    ⟨_, "Block", "statements", rfl, rfl, by decide, rfl, by decide⟩ (by decide +kernel) h1 h2
    (shallow_spec (by decide +kernel)) (shallow_spec (by decide +kernel))
  have e1 := C84_line (line := "a + b;".toList) e1 (by decide +kernel) (by decide) (by decide)
  have e2 := C84_line (line := "c;".toList) e2 (by decide +kernel) (by decide) (by decide)
  subst e1 e2
  exact ⟨before, after, h1, h2, e3⟩

/-- Example: a run that swaps the statements of `contract C { function f() public { a + b; c; } }` meets the hypotheses of
`C84_written_partial`, also those about the tree; in the file it writes, the two lines changed places and there is a comment. -/
example :
    let r := (machineFor two).generate 100 (oneOf .swapLines [0, 0, 1, 0, 0, 0]) disk
    r.1 = .ok () ∧ r.2.lookup "out/b.sol_0.sol" = some (textOf "// SwapLines Mutator: swapped line '' with line ''\n        c;\n        a + b;") ∧
    ∃ text before after, r.2.lookup "out/b.sol_0.sol" = some text ∧ printText true (program_ two) = .ok before ∧
      LinesSwapped "        a + b;".toList "        c;".toList before after ∧
      (text.toList = after ∨ LinesAdded after text.toList) := by
  intro r
  have hok : r.1 = .ok () := by decide +kernel
  have hfile : r.2.lookup "out/b.sol_0.sol" =
    some (textOf "// SwapLines Mutator: swapped line '' with line ''\n        c;\n        a + b;") := by decide +kernel
  refine ⟨hok, hfile, ?_⟩
  have hgen : (machineFor two).generate 100 (oneOf .swapLines [0, 0, 1, 0, 0, 0]) disk = (.ok (), r.2) := by
    have hpair : ∀ x : Outcome Unit × DemoSystem.Disk, x.1 = .ok () → x = (.ok (), x.2) := by rintro ⟨a, b⟩ rfl; rfl
    exact hpair _ hok
  have hr : ((machineFor two).reading (oneOf .swapLines [0, 0, 1, 0, 0, 0]) disk).1 = .ok (.solidity, program_ two) := by decide +kernel
  have hn : ∀ n : Nat, "b.sol" ++ "_" ++ toString n ++ "." ++ suffixOf .solidity = "b.sol" ++ "_" ++ toString n ++ ".sol" := by
    intro n; rw [String.append_assoc (s₂ := ".")]; rfl
  generalize r.2 = s' at hgen hfile ⊢
  have htmp : ∀ n : Nat, ¬ InTemp (machineFor two).toSys (Path.join "out" ("b.sol" ++ "_" ++ toString n ++ ".sol")) := fun n hp => by
    obtain ⟨rest, h⟩ := place_head n
    rw [hn] at h
    unfold InTemp at hp
    have hp : "/tmp".toList <+: (Path.join "out" ("b.sol" ++ "_" ++ toString n ++ ".sol")).toList := hp
    rw [h] at hp
    have := (List.cons_prefix_cons.1 (show '/' :: "tmp".toList <+: 'o' :: rest from hp)).1
    revert this; decide
  have hstd : ∀ (n : Nat) t s, ((machineFor two).stdout t s).lookup (Path.join "out" ("b.sol" ++ "_" ++ toString n ++ ".sol")) =
      s.lookup (Path.join "out" ("b.sol" ++ "_" ++ toString n ++ ".sol")) := fun n t s => DemoSystem.lookup_put _ _ _ (fun e => by
    obtain ⟨rest, h⟩ := place_head n
    rw [hn] at h
    have e : Path.join "out" ("b.sol" ++ "_" ++ toString n ++ ".sol") = "stdout" := e
    rw [e] at h
    have h := (List.cons.inj (show 's' :: "tdout".toList = 'o' :: rest from h)).1
    revert h; decide) s
  have hname : Path.join "out" ("b.sol" ++ "_" ++ toString 0 ++ ".sol") = "out/b.sol_0.sol" := by decide +kernel
  obtain ⟨count, -, h1, h2⟩ := C84_written_partial (machineFor two) (fun _ => .refl _) (contentsFor two) (fun f t s _ => holds f t s)
    ⟨true, fun _ => ""⟩ (fun _ => rfl) 100 (oneOf .swapLines [0, 0, 1, 0, 0, 0]) disk s' "b.sol" (by decide) rfl (program_ two) hr
    htmp hstd hgen
  have hcount : 0 < count := by
    rcases Nat.eq_zero_or_pos count with h | h
    · have h0 : s'.lookup (Path.join "out" ("b.sol" ++ "_" ++ toString 0 ++ ".sol")) =
        disk.lookup (Path.join "out" ("b.sol" ++ "_" ++ toString 0 ++ ".sol")) := h1 0 (by omega)
      rw [hname, hfile, show disk.lookup "out/b.sol_0.sol" = none by decide +kernel] at h0
      cases h0
    · exact h
  obtain ⟨t, ht, mu, hmu, pos, nd, nd', rng, rng', rep, comment, text, e1, e2, e3, e4, e5⟩ := h2 0 hcount
  have ht : t = .swapLines := by simpa [oneOf] using ht
  subst ht
  have e4 : s'.lookup (Path.join "out" ("b.sol" ++ "_" ++ toString 0 ++ ".sol")) = some text := e4
  rw [hname] at e4
  have hplace := swap_place hmu e2 e3
  cases hmu
  have hpos : ∀ p ∈ positions (program_ two), (match nodeAt p (program_ two) with
      | none => true
      | some n => !Solidity.swapLinesMutable n || p == blockPos) = true := by decide +kernel
  have hp := hpos pos (mem_positions.2 (by rw [e1]; rfl))
  rw [e1] at hp
  have e2 : Solidity.swapLinesMutable nd = true := e2
  simp only [e2, Bool.not_true, Bool.false_or, beq_iff_eq] at hp
  subst hp
  have hnd : nodeAt blockPos (program_ two) = some (.obj [("id", .num (.int 4)), ("nodeType", .str "Block"), ("statements", .arr two)]) := by
    decide +kernel
  rw [hnd] at e1
  cases e1
  have hlist : ∀ (i : Nat) (xs : List Json), nodeAt [i] (.obj [("id", .num (.int 4)), ("nodeType", .str "Block"), ("statements", .arr two)]) =
      some (.arr xs) → i = 2 ∧ xs = two := by
    intro i xs h
    rcases i with _ | _ | _ | i
    · cases h
    · cases h
    · have : some (Json.arr two) = some (.arr xs) := h
      exact ⟨rfl, by simpa using this.symm⟩
    · simp [nodeAt, children] at h
  have hparts : ∀ pre one mid two' post, pre ++ one :: (mid ++ two' :: post) = two → pre = [] ∧ mid = [] ∧ post = [] ∧
      one = statement 20 (sum 21 (variable_ 22 "a") (variable_ 23 "b")) ∧ two' = statement 24 (variable_ 25 "c") := by
    intro pre one mid two' post h
    have hl := congrArg List.length h
    simp only [two, List.length_append, List.length_cons, List.length_nil] at hl
    have h1 : pre = [] := List.eq_nil_of_length_eq_zero (by omega)
    have h2 : mid = [] := List.eq_nil_of_length_eq_zero (by omega)
    have h3 : post = [] := List.eq_nil_of_length_eq_zero (by omega)
    subst h1 h2 h3
    simp only [two, List.nil_append, List.cons.injEq, and_true] at h
    exact ⟨rfl, rfl, rfl, h.1, h.2⟩
  obtain ⟨i, pre, one, mid, two', post, -, -, g3, rfl⟩ := hplace
  obtain ⟨rfl, g4⟩ := hlist i _ g3
  obtain ⟨rfl, rfl, rfl, rfl, rfl⟩ := hparts _ _ _ _ _ g4
  obtain ⟨after, b1, -, b3, -⟩ := e5 "contract C {\n    function f() public {\n        a + b;\n        c;\n    }\n}\n\n".toList
    (by decide +kernel) (shallow_spec (by decide +kernel)) (shallow_spec (by decide +kernel)) (regular_spec (by decide +kernel))
    (allBlocks_spec (by decide +kernel) _) (fun q n hq => noBranch_spec (by decide +kernel) hq)
  obtain ⟨i, pre, one, mid, two', post, first, second, d1, d2, d3, d4⟩ := b3 rfl 1 (by decide +kernel)
  rw [nodeAt_append, hnd] at d1
  obtain ⟨rfl, d5⟩ := hlist i _ d1
  obtain ⟨rfl, rfl, rfl, rfl, rfl⟩ := hparts _ _ _ _ _ d5
  have c1 := C84_line (line := "a + b;".toList) d2 (by decide +kernel) (by decide) (by decide)
  have c2 := C84_line (line := "c;".toList) d3 (by decide +kernel) (by decide) (by decide)
  subst c1 c2
  exact ⟨text, _, after, e4, by decide +kernel, d4, b1⟩

end HunkDemo
end SolPrint
end Mutagenyx
