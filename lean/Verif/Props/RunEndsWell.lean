import Verif.Props.RunEnds
import Verif.Props.Ends
import Verif.Props.SturdyMutants
import Verif.Props.SturdyVyperMutants
import Verif.Proofs.VyperMutants
import Verif.Props.SolidityMutants
import Verif.Spec.DemoVyper

/-!
# C94 with a fair source of random numbers, and for Solidity and Vyper programs
-/

namespace Mutagenyx
open Json

variable {S R : Type} [Rand R]

/-- **C94 (fair sources).** If the source of random numbers offers every algorithm again and again, and every requested algorithm
comes to an end with every node that it takes, then the run comes to an end: it does its work if there is something to mutate, and
says that there is nothing otherwise. -/
theorem C94_fair (m : Machine S R) (hsh : ∀ l, (m.shuffle l).Perm l) (p : Params R) (s : S) (base : String)
    (hb : Path.fileName p.fileName = some base) (lang : Language) (ast : Json) (hr : (m.reading p s).1 = .ok (lang, ast))
    (hroot : RootOf lang ast) (hwrite : ∀ f text s, WrittenBy p f → (m.write f text s).1 = true)
    (hmut : ∀ t ∈ p.mutations, ∀ mu : Mutator R, languageMutator m.env lang t = some mu → ∀ pos node rng, nodeAt pos ast = some node →
      mu.isMutable node = true → ∃ x, mu.mutate node rng = .ok x)
    (horig : p.printOriginal = true → ∃ text, m.print lang ast = .ok text)
    (hprint : ∀ mutant report, OneMutation (R := R) lang m.env p.mutations p.functions ast mutant report →
      ∃ text, m.print lang mutant = .ok text)
    (hfair : Fair (usableTypes (countMutableNodes lang.ctx (functionPermissions p.functions)
      (m.shuffle (selectMutators (lang.delegate m.env) p.mutations)) ast)) p.rng) :
    ∃ enough, ∀ fuel, enough ≤ fuel →
      (SomethingToMutate R lang m.env p ast → (m.generate fuel p s).1 = .ok ()) ∧
      (¬ SomethingToMutate R lang m.env p ast → (m.generate fuel p s).1 = .err .noMutableNode) := by
  have hcut : ¬ MutatorCutOff R lang m.env p ast := by
    rintro ⟨t, ht, mu, h1, pos, node, rng, h2, h3, h4⟩
    obtain ⟨x, hx⟩ := hmut t ht mu h1 pos node rng h2 h3
    rw [h4] at hx
    cases hx
  have run := fun fuel => C94_run m hsh fuel p s base hb lang ast hr hroot hwrite
    (fun t ht mu h1 pos node rng h2 h3 => Or.inl (hmut t ht mu h1 pos node rng h2 h3)) horig hprint
  by_cases hsome : SomethingToMutate R lang m.env p ast
  · have hnod := countTable_keys_nodup lang.ctx (functionPermissions p.functions) (Tells.mutatorsOf m p lang) ast
    have hne : ∃ t n, 0 < n ∧ (t, n) ∈ Tells.tableOf m p lang ast := by
      have hne : ¬ (Tells.tableOf m p lang ast).isEmpty = true := fun h => (RunEnds.table_empty hsh).1 h hsome
      cases htab : Tells.tableOf m p lang ast with
      | nil => rw [htab] at hne; exact absurd rfl hne
      | cons e rest =>
        obtain ⟨t, n⟩ := e
        refine ⟨t, n, Nat.pos_of_ne_zero ?_, List.mem_cons_self ..⟩
        rintro rfl
        refine countTable_pos lang.ctx (functionPermissions p.functions) (Tells.mutatorsOf m p lang) ast t ?_
        have htab' : countMutableNodes lang.ctx (functionPermissions p.functions) (Tells.mutatorsOf m p lang) ast = (t, 0) :: rest := htab
        rw [htab']
        simp [CountTable.get?]
    obtain ⟨enough, res, hsel⟩ := C03_selection_ends (Tells.tableOf m p lang ast) hnod hne p.numberOfMutants p.rng hfair
    refine ⟨enough, fun fuel hle => ⟨fun _ => ?_, fun h => absurd hsome h⟩⟩
    have hsel' := C03_more_iterations_same_result _ _ _ enough fuel hle res hsel
    rcases run fuel with ⟨-, h⟩ | ⟨h, -⟩ | ⟨-, -, h | h⟩
    · exact h
    · exact absurd hsome h
    · have h' : selectAlgorithms fuel (Tells.tableOf m p lang ast) p.numberOfMutants p.rng = .outOfFuel := h
      rw [hsel'] at h'
      cases h'
    · exact absurd h hcut
  · refine ⟨0, fun fuel _ => ⟨fun h => absurd h hsome, fun _ => ?_⟩⟩
    rcases run fuel with ⟨h, -⟩ | ⟨-, h⟩ | ⟨h, -⟩
    · exact absurd h hsome
    · exact h
    · exact absurd h hsome

namespace VyPrint

theorem printed_text {env : PrintEnv} {j : Json} (h : ∃ text, printText env j = .ok text) :
    ∃ text, Language.print env .vyper j = .ok text := by
  obtain ⟨text, h⟩ := h
  unfold printText at h
  unfold Language.print printedText
  have e : NodePrinter.ops env.checks (layout env) {} j = printOps env {} j := rfl
  simp only [e] at h ⊢
  split at h <;> simp_all

/-- Mutants of sturdy trees are printed. -/
theorem mutants_print {menv : MutEnv} {ts : List MutationType} {fs : List String} (env : PrintEnv) {ast : Json}
    (w : Option Nat) (ho : ∀ n, Json.Within n ast → Sturdy env w n) (hd : Documented ast) (hroom : RoomFor w (Json.nest indents ast))
    (hq : (.deleteStatement ∉ ts ∧ Unquoted ast) ∨ ((∀ pos node, nodeAt pos ast = some node → BodyOfNodes node) ∧
      ∀ mutant report, OneMutation (R := R) .vyper menv ts fs ast mutant report → QuotesShort env w mutant))
    (hnew : ∀ t ∈ ts, ∀ mu : Mutator R, Vyper.mutatorFor menv t = some mu → ∀ pos node, nodeAt pos ast = some node →
      mu.isMutable node = true → ∀ rng node' rep comment rng', mu.mutate node rng = .ok (node', rep, comment, rng') →
        node'.IsObj ∧ ∀ note, comment = some (Vyper.commentNode note) → ShortWords w note.toList) :
    ∀ mutant report, OneMutation (R := R) .vyper menv ts fs ast mutant report → ∃ text, Language.print env .vyper mutant = .ok text := by
  intro mutant report hone
  obtain ⟨t, ht, mu, hfac, pos, node, node', rng, rng', rep, comment, number, h1, h2, -, -, h5, -, h7⟩ := id hone
  obtain ⟨n1, n2⟩ := hnew t ht mu hfac pos node h1 h2 rng node' rep comment rng' h5
  refine printed_text ?_
  rcases hq with ⟨q1, q2⟩ | ⟨q1, q2⟩
  · obtain ⟨k1, k2⟩ := C93_vyper_mutants_partial env w hfac (fun e => q1 (e ▸ ht)) h1 h2 h5 n1 ho hd q2 hroom
    cases h7 with
    | leftOut => exact k1
    | added c after e1 e2 =>
      subst e1
      obtain ⟨note, rfl⟩ := comment_text hfac h5
      exact k2 note _ rfl (n2 note rfl) e2
    | garbled _ _ _ _ e1 => cases e1
  · obtain ⟨k1, k2⟩ := C93_vyper_deleted_partial env w hfac h1 h2 h5 n1 (q1 pos node h1) ho hd hroom
    have q3 := q2 mutant report hone
    cases h7 with
    | leftOut => exact k1 q3
    | added c after e1 e2 =>
      subst e1
      obtain ⟨note, rfl⟩ := comment_text hfac h5
      exact k2 note _ rfl (n2 note rfl) q3 e2
    | garbled _ _ _ _ e1 => cases e1

/-- **C94 (Vyper).** For a Vyper program whose nodes are sturdy (property C93), and whose mutable nodes have what the mutators need
(property C30), the run does its work, or says that there is nothing to mutate, or is still drawing random numbers: no text has
to be assumed to be printed.  Missing: comments, and deleted statements that are kept as comments, with words too long for the
page. -/
theorem C94_vyper_partial (m : Machine S R) (hsh : ∀ l, (m.shuffle l).Perm l) (env : PrintEnv)
    (hpr : ∀ j, m.print .vyper j = Language.print env .vyper j) (fuel : Nat) (p : Params R) (s : S) (base : String)
    (hb : Path.fileName p.fileName = some base) (ast : Json) (hr : (m.reading p s).1 = .ok (.vyper, ast))
    (hroot : SyntaxTree.VyperRoot ast) (hwrite : ∀ f text s, WrittenBy p f → (m.write f text s).1 = true)
    (husable : ∀ t ∈ p.mutations, ∀ mu : Mutator R, Vyper.mutatorFor m.env t = some mu → ∀ pos node, nodeAt pos ast = some node →
      mu.isMutable node = true → VyperUsable t node ∧ FitsMemory node)
    (w : Option Nat) (ho : ∀ n, Json.Within n ast → Sturdy env w n) (hd : Documented ast) (hroom : RoomFor w (Json.nest indents ast))
    (hq : (.deleteStatement ∉ p.mutations ∧ Unquoted ast) ∨ ((∀ pos node, nodeAt pos ast = some node → BodyOfNodes node) ∧
      ∀ mutant report, OneMutation (R := R) .vyper m.env p.mutations p.functions ast mutant report → QuotesShort env w mutant))
    (hnew : ∀ t ∈ p.mutations, ∀ mu : Mutator R, Vyper.mutatorFor m.env t = some mu → ∀ pos node, nodeAt pos ast = some node →
      mu.isMutable node = true → ∀ rng node' rep comment rng', mu.mutate node rng = .ok (node', rep, comment, rng') →
        node'.IsObj ∧ ∀ note, comment = some (Vyper.commentNode note) → ShortWords w note.toList) :
    (SomethingToMutate R .vyper m.env p ast ∧ (m.generate fuel p s).1 = .ok ()) ∨
    (¬ SomethingToMutate R .vyper m.env p ast ∧ (m.generate fuel p s).1 = .err .noMutableNode) ∨
    (SomethingToMutate R .vyper m.env p ast ∧ (m.generate fuel p s).1 = .outOfFuel ∧
      (selectAlgorithms fuel (countMutableNodes vyperCtx (functionPermissions p.functions)
        (m.shuffle (selectMutators (Language.vyper.delegate m.env) p.mutations)) ast) p.numberOfMutants p.rng = .outOfFuel ∨
      MutatorCutOff R .vyper m.env p ast)) := by
  refine C94_run m hsh fuel p s base hb .vyper ast hr hroot hwrite ?_ ?_ ?_
  · intro t ht mu hfac pos node rng hn hmu
    obtain ⟨h1, h2⟩ := husable t ht mu hfac pos node hn hmu
    have h := (C30_vyper_partial m.env t rng hfac hmu h1 h2).1 m.env.fuel
    unfold vyperMutate at h
    have hfac' : Vyper.mutatorFor { m.env with fuel := m.env.fuel } t = some mu := hfac
    rw [hfac'] at h
    exact h
  · intro _
    rw [hpr]
    exact printed_text (C93_vyper_partial env w ast ho hroom)
  · intro mutant report h
    rw [hpr]
    exact mutants_print env w ho hd hroom hq hnew mutant report h

end VyPrint

namespace DemoVyper

/-- The tree of a program that multiplies, in a file of the compiler. -/
def wrapped : Json := .obj [("ast", module_ (product (name 21 "a") (name 22 "b"))), ("contract_name", .str "x.vy")]

/-- A machine whose comments do not quote the program. -/
def terse : Machine DemoSystem.Disk ListRand := { machine wrapped with env := DemoNodes.env }

theorem only_product {pos : Pos} {node : Json} (hn : nodeAt pos wrapped = some node)
    (hm : Vyper.binaryOpMutable arithmeticOperators node = true) : node = product (name 21 "a") (name 22 "b") := by
  have hp : pos ∈ positionsWhere (Vyper.binaryOpMutable arithmeticOperators) (fun _ => true) wrapped :=
    List.mem_filter.2 ⟨mem_positions.2 (by rw [hn]; rfl), by rw [hn]; simpa using hm⟩
  have hall : positionsWhere (Vyper.binaryOpMutable arithmeticOperators) (fun _ => true) wrapped = [[0, 2, 1, 3, 0, 2]] := by
    decide +kernel
  rw [hall] at hp
  have hp := List.mem_singleton.1 hp
  subst hp
  have : nodeAt [0, 2, 1, 3, 0, 2] wrapped = some (product (name 21 "a") (name 22 "b")) := by rfl
  rw [this] at hn
  cases hn
  rfl

theorem note_text {a b : String} (h : Vyper.commentNode a = Vyper.commentNode b) : a = b := by
  have key : ∀ t : String, field "value" (Vyper.commentNode t) = some (.str t) := fun t => by
    unfold Vyper.commentNode
    rw [field_setNodeForKey (by decide) _ _ (ofFields_isObj _), if_pos rfl]
  have := key a
  rw [h, key b] at this
  cases this
  rfl

theorem product_new {r r' : ListRand} {n' : Json} {rep : MutatorResult} {comment : Option Json}
    (h : Vyper.binaryOpMutate DemoNodes.env arithmeticOperators .arithmeticBinaryOp (product (name 21 "a") (name 22 "b")) r =
      .ok (n', rep, comment, r')) :
    n'.IsObj ∧ ∀ note, comment = some (Vyper.commentNode note) → ShortWords (some 40) note.toList := by
  simp only [Vyper.binaryOpMutate] at h
  split at h
  · rename_i op j1 htk
    obtain ⟨_, hj1, _⟩ := take_eq (by decide) (by trivial) htk
    split at h
    · split at h
      · cases h
      · split at h
        · split at h
          · cases h
          · cases h
            refine ⟨setNodeForKey_isObj (by decide) _ hj1, fun note hc => ?_⟩
            have hnote := note_text (Option.some.inj hc)
            rw [← hnote]
            refine ⟨40, rfl, ?_⟩
            show ∀ x ∈ Printer.words (MutationType.arithmeticBinaryOp.toStr ++ " Mutator: Changed '" ++ "" ++ "' to '" ++ "" ++ "'").toList,
              utf8Len x ≤ 40
            decide +kernel
        all_goals cases h
    · cases h
  · cases h

/-- Example: a run that is to change the operator of `a * b` meets the hypotheses of `C94_vyper_partial`, for all random numbers. -/
example (r : ListRand) (fuel : Nat) : (terse.generate fuel { params with rng := r } disk).1 = .ok () ∨
    (terse.generate fuel { params with rng := r } disk).1 = .outOfFuel := by
  have hsome : SomethingToMutate ListRand .vyper terse.env { params with rng := r } wrapped :=
    ⟨.arithmeticBinaryOp, List.mem_singleton.2 rfl, _, rfl, [0, 2, 1, 3, 0, 2], product (name 21 "a") (name 22 "b"), by rfl,
      by decide +kernel, fun h => absurd rfl h⟩
  have hst : (Json.parts wrapped).all (VyPrint.sturdyCheck 40) = true := by decide +kernel
  have htidy := VyPrint.tidy (ast := wrapped) (by decide +kernel)
  have hlev : Json.nest VyPrint.indents wrapped = 2 := by decide +kernel
  rcases VyPrint.C94_vyper_partial terse (fun _ => .refl _) ⟨true, fun _ => ""⟩ (fun _ => rfl) fuel { params with rng := r } disk "x.vy"
    (show Path.fileName "/in/x.vy" = some "x.vy" by decide) wrapped (show (terse.reading params disk).1 = _ by decide +kernel)
    ⟨_, rfl, by decide +kernel, by decide +kernel, by decide +kernel⟩ (fun _ _ _ _ => rfl)
    (by
      intro t ht mu h pos node hn hmu
      have ht : t = .arithmeticBinaryOp := List.mem_singleton.1 ht
      subst ht
      cases h
      have := only_product hn hmu
      subst this
      refine ⟨trivial, fun k xs hk => ?_⟩
      unfold product DemoVyper.node Json.field at hk
      simp only [objGet] at hk
      repeat' split at hk
      all_goals cases hk)
    (some 40) (fun n hn => VyPrint.sturdy_of_check (List.all_eq_true.1 hst n (Json.mem_parts hn))) htidy.1
    (fun W hW => by cases hW; rw [hlev]; decide) (.inl ⟨show MutationType.deleteStatement ∉ [MutationType.arithmeticBinaryOp] by decide, htidy.2⟩)
    (by
      intro t ht mu h pos node hn hmu rng node' rep comment rng' hx
      have ht : t = .arithmeticBinaryOp := List.mem_singleton.1 ht
      subst ht
      cases h
      have := only_product hn hmu
      subst this
      exact product_new hx) with ⟨-, h⟩ | ⟨h, -⟩ | ⟨-, h, -⟩
  · exact Or.inl h
  · exact absurd hsome h
  · exact Or.inr h

end DemoVyper

namespace SolPrint

theorem printed_text {env : PrintEnv} {j : Json} (h : ∃ text, printText env.checks j = .ok text) :
    ∃ text, Language.print env .solidity j = .ok text := by
  obtain ⟨text, h⟩ := h
  unfold printText at h
  unfold Language.print printedText
  have e : NodePrinter.ops env.checks layout {} j = printOps env.checks {} j := rfl
  simp only [e] at h ⊢
  split at h <;> simp_all

/-- Mutants of sturdy trees are printed. -/
theorem mutants_print {menv : MutEnv} {ts : List MutationType} {fs : List String} (env : PrintEnv) {ast : Json}
    (w : Option Nat) (ho : ∀ n, Json.Within n ast → Sturdy w n) (hroom : RoomFor w (Json.nest indents ast + 2))
    (hnew : ∀ t ∈ ts, ∀ mu : Mutator R, Solidity.mutatorFor menv t = some mu → ∀ pos node, nodeAt pos ast = some node →
      mu.isMutable node = true → ∀ rng node' rep comment rng', mu.mutate node rng = .ok (node', rep, comment, rng') →
        node'.IsObj ∧ (∀ note, comment = some (Solidity.commentNode note) → ShortWords w note.toList) ∧
        ∀ q n, nodeAt q (replaceAt pos node' ast) = some n → ¬ BranchBlock (commentTarget .solidity rep node') n) :
    ∀ mutant report, OneMutation (R := R) .solidity menv ts fs ast mutant report → ∃ text, Language.print env .solidity mutant = .ok text := by
  rintro mutant report ⟨t, ht, mu, hfac, pos, node, node', rng, rng', rep, comment, number, h1, h2, -, -, h5, -, h7⟩
  obtain ⟨n1, n2, n3⟩ := hnew t ht mu hfac pos node h1 h2 rng node' rep comment rng' h5
  obtain ⟨k1, k2⟩ := C93_solidity_mutants_partial env.checks w hfac h1 h2 h5 n1 ho hroom
  refine printed_text ?_
  cases h7 with
  | leftOut => exact k1
  | added c after e1 e2 =>
    subst e1
    obtain ⟨note, rfl⟩ := sol_comment_text hfac h5
    exact k2 note _ rfl (n2 note rfl) e2
  | garbled c q n x _ _ e1 e2 => exact absurd e2 (n3 q n e1)

/-- **C94 (Solidity).** For a source unit whose nodes are sturdy (property C93), and whose mutable nodes have what the mutators need
(property C30), the run does its work, or says that there is nothing to mutate, or is still drawing random numbers: no text has
to be assumed to be printed.  Missing: comments with words too long for the page (`C93_mutant_counterexample`), comments for the
blocks of branches and catch clauses (`C16_solidity_counterexample`). -/
theorem C94_solidity_partial (m : Machine S R) (hsh : ∀ l, (m.shuffle l).Perm l) (env : PrintEnv)
    (hpr : ∀ j, m.print .solidity j = Language.print env .solidity j) (fuel : Nat) (p : Params R) (s : S) (base : String)
    (hb : Path.fileName p.fileName = some base) (ast : Json) (hr : (m.reading p s).1 = .ok (.solidity, ast))
    (hroot : getStrForKey "nodeType" ast = some "SourceUnit") (hwrite : ∀ f text s, WrittenBy p f → (m.write f text s).1 = true)
    (husable : ∀ t ∈ p.mutations, ∀ mu : Mutator R, Solidity.mutatorFor m.env t = some mu → ∀ pos node, nodeAt pos ast = some node →
      mu.isMutable node = true → SolidityUsable t node ∧ FitsMemory node)
    (w : Option Nat) (ho : ∀ n, Json.Within n ast → Sturdy w n) (hroom : RoomFor w (Json.nest indents ast + 2))
    (hnew : ∀ t ∈ p.mutations, ∀ mu : Mutator R, Solidity.mutatorFor m.env t = some mu → ∀ pos node, nodeAt pos ast = some node →
      mu.isMutable node = true → ∀ rng node' rep comment rng', mu.mutate node rng = .ok (node', rep, comment, rng') →
        node'.IsObj ∧ (∀ note, comment = some (Solidity.commentNode note) → ShortWords w note.toList) ∧
        ∀ q n, nodeAt q (replaceAt pos node' ast) = some n → ¬ BranchBlock (commentTarget .solidity rep node') n) :
    (SomethingToMutate R .solidity m.env p ast ∧ (m.generate fuel p s).1 = .ok ()) ∨
    (¬ SomethingToMutate R .solidity m.env p ast ∧ (m.generate fuel p s).1 = .err .noMutableNode) ∨
    (SomethingToMutate R .solidity m.env p ast ∧ (m.generate fuel p s).1 = .outOfFuel ∧
      (selectAlgorithms fuel (countMutableNodes solidityCtx (functionPermissions p.functions)
        (m.shuffle (selectMutators (Language.solidity.delegate m.env) p.mutations)) ast) p.numberOfMutants p.rng = .outOfFuel ∨
      MutatorCutOff R .solidity m.env p ast)) := by
  refine C94_run m hsh fuel p s base hb .solidity ast hr hroot hwrite ?_ ?_ ?_
  · intro t ht mu hfac pos node rng hn hmu
    obtain ⟨h1, h2⟩ := husable t ht mu hfac pos node hn hmu
    have h := (C30_solidity_partial m.env t rng hfac hmu h1 h2).1 m.env.fuel
    unfold solidityMutate at h
    have hfac' : Solidity.mutatorFor { m.env with fuel := m.env.fuel } t = some mu := hfac
    rw [hfac'] at h
    exact h
  · intro _
    rw [hpr]
    exact printed_text (C93_solidity_partial env.checks w ast ho fun W hW => by
      have := hroom W hW
      omega)
  · intro mutant report h
    rw [hpr]
    exact mutants_print env w ho hroom hnew mutant report h

open DemoMachine Demo

/-- A difference. -/
def difference (id : Nat) (l r : Json) : Json :=
  .obj [("id", .num (.int id)), ("leftExpression", l), ("nodeType", .str "BinaryOperation"), ("operator", .str "-"),
    ("rightExpression", r)]

/-- The only node of the program `a - b` whose operands are swapped is the difference. -/
theorem only_difference {pos : Pos} {node : Json}
    (hn : nodeAt pos (program_ [statement 20 (difference 21 (variable_ 22 "a") (variable_ 23 "b"))]) = some node)
    (hm : Solidity.swapOperandsMutable node = true) : pos = [2, 0, 6, 0, 0, 2, 0, 0] ∧ node = difference 21 (variable_ 22 "a") (variable_ 23 "b") := by
  have hp : pos ∈ positionsWhere Solidity.swapOperandsMutable (fun _ => true)
      (program_ [statement 20 (difference 21 (variable_ 22 "a") (variable_ 23 "b"))]) :=
    List.mem_filter.2 ⟨mem_positions.2 (by rw [hn]; rfl), by rw [hn]; simpa using hm⟩
  have hall : positionsWhere Solidity.swapOperandsMutable (fun _ => true)
      (program_ [statement 20 (difference 21 (variable_ 22 "a") (variable_ 23 "b"))]) = [[2, 0, 6, 0, 0, 2, 0, 0]] := by decide +kernel
  rw [hall] at hp
  have hp := List.mem_singleton.1 hp
  subst hp
  refine ⟨rfl, ?_⟩
  have : nodeAt [2, 0, 6, 0, 0, 2, 0, 0] (program_ [statement 20 (difference 21 (variable_ 22 "a") (variable_ 23 "b"))]) =
    some (difference 21 (variable_ 22 "a") (variable_ 23 "b")) := by rfl
  rw [this] at hn
  cases hn
  rfl

/-- A run that is to swap the operands. -/
def swapRun (r : ListRand) : Params ListRand :=
  { params with numberOfMutants := 1, mutations := [.swapOperatorArguments], verify := false, rng := r }
def swapTree : Json := program_ [statement 20 (difference 21 (variable_ 22 "a") (variable_ 23 "b"))]
def swapMachine : Machine DemoSystem.Disk ListRand := machineWith (difference 21 (variable_ 22 "a") (variable_ 23 "b"))

theorem swap_only {t : MutationType} (ht : t ∈ [MutationType.swapOperatorArguments]) {mu : Mutator ListRand}
    (h : Solidity.mutatorFor swapMachine.env t = some mu) : t = .swapOperatorArguments ∧
      mu = ⟨.swapOperatorArguments, Solidity.swapOperandsMutable, Solidity.swapOperandsMutate swapMachine.env⟩ := by
  have ht : t = .swapOperatorArguments := List.mem_singleton.1 ht
  subst ht
  cases h
  exact ⟨rfl, rfl⟩

theorem swap_new : ∀ t ∈ [MutationType.swapOperatorArguments], ∀ mu : Mutator ListRand, Solidity.mutatorFor swapMachine.env t = some mu →
    ∀ pos node, nodeAt pos swapTree = some node →
      mu.isMutable node = true → ∀ rng node' rep comment rng', mu.mutate node rng = .ok (node', rep, comment, rng') →
        node'.IsObj ∧ (∀ note, comment = some (Solidity.commentNode note) → ShortWords (some 40) note.toList) ∧
        ∀ q n, nodeAt q (replaceAt pos node' swapTree) = some n → ¬ BranchBlock (commentTarget .solidity rep node') n := by
  intro t ht mu h pos node hn hmu rng node' rep comment rng' hx
  obtain ⟨rfl, rfl⟩ := swap_only ht h
  obtain ⟨rfl, rfl⟩ := only_difference hn hmu
  have hx : Solidity.swapOperandsMutate swapMachine.env (difference 21 (variable_ 22 "a") (variable_ 23 "b")) rng =
    .ok (node', rep, comment, rng') := hx
  cases hx
  refine ⟨trivial, ?_, fun q n hq => noBranch_spec (by decide +kernel) hq⟩
  intro note hc
  have hnote : note = "SwapOperatorArguments Mutator: switched '' and ''" := by
    injection hc with hc
    have h1 := (sol_commentNode "SwapOperatorArguments Mutator: switched '' and ''").2.1
    have h2 := (sol_commentNode note).2.1
    have hc : Solidity.commentNode "SwapOperatorArguments Mutator: switched '' and ''" = Solidity.commentNode note := hc
    rw [← hc] at h2
    exact Option.some.inj (h2.symm.trans h1)
  subst hnote
  exact ⟨40, rfl, by decide +kernel⟩

theorem swap_sturdy : ∀ n, Json.Within n swapTree → Sturdy (some 40) n := by
  have hst : (Json.parts swapTree).all (sturdyCheck 40) = true := by decide +kernel
  exact fun n hn => sturdy_of_check (List.all_eq_true.1 hst n (Json.mem_parts hn))

theorem swap_room : RoomFor (some 40) (Json.nest indents swapTree + 2) := fun W hW => by
  have hlev : Json.nest indents swapTree ≤ 9 := by decide +kernel
  cases hW
  omega

theorem swap_something (r : ListRand) : SomethingToMutate ListRand .solidity swapMachine.env (swapRun r) swapTree :=
  ⟨.swapOperatorArguments, List.mem_singleton.2 rfl, _, rfl, [2, 0, 6, 0, 0, 2, 0, 0],
    difference 21 (variable_ 22 "a") (variable_ 23 "b"), by rfl, by decide +kernel, fun h => absurd rfl h⟩

theorem swap_read (r : ListRand) : (swapMachine.reading (swapRun r) disk).1 = .ok (.solidity, swapTree) := by
  show (swapMachine.reading params disk).1 = _
  decide +kernel

theorem swap_ok {t : MutationType} (ht : t ∈ [MutationType.swapOperatorArguments]) {mu : Mutator ListRand}
    (h : Solidity.mutatorFor swapMachine.env t = some mu) {pos : Pos} {node : Json} (hn : nodeAt pos swapTree = some node)
    (hmu : mu.isMutable node = true) (rng : ListRand) : ∃ x, mu.mutate node rng = .ok x := by
  obtain ⟨rfl, rfl⟩ := swap_only ht h
  obtain ⟨rfl, rfl⟩ := only_difference hn hmu
  exact ⟨_, rfl⟩

/-- Example: a run that is to swap the operands of `a - b` meets the hypotheses of `C94_solidity_partial`. -/
example (r : ListRand) (fuel : Nat) : (swapMachine.generate fuel (swapRun r) disk).1 = .ok () ∨
    (swapMachine.generate fuel (swapRun r) disk).1 = .outOfFuel := by
  rcases C94_solidity_partial swapMachine (fun _ => .refl _) ⟨true, fun _ => ""⟩ (fun _ => rfl) fuel (swapRun r) disk "b.sol"
    (show Path.fileName "/in/b.sol" = some "b.sol" by decide) swapTree (swap_read r) (by decide +kernel) (fun _ _ _ _ => rfl) (by
      intro t ht mu h pos node hn hmu
      obtain ⟨rfl, rfl⟩ := swap_only ht h
      obtain ⟨-, rfl⟩ := only_difference hn hmu
      refine ⟨⟨⟨_, by rfl⟩, ⟨_, by rfl⟩⟩, fun k xs hk => ?_⟩
      unfold difference variable_ Json.field at hk
      simp only [objGet] at hk
      repeat' split at hk
      all_goals cases hk)
    (some 40) swap_sturdy swap_room swap_new with ⟨-, h⟩ | ⟨h, -⟩ | ⟨-, h, -⟩
  · exact Or.inl h
  · exact absurd (swap_something r) h
  · exact Or.inr h

/-- Example: it meets the hypotheses of `C94_fair` too, whatever the random numbers are, as there is one algorithm to choose from.  So
it always comes to its end and does its work. -/
example (r : ListRand) : ∃ enough, ∀ fuel, enough ≤ fuel → (swapMachine.generate fuel (swapRun r) disk).1 = .ok () := by
  obtain ⟨enough, h⟩ := C94_fair swapMachine (fun _ => .refl _) (swapRun r) disk "b.sol"
    (show Path.fileName "/in/b.sol" = some "b.sol" by decide) .solidity swapTree (swap_read r)
    (show getStrForKey "nodeType" swapTree = some "SourceUnit" by decide +kernel) (fun _ _ _ _ => rfl)
    (fun t ht mu h pos node rng hn hmu => swap_ok ht h hn hmu rng)
    (fun _ => printed_text (env := ⟨true, fun _ => ""⟩) (C93_solidity_partial true (some 40) swapTree swap_sturdy fun W hW => by
      have := swap_room W hW
      omega))
    (mutants_print ⟨true, fun _ => ""⟩ (some 40) swap_sturdy swap_room swap_new) (by
      have htypes : usableTypes (countMutableNodes Language.solidity.ctx (functionPermissions (swapRun r).functions)
          (swapMachine.shuffle (selectMutators (Language.solidity.delegate swapMachine.env) (swapRun r).mutations)) swapTree) =
          [.swapOperatorArguments] := by
        show usableTypes (countMutableNodes Language.solidity.ctx (functionPermissions [])
          (selectMutators (Language.solidity.delegate swapMachine.env) [.swapOperatorArguments] : List (Mutator ListRand)) swapTree) = _
        decide +kernel
      rw [htypes]
      intro t ht n
      rw [List.mem_singleton.1 ht]
      refine ⟨n, Nat.le_refl _, ?_⟩
      unfold offered choose
      have h1 : (Rand.below 1 (rngAfter [MutationType.swapOperatorArguments] (swapRun r).rng n)).1 = 0 := by
        have := Rand.below_lt (n := 1) (r := rngAfter [MutationType.swapOperatorArguments] (swapRun r).rng n) (by decide)
        omega
      show [MutationType.swapOperatorArguments][(Rand.below 1 _).1]? = _
      rw [h1]
      rfl)
  exact ⟨enough, fun fuel hle => (h fuel hle).1 (swap_something r)⟩

end SolPrint
end Mutagenyx
