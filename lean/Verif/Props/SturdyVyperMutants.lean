import Verif.Proofs.SturdyVyperMutants
import Verif.Props.Sturdy
import Verif.Spec.Mutant
import Verif.Spec.DemoVyper

/-!
# C93: mutants of Vyper trees of sturdy nodes are printed
-/

namespace Mutagenyx
namespace VyPrint
open Json Firmly

variable {R : Type} [Rand R]

/-- The documentation of functions and modules is in nodes of the type for documentation, as the compiler gives it. -/
def Documented (ast : Json) : Prop :=
  ∀ n, Json.Within n ast → n.getStrForKey "ast_type" = some "FunctionDef" ∨ n.getStrForKey "ast_type" = some "Module" →
    ∀ d, Json.field? "doc_string" n = some d → d.IsObj → d.getStrForKey "ast_type" = some "DocStr"

/-- No comment holds a node. -/
def Unquoted (ast : Json) : Prop :=
  ∀ n, Json.Within n ast → n.getStrForKey "ast_type" = some "Comment" → ∀ kvs, Json.field? "value" n ≠ some (.obj kvs)

/-- The nodes in comments have short words when they are printed. -/
def QuotesShort (env : PrintEnv) (w : Option Nat) (ast : Json) : Prop :=
  ∀ n, Json.Within n ast → n.getStrForKey "ast_type" = some "Comment" → ∀ kvs, Json.field? "value" n = some (.obj kvs) →
    ∀ s p, Printer.run env.checks (printOps env s (.obj kvs)) (Printer.new 4 150) = .ok p → ShortWords w p.out

/-- The statements of the node are nodes. -/
def BodyOfNodes (node : Json) : Prop := ∀ ss, field "body" node = some (.arr ss) → ∀ x ∈ ss, x.IsObj

theorem safe_of_sturdy {env : PrintEnv} {q : Prop} {w : Option Nat} {ast : Json} (ho : ∀ n, Json.Within n ast → Sturdy env w n)
    (hd : Documented ast) (hq : q → Unquoted ast) : Safe q w (Json.nest indents ast) ast :=
  ⟨fun n hn => ⟨(ho n hn).dict, (ho n hn).bytes, (ho n hn).arguments, (ho n hn).comment, fun h => hq h n hn, (ho n hn).doc, hd n hn⟩,
    Nat.le_refl _⟩

theorem safe_prints {env : PrintEnv} {q : Prop} {w : Option Nat} {b : Nat} {out : Json} (hs : Safe q w b out)
    (hq : q ∨ QuotesShort env w out) (hr : RoomFor w b) : ∃ text, printText env out = .ok text :=
  C93_vyper_partial env w out (fun n hn => ⟨(hs.firm n hn).dict, (hs.firm n hn).bytes, (hs.firm n hn).arguments, (hs.firm n hn).comment,
    fun ht kvs hk => (hq.elim (fun h => absurd hk ((hs.firm n hn).plain h ht kvs)) fun h => h n hn ht kvs hk), (hs.firm n hn).doc⟩)
    fun W hW => by
      have := hr W hW
      have := hs.levels
      omega

/-- **C93 (Vyper mutants).** If a tree is made of sturdy nodes then the mutants of every algorithm but `DeleteStatement` are printed to
the end too, and so is the mutant with its comment, wherever that goes: the tool neither comes down nor prints forever, and no
more room is needed than for the tree itself.  Missing: comments that quote a word of the program too long for the page; a
node replaced by something that is no object, which no compiler gives; and trees with deleted statements in them, for which see
`C93_vyper_deleted_partial`. -/
theorem C93_vyper_mutants_partial (penv : PrintEnv) (w : Option Nat) {env : MutEnv} {t : MutationType} {m : Mutator R}
    (hm : Vyper.mutatorFor env t = some m) (ht : t ≠ .deleteStatement) {ast : Json} {pos : Pos} {node node' : Json}
    (hn : nodeAt pos ast = some node) (hmu : m.isMutable node = true) {rng rng' : R} {rep : MutatorResult} {comment : Option Json}
    (h : m.mutate node rng = .ok (node', rep, comment, rng')) (hobj : node'.IsObj)
    (ho : ∀ n, Json.Within n ast → Sturdy penv w n) (hd : Documented ast) (hq : Unquoted ast) (hr : RoomFor w (Json.nest indents ast)) :
    (∃ text, printText penv (replaceAt pos node' ast) = .ok text) ∧
    ∀ note mutant, comment = some (Vyper.commentNode note) → ShortWords w note.toList →
      CommentAdded .vyper (commentTarget .vyper rep node') (Vyper.commentNode note) (replaceAt pos node' ast) mutant →
      ∃ text, printText penv mutant = .ok text := by
  obtain ⟨ty, hty, hnd⟩ := mutable_type hm hmu
  have hs : Safe True w (Json.nest indents ast) (replaceAt pos node' ast) :=
    safe_replace (kind_isObj hty) hobj (by rw [hty]; exact fun h => hnd (Option.some.inj h))
      (fun _ hb => safe_mutate hm hmu h hb fun h => absurd h ht) hn (safe_of_sturdy ho hd fun _ => hq)
  exact ⟨safe_prints hs (.inl trivial) hr, fun note mutant _ hsh hadd =>
    safe_prints (safe_commented (fun _ => safe_comment hsh) hs hadd) (.inl trivial) hr⟩

/-- **C93 (Vyper, deleted statements).** The same for all algorithms and trees, for mutants in which the nodes in comments, such as
deleted statements, have short words when they are printed.  Missing: comments with words too long for the page, and a node
replaced by something that is no object. -/
theorem C93_vyper_deleted_partial (penv : PrintEnv) (w : Option Nat) {env : MutEnv} {t : MutationType} {m : Mutator R}
    (hm : Vyper.mutatorFor env t = some m) {ast : Json} {pos : Pos} {node node' : Json}
    (hn : nodeAt pos ast = some node) (hmu : m.isMutable node = true) {rng rng' : R} {rep : MutatorResult} {comment : Option Json}
    (h : m.mutate node rng = .ok (node', rep, comment, rng')) (hobj : node'.IsObj) (hb : BodyOfNodes node)
    (ho : ∀ n, Json.Within n ast → Sturdy penv w n) (hd : Documented ast) (hr : RoomFor w (Json.nest indents ast)) :
    (QuotesShort penv w (replaceAt pos node' ast) → ∃ text, printText penv (replaceAt pos node' ast) = .ok text) ∧
    ∀ note mutant, comment = some (Vyper.commentNode note) → ShortWords w note.toList → QuotesShort penv w mutant →
      CommentAdded .vyper (commentTarget .vyper rep node') (Vyper.commentNode note) (replaceAt pos node' ast) mutant →
      ∃ text, printText penv mutant = .ok text := by
  obtain ⟨ty, hty, hnd⟩ := mutable_type hm hmu
  have hs : Safe False w (Json.nest indents ast) (replaceAt pos node' ast) :=
    safe_replace (kind_isObj hty) hobj (by rw [hty]; exact fun h => hnd (Option.some.inj h))
      (fun _ hs => safe_mutate hm hmu h hs fun _ => ⟨rfl, hb⟩) hn (safe_of_sturdy ho hd fun h => h.elim)
  exact ⟨fun hq => safe_prints hs (.inr hq) hr, fun note mutant _ hsh hq hadd =>
    safe_prints (safe_commented (fun _ => safe_comment hsh) hs hadd) (.inr hq) hr⟩

/-- A check that a node is documented with nodes for documentation and holds no node if it is a comment. -/
def tidyCheck (n : Json) : Bool :=
  let t := n.getStrForKey "ast_type"
  if t = some "Comment" then match Json.field? "value" n with
    | some (.obj _) => false
    | _ => true
  else if t = some "FunctionDef" ∨ t = some "Module" then match Json.field? "doc_string" n with
    | some (.obj kvs) => getStrForKey "ast_type" (.obj kvs) = some "DocStr"
    | _ => true
  else true

theorem tidy {ast : Json} (h : (Json.parts ast).all tidyCheck = true) : Documented ast ∧ Unquoted ast := by
  have key : ∀ n, Json.Within n ast → tidyCheck n = true := fun n hn => List.all_eq_true.1 h n (Json.mem_parts hn)
  refine ⟨fun n hn ht d hd ho => ?_, fun n hn ht kvs hk => ?_⟩
  · have := key n hn
    obtain ⟨kvs, rfl⟩ := isObj_iff.1 ho
    unfold tidyCheck at this
    dsimp only at this
    rcases ht with ht | ht <;> rw [ht] at this <;> simpa [hd] using this
  · have := key n hn
    unfold tidyCheck at this
    dsimp only at this
    rw [ht] at this
    simp [hk] at this

/-- A check that the node in a comment has short words when it is printed. -/
def quoteCheck (env : PrintEnv) (W : Nat) (n : Json) : Bool :=
  if n.getStrForKey "ast_type" = some "Comment" then match Json.field? "value" n with
    | some (.obj kvs) => [true, false].all fun a => [true, false].all fun b =>
      match Printer.run env.checks (printOps env ⟨a, b⟩ (.obj kvs)) (Printer.new 4 150) with
      | .ok p => decide (∀ x ∈ Printer.words p.out, utf8Len x ≤ W)
      | _ => true
    | _ => true
  else true

theorem quotesShort_of_check {env : PrintEnv} {W : Nat} {ast : Json} (h : (Json.parts ast).all (quoteCheck env W) = true) :
    QuotesShort env (some W) ast := by
  rintro n hn ht kvs hk ⟨a, b⟩ p hp
  have key := List.all_eq_true.1 h n (Json.mem_parts hn)
  unfold quoteCheck at key
  rw [if_pos ht, hk] at key
  simp only [List.all_eq_true] at key
  have key := key a (by cases a <;> decide) b (by cases b <;> decide)
  rw [hp] at key
  exact ⟨W, rfl, by simpa using key⟩

open DemoVyper

/-- `a * b` -/
def times : Json := product (name 21 "a") (name 22 "b")

theorem times_sturdy (penv : PrintEnv) : (∀ n, Json.Within n (module_ times) → Sturdy penv (some 40) n) ∧ Documented (module_ times) ∧
    Unquoted (module_ times) ∧ RoomFor (some 40) (Json.nest indents (module_ times)) := by
  have hst : (Json.parts (module_ times)).all (sturdyCheck 40) = true := by decide +kernel
  have hlev : Json.nest indents (module_ times) = 2 := by decide +kernel
  exact ⟨fun n hn => sturdy_of_check (List.all_eq_true.1 hst n (Json.mem_parts hn)), (tidy (by decide +kernel)).1, (tidy (by decide +kernel)).2,
    fun W hW => by cases hW; rw [hlev]; decide⟩

/-- `a + b` -/
def plus : Json := node "BinOp" 17 [("left", name 21 "a"), ("op", node "Add" 18 []), ("right", name 22 "b")]

/-- Example: the operator of the result is changed, a comment is put before the statement, and the mutant is printed. -/
example (penv : PrintEnv) : ∃ note rep rng, Vyper.binaryOpMutate DemoNodes.env arithmeticOperators .arithmeticBinaryOp times
      (⟨[0]⟩ : ListRand) = .ok (plus, rep, some (Vyper.commentNode note), rng) ∧
    ∃ mutant text, CommentAdded .vyper (commentTarget .vyper rep plus) (Vyper.commentNode note) (module_ plus) mutant ∧
      printText penv mutant = .ok text := by
  obtain ⟨h1, h2, h3, h4⟩ := times_sturdy penv
  have hrun : Vyper.binaryOpMutate DemoNodes.env arithmeticOperators .arithmeticBinaryOp times (⟨[0]⟩ : ListRand) =
      .ok (plus, Vyper.result .arithmeticBinaryOp (some 17) (some "1"),
        some (Vyper.commentNode "ArithmeticBinaryOp Mutator: Changed '' to ''"), ⟨[]⟩) := by decide +kernel
  have key := C93_vyper_mutants_partial penv (some 40) (R := ListRand) (env := DemoNodes.env) (t := .arithmeticBinaryOp) rfl (by decide)
    (ast := module_ times) (pos := [2, 1, 3, 0, 2]) (node := times) (node' := plus) (by rfl) (by decide +kernel)
    (rng := ⟨[0]⟩) (rng' := ⟨[]⟩) (rep := Vyper.result .arithmeticBinaryOp (some 17) (some "1"))
    (comment := some (Vyper.commentNode "ArithmeticBinaryOp Mutator: Changed '' to ''")) hrun (by trivial) h1 h2 h3 h4
  have hadd : CommentAdded .vyper (commentTarget .vyper (Vyper.result .arithmeticBinaryOp (some 17) (some "1")) plus)
      (Vyper.commentNode "ArithmeticBinaryOp Mutator: Changed '' to ''") (replaceAt [2, 1, 3, 0, 2] plus (module_ times)) _ :=
    .inList [2, 1] 3 _ [] [] (node "Return" 16 [("value", plus)]) (by rfl) ⟨_, "FunctionDef", "body", rfl, rfl, by decide, rfl, by decide⟩
      (by rfl) ⟨[2], plus, by rfl, by rfl⟩ (by simp)
  obtain ⟨text, ht⟩ := key.2 _ _ rfl ⟨40, rfl, by decide +kernel⟩ hadd
  exact ⟨_, _, _, hrun, _, text, hadd, ht⟩

/-- The last function without its statement. -/
def emptied : Json :=
  function 8 "f" [name 11 "external"] [param 12 "a", param 14 "b"]
    [Vyper.commentNodeFromNode (node "Return" 16 [("value", times)]), Vyper.returnNode (Vyper.integerConstantNode DemoNodes.env 7)]

/-- Example: the statement of the function is deleted, and the mutant is printed. -/
example : ∃ rep comment rng, Vyper.deleteStatementMutate DemoNodes.env
      (function 8 "f" [name 11 "external"] [param 12 "a", param 14 "b"] [node "Return" 16 [("value", times)]]) (⟨[0, 17]⟩ : ListRand) =
        .ok (emptied, rep, comment, rng) ∧
    ∃ text, printText ⟨true, fun _ => ""⟩ (replaceAt [2, 1] emptied (module_ times)) = .ok text := by
  obtain ⟨h1, h2, -, h4⟩ := times_sturdy ⟨true, fun _ => ""⟩
  have hrun : Vyper.deleteStatementMutate DemoNodes.env
      (function 8 "f" [name 11 "external"] [param 12 "a", param 14 "b"] [node "Return" 16 [("value", times)]]) (⟨[0, 17]⟩ : ListRand) =
        .ok (emptied, Vyper.result .deleteStatement (some 16) (some "2"),
          some (Vyper.commentNode "DeleteStatement Mutator: commented out the following line."), ⟨[]⟩) := by decide +kernel
  have key := C93_vyper_deleted_partial ⟨true, fun _ => ""⟩ (some 40) (R := ListRand) (env := DemoNodes.env) (t := .deleteStatement) rfl
    (ast := module_ times) (pos := [2, 1]) (node' := emptied) (by rfl) (by decide +kernel) (rng := ⟨[0, 17]⟩) (rng' := ⟨[]⟩)
    (rep := Vyper.result .deleteStatement (some 16) (some "2"))
    (comment := some (Vyper.commentNode "DeleteStatement Mutator: commented out the following line.")) hrun (by trivial)
    (fun ss hss x hx => by
      have hss : some (Json.arr [node "Return" 16 [("value", times)]]) = some (.arr ss) := hss
      cases hss
      rw [List.mem_singleton.1 hx]
      trivial) h1 h2 h4
  exact ⟨_, _, _, hrun, key.1 (quotesShort_of_check (by decide +kernel))⟩

end VyPrint

end Mutagenyx
