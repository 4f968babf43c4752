import Verif.Proofs.SturdyMutants
import Verif.Props.SturdyRuns

/-!
# C93: mutants of trees of sturdy nodes are printed
-/

namespace Mutagenyx
namespace SolPrint
open Json

variable {R : Type} [Rand R]

theorem mutable_isObj {env : MutEnv} {t : MutationType} {m : Mutator R} (hm : Solidity.mutatorFor env t = some m) {n : Json}
    (h : m.isMutable n = true) : n.IsObj := by
  have key : ∀ {ty : String} {b : Bool}, (Solidity.hasType ty n && b) = true → n.IsObj := fun h =>
    isKind_isObj (solidity_hasType.1 (Bool.and_eq_true_iff.1 h).1)
  cases t <;> cases hm
  all_goals first
    | exact key h
    | exact isKind_isObj (solidity_hasType.1 h)
    | exact isKind_isObj (solidity_hasType.1 (Bool.and_eq_true_iff.1 (Bool.and_eq_true_iff.1 h).1).1)

/-- **C93 (Solidity mutants).** If a tree is made of sturdy nodes then the mutants of every algorithm are printed to the end too,
and so is the mutant with its comment, wherever that goes: the tool neither comes down nor prints forever.  At most two more
levels of indentation are needed, one for a new unchecked block and one for a block around the comment.  Missing: comments
that quote a word of the program too long for the page (`C93_mutant_counterexample`); comments for the blocks of branches and
catch clauses, which do not just add a comment (`C16_solidity_counterexample`); and a call replaced by an argument that is no
object, which no compiler gives. -/
theorem C93_solidity_mutants_partial (checks : Bool) (w : Option Nat) {env : MutEnv} {t : MutationType} {m : Mutator R}
    (hm : Solidity.mutatorFor env t = some m) {ast : Json} {pos : Pos} {node node' : Json} (hn : nodeAt pos ast = some node)
    (hmu : m.isMutable node = true) {rng rng' : R} {rep : MutatorResult} {comment : Option Json}
    (h : m.mutate node rng = .ok (node', rep, comment, rng')) (hobj : node'.IsObj)
    (ho : ∀ n, Json.Within n ast → Sturdy w n) (hr : RoomFor w (Json.nest indents ast + 2)) :
    (∃ text, printText checks (replaceAt pos node' ast) = .ok text) ∧
    ∀ note mutant, comment = some (Solidity.commentNode note) → ShortWords w note.toList →
      CommentAdded .solidity (commentTarget .solidity rep node') (Solidity.commentNode note) (replaceAt pos node' ast) mutant →
      ∃ text, printText checks mutant = .ok text := by
  have hs : Safe w (Json.nest indents ast + 1) (replaceAt pos node' ast) :=
    safe_replace (mutable_isObj hm hmu) hobj (fun _ hb => safe_mutate hm hmu h hb) hn ⟨ho, Nat.le_refl _⟩
  have room : ∀ {out : Json}, Safe w (Json.nest indents ast + 2) out → ∃ text, printText checks out = .ok text := fun hs =>
    C93_solidity_partial checks w _ hs.sturdy fun W hW => by
      have := hr W hW
      have := hs.levels
      omega
  exact ⟨room (hs.mono (by omega)), fun note mutant _ hsh hadd => room (safe_commented (fun _ => safe_comment hsh) hs hadd)⟩

namespace Demo
open DemoMachine

/-- The statements after the first one was deleted. -/
def withoutFirst : List Json :=
  [Solidity.commentNodeFromNode ((stringStatements "a").getD 0 .null), (stringStatements "a").getD 1 .null]

/-- The hypotheses can be met: a statement of a function is deleted, a comment is put before it, and the mutant is printed. -/
example (checks : Bool) : ∃ note rep rng, Solidity.deleteStatementMutate DemoNodes.env (blockOf (stringStatements "a"))
      (⟨[0]⟩ : ListRand) = .ok (blockOf withoutFirst, rep, some (Solidity.commentNode note), rng) ∧
    ∃ text, printText checks (program_ (Solidity.commentNode note :: withoutFirst)) = .ok text := by
  have hst : (Json.parts (program_ (stringStatements "a"))).all (sturdyCheck 40) = true := by decide +kernel
  have hlev : Json.nest indents (program_ (stringStatements "a")) = 3 := by decide +kernel
  have key := C93_solidity_mutants_partial checks (some 40) (R := ListRand) (env := DemoNodes.env) (t := .deleteStatement) rfl
    (ast := program_ (stringStatements "a")) (pos := [2, 0, 6, 0, 0]) (node := blockOf (stringStatements "a")) (by rfl)
    (by decide +kernel) (rng := ⟨[0]⟩) rfl (by trivial)
    (fun m hm => sturdy_of_check (List.all_eq_true.1 hst m (Json.mem_parts hm)))
    (fun W hW => by cases hW; rw [hlev]; decide)
  refine ⟨"DeleteStatement Mutator: deleted statement ''", _, _, rfl, key.2 _ _ rfl ⟨40, rfl, by decide +kernel⟩ ?_⟩
  exact .inList [2, 0, 6, 0, 0] 2 (blockOf withoutFirst) [] [(stringStatements "a").getD 1 .null] _ (by rfl)
    ⟨_, "Block", "statements", rfl, rfl, by decide, rfl, by decide⟩ (by rfl) ⟨[], _, rfl, by rfl⟩ (by simp)

end Demo
end SolPrint
end Mutagenyx
