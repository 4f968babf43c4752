import Verif.Model.Languages
import Verif.Spec.Candidates
import Verif.Spec.Comments
import Verif.Spec.Paths

/-!
# What a mutant is

Specification vocabulary for C68: a mutant is the input with one node mutated and with a comment about that.
-/

namespace Mutagenyx
open Json

/-- The id of the node that the comment is for: the reported one, or else that of the new node, or else 0. -/
def commentTarget (lang : Language) (report : MutatorResult) (new : Json) : Nat :=
  match report.mutatedNodeId with
  | some id => id
  | none => (nodeIdIn lang new).getD 0

/-- The tree got the comment for the node with the id: it stands beside or around that node, or was left out.  If the node is
the block of a branch or of a catch clause of a Solidity program, the branch or clause may be anything
(`C16_solidity_counterexample`). -/
inductive GotComment (lang : Language) (id : Nat) (comment : Option Json) (before : Json) : Json → Prop
  | leftOut : GotComment lang id comment before before
  | added (c : Json) (after : Json) : comment = some c → CommentAdded lang id c before after →
      GotComment lang id comment before after
  | garbled (c : Json) (p : Pos) (n x : Json) : lang = .solidity → comment = some c → nodeAt p before = some n →
      BranchBlock id n → GotComment lang id comment before (replaceAt p x before)

/-- `mutant`, with its report, is `ast` with one node, which is in a listed function if there is a list, mutated by one of the
algorithms, and with the comment about it.  `number` is the number of the node among the candidates of the algorithm. -/
def OneMutation {R : Type} [Rand R] (lang : Language) (env : MutEnv) (algorithms : List MutationType) (functions : List String)
    (ast mutant : Json) (report : MutatorResult) : Prop :=
  ∃ t ∈ algorithms, ∃ m : Mutator R, languageMutator env lang t = some m ∧
    ∃ (pos : Pos) (node node' : Json) (rng rng' : R) (rep : MutatorResult) (comment : Option Json) (number : Nat),
      nodeAt pos ast = some node ∧ m.isMutable node = true ∧
      (functions ≠ [] → insideListed lang.ctx functions pos ast = true) ∧
      (functions = [] → (positionsWhere m.isMutable (fun _ => true) ast)[number]? = some pos) ∧
      m.mutate node rng = .ok (node', rep, comment, rng') ∧ report = { rep with index := some number } ∧
      GotComment lang (commentTarget lang rep node') comment (replaceAt pos node' ast) mutant

end Mutagenyx
