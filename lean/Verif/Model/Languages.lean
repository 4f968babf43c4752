import Verif.Model.Comments
import Verif.Model.Driver
import Verif.Model.SolidityMutators
import Verif.Model.VyperMutators

/-!
# The two languages

What the delegates of `solidity/language_interface.rs` and `vyper/language_interface.rs` provide for mutating.
-/

namespace Mutagenyx
variable {R : Type}

/-- Models `get_mutator_factory` (`solidity/language_interface.rs:72-74`, `vyper/language_interface.rs:70-72`): the
mutator of an algorithm in a language. -/
def languageMutator [Rand R] (env : MutEnv) : Language → MutationType → Option (Mutator R)
  | .solidity => Solidity.mutatorFor env
  | .vyper => Vyper.mutatorFor env

/-- Models `json_is_language_ast_json` (`solidity/language_interface.rs:88-95`, `vyper/language_interface.rs:86-91`). -/
def isAstJson : Language → Json → Bool
  | .solidity, j => j.getStrForKey "nodeType" = some "SourceUnit"
  | .vyper, j => j.hasValueForKey "contract_name" && j.hasValueForKey "ast"

/-- Models `get_file_extension` (`solidity/language_interface.rs:122-124`, `vyper/language_interface.rs:127-129`). -/
def Language.ext : Language → String
  | solidity => "sol"
  | vyper => "vy"

/-- The namer and the id maker of a language. -/
def Language.ctx : Language → LangCtx
  | solidity => solidityCtx
  | vyper => vyperCtx

/-- What the comment inserter of a language works with (`solidity/language_interface.rs:149-156`,
`vyper/language_interface.rs:153-160`). -/
def Language.commenting : Language → Commenting
  | solidity => Solidity.commenting
  | vyper => Vyper.commenting

/-- A language as the mutation generator sees it (`solidity/language_interface.rs:54-163`,
`vyper/language_interface.rs:50-167`). -/
def Language.delegate [Rand R] (env : MutEnv) (l : Language) : Lang R where
  language := l
  ctx := l.ctx
  mutatorFor := languageMutator env l
  insertComment := insertCommentByPath l.commenting
  isAst := isAstJson l
  ext := l.ext

/-- Models `default_compiler_settings` (`solidity/language_interface.rs:126-130`, `vyper/language_interface.rs:130-134`). -/
def defaultCompiler : Language → Prefs
  | .solidity => Prefs.new.setString "path" "solc"
  | .vyper => Prefs.new.setString "path" "vyper"

end Mutagenyx
