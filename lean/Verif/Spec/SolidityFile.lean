import Verif.Spec.SolidityProgram

/-!
# Solidity source files: their tokens, and their nodes in the AST
-/

namespace Mutagenyx
namespace SolGrammar

/-- A constraint on the version of the compiler, as `>=0.8.1`: the operator, `0.8` and `1`. -/
structure Version where
  op : Option String := none
  first : String
  patch : Option String := none
  deriving Repr

/-- What is imported: a file, possibly under another name, or some names of a file, possibly under other names. -/
structure Import where
  file : String
  alias_ : Option String := none
  symbols : List (String × Option String) := []
  deriving Repr

/-- Parts of a file. -/
inductive Item where
  | pragma (vs : List Version)
  | import_ (i : Import)
  | contract (c : Contract)
  | member (x : Member)
  deriving Repr

/-- A file. -/
structure SourceFile where
  license : Option String := none
  items : List Item
  deriving Repr

/-! ### Tokens -/

/-- The tokens of the third number. -/
def patchToks : Option String → List String
  | none => []
  | some p => [".", p]

/-- The tokens of a constraint. -/
def Version.toks (v : Version) : List String := v.op.toList ++ v.first :: patchToks v.patch

/-- The tokens of another name. -/
def asToks : Option String → List String
  | none => []
  | some n => ["as", n]

/-- The tokens of an import. -/
def Import.toks (i : Import) : List String :=
  "import" :: ((match i.symbols with
    | [] => [quoted i.file]
    | ss => "{" :: (sepBy "," (ss.map fun s => s.1 :: asToks s.2) ++ ["}", "from", quoted i.file])) ++ (asToks i.alias_ ++ [";"]))

/-- The tokens of a part of a file. -/
def Item.toks : Item → List String
  | .pragma vs => "pragma" :: "solidity" :: (vs.flatMap Version.toks ++ [";"])
  | .import_ i => i.toks
  | .contract c => c.toks
  | .member x => x.toks

/-- The tokens of a file.  The license is a comment. -/
def SourceFile.toks (f : SourceFile) : List String := f.items.flatMap Item.toks

/-! ### Nodes -/

/-- The pieces into which the compiler cuts the constraint. -/
def Version.pieces (v : Version) : List String :=
  v.op.toList ++ v.first :: (v.patch.map ("." ++ ·)).toList

/-- The node stands for the import. -/
def ShowsImport (i : Import) (j : Json) : Prop :=
  IsA "ImportDirective" j ∧ j.getStrForKey "file" = some i.file ∧
    (j.getStrForKey "unitAlias").filter (· ≠ "") = i.alias_ ∧
    ∃ js, Json.field? "symbolAliases" j = some (.arr js) ∧
      Pairwise₂ (fun s x => x.getStrForKey "nodeType" = none ∧ (∃ v, Json.field? "foreign" x = some v ∧ ShowsName [s.1] v) ∧
        x.getStrForKey "local" = s.2) i.symbols js

/-- The node stands for the part of a file. -/
def ShowsItem : Item → Json → Prop
  | .pragma vs, j => IsA "PragmaDirective" j ∧
      Json.field? "literals" j = some (.arr (("solidity" :: vs.flatMap Version.pieces).map Json.str))
  | .import_ i, j => ShowsImport i j
  | .contract c, j => ShowsContract c j
  | .member x, j => ShowsMember x j

/-- The node stands for the file. -/
def ShowsFile (f : SourceFile) (j : Json) : Prop :=
  IsA "SourceUnit" j ∧ j.getStrForKey "license" = f.license ∧
    ∃ js, Json.field? "nodes" j = some (.arr js) ∧ Pairwise₂ ShowsItem f.items js

/-! ### Names -/

/-- The operator is one of those that the printer knows; the numbers are numbers. -/
structure Version.Plain (v : Version) : Prop where
  op : ∀ o, v.op = some o → o ∈ ["<", "<=", ">=", ">", "^"]
  first : ∃ a b : List Char, v.first.toList = a ++ '.' :: b ∧ a ≠ [] ∧ (∀ c ∈ a ++ b, c.isDigit = true)
  patch : ∀ p, v.patch = some p → p.toList ≠ [] ∧ ∀ c ∈ p.toList, c.isDigit = true

/-- The parts are plain.  The constraints but the first have operators, and if the first has none then it is in
several pieces.  Outside of contracts there are no functions, modifiers, variables and comments other than documentation. -/
def Item.Plain (flows : Bool) : Item → Prop
  | .pragma vs => (∀ v ∈ vs, v.Plain) ∧ (∀ v ∈ vs.tail, v.op ≠ none) ∧
      ∃ v, vs.head? = some v ∧ (v.op ≠ none ∨ v.patch ≠ none ∨ vs.tail ≠ [])
  | .import_ i => (∀ c ∈ i.file.toList, unescaped c = true) ∧ NameOpt i.alias_ ∧ (i.symbols ≠ [] → i.alias_ = none) ∧
      ∀ s ∈ i.symbols, isName s.1 = true ∧ NameOpt s.2
  | .contract c => c.Plain flows
  | .member x => x.Plain flows ∧ match x with
      | .state .. => False
      | .fn .. => False
      | .modifier .. => False
      | .comment .. => False
      | _ => True

/-- The parts are plain, and the license fits on the first line. -/
structure SourceFile.Plain (flows : Bool) (f : SourceFile) : Prop where
  license : ∀ l, f.license = some l → '\n' ∉ l.toList ∧ 28 + (l.toList.map Char.utf8Size).sum < 150
  items : ∀ x ∈ f.items, x.Plain flows

end SolGrammar
end Mutagenyx
