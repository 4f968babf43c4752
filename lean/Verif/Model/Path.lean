import Verif.Model.Json

/-!
# The functions of `std::path` the tool uses (Unix)

A path is its text.
-/

namespace Mutagenyx
namespace Path

/-- The last component that is neither empty nor `.`, of components given last first. -/
def lastNormal : List (List Char) → Option (List Char)
  | [] => none
  | c :: cs => if c = [] ∨ c = ['.'] then lastNormal cs else some c

/-- Models `Path::file_name`: the last component; trailing slashes and `.` components do not count,
`..` has no file name. -/
def fileName (p : String) : Option String :=
  match lastNormal (Json.splitSlash p.toList).reverse with
  | some c => if c = ['.', '.'] then none else some (String.ofList c)
  | none => none

/-- Models `Path::join` (`PathBuf::push`): an absolute right side replaces, otherwise a separator is added
unless the left side is empty or ends with one. -/
def join (d f : String) : String :=
  match f.toList with
  | '/' :: _ => f
  | _ => match d.toList.getLast? with
    | none => f
    | some c => if c = '/' then d ++ f else d ++ "/" ++ f

/-- The text after the last dot and the text before it. -/
def splitLastDot : List Char → Option (List Char × List Char)
  | [] => none
  | c :: cs => match splitLastDot cs with
    | some (a, b) => some (c :: a, b)
    | none => if c = '.' then some ([], cs) else none

/-- Models `Path::extension`: what follows the last dot of the file name, unless that dot starts it. -/
def extension (p : String) : Option String :=
  match fileName p with
  | some f => match splitLastDot f.toList with
    | some (a, b) => if a = [] then none else some (String.ofList b)
    | none => none
  | none => none

/-- Models `str::ends_with`. -/
def endsWith (s suffix : String) : Bool := suffix.toList.isSuffixOf s.toList

end Path
end Mutagenyx
