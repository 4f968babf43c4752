import Verif.Model.Preferences
import Verif.Model.Path

/-!
# `mutagenyx_lib/src/config_file.rs`

The text form of JSON (serde_json's parser and printer, `jsonxf`) is not modelled: a configuration file
is its JSON value, `none` when it cannot be loaded.
-/

namespace Mutagenyx

/-- Models `ConfigurationFileDetails` (`config_file.rs:53-87`). -/
structure Config where
  language : Option Language := none
  filenames : List String := []
  numberOfMutants : Int := 5
  seed : Option Nat := none
  mutations : List MutationType := []
  allMutations : Bool := false
  compilerDetails : Option Prefs := none
  functions : List String := []
  verifyMutants : Bool := false
  outputDirectory : Option String := none
  printOriginal : Bool := false
  deriving Inhabited

namespace Config

/-- The strings among the elements of an array (`config_file.rs:156-160`, `201-205`). -/
def strings (xs : List Json) : List String := xs.filterMap Json.asStr

/-- Models the part of `new_from_file` after the required keys were found (`config_file.rs:141-218`). -/
def ofJsonBody (lang : Language) (j : Json) (details : Option Prefs) : Config where
  language := some lang
  filenames := match j.getArrayForKey "filenames" with
    | some xs => strings xs
    | none => []
  numberOfMutants := (j.getIntForKey "num-mutants").getD 5
  seed := (j.getIntForKey "seed").map i64AsU64
  mutations := match j.getArrayForKey "mutations" with
    | some xs => (strings xs).filterMap MutationType.ofString?
    | none => []
  allMutations := (j.getBoolForKey "all-mutations").getD false
  compilerDetails := details
  functions := match j.getArrayForKey "functions" with
    | some xs => strings xs
    | none => []
  verifyMutants := (j.getBoolForKey "validate-mutants").getD false
  outputDirectory := j.getStrForKey "output-directory"
  printOriginal := (j.getBoolForKey "print-original").getD false

/-- Models `new_from_file` (`config_file.rs:95-222`); `loaded` is the JSON value of the file. -/
def newFromFile (file : String) (loaded : Option Json) : Outcome Config :=
  match Path.extension file with
  | none => .err .configFileBadExtension
  | some ext =>
    if ext ≠ "mgnx" then .err .configFileBadExtension
    else match loaded with
      | none => .err .configFileNotSupported
      | some j =>
        let missing := (if j.containsKey "language" then [] else ["language"]) ++
          (if j.containsKey "filenames" then [] else ["filenames"])
        if missing ≠ [] then .err (.configFileMissingRequiredKey missing)
        else match j.getStrForKey "language" with
          | none => .panic
          | some s => match Language.ofString? s with
            | none => .err .configFileUnsupportedLanguage
            | some lang => match Json.field? "compiler-details" j with
              | none => .ok (ofJsonBody lang j none)
              | some d => match Prefs.ofJson d with
                | .ok p => .ok (ofJsonBody lang j (some p))
                | .err e => .err e
                | .panic => .panic
                | .outOfFuel => .outOfFuel

/-- `if let Some(v) = o { json_value.set_node_for_key(k, v) }`. -/
def setOpt (k : String) (o : Option Json) (j : Json) : Json :=
  match o with
  | some v => Json.setNodeForKey k v j
  | none => j

/-- An array of strings. -/
def strArr (xs : List String) : Json := .arr (xs.map .str)

/-- Models `convert_to_json` (`config_file.rs:225-279`); each line sets one key in the order of the code.
It fails only where converting the preferences fails, which it never does. -/
def toJson (c : Config) : Json :=
  let j := Json.obj []
  let j := setOpt "language" (c.language.map fun l => .str l.toStr) j
  let j := Json.setNodeForKey "filenames" (strArr c.filenames) j
  let j := Json.setNodeForKey "num-mutants" (.num (.int c.numberOfMutants)) j
  let j := setOpt "seed" (c.seed.map fun (s : Nat) => .num (.int s)) j
  let j := setOpt "mutations" (if c.mutations.isEmpty then none
    else some (strArr (c.mutations.map MutationType.toStr))) j
  let j := setOpt "all-mutations" (if c.allMutations then some (.bool c.allMutations) else none) j
  let j := setOpt "compiler-details" (c.compilerDetails.map Prefs.toJson) j
  let j := setOpt "functions" (if c.functions.isEmpty then none else some (strArr c.functions)) j
  let j := Json.setNodeForKey "validate-mutants" (.bool c.verifyMutants) j
  let j := setOpt "output-directory" (c.outputDirectory.map .str) j
  Json.setNodeForKey "print-original" (.bool c.printOriginal) j

end Config
end Mutagenyx
