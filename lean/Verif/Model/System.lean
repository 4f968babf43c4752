import Verif.Model.Config
import Verif.Model.Path
import Verif.Model.Languages

/-!
# Compilers, recognition of inputs, and the `pretty-print` command

Models `mutagenyx/src/compiler_settings.rs`, the parts of `solidity/language_interface.rs` and
`vyper/language_interface.rs` that call compilers, `recognizer.rs`, the parts of `json_ast_language_interface.rs`
that read inputs and try mutants, and `mutagenyx/src/pretty_printing.rs`.

Programs and files are a parameter, `Sys`, with a state of their own.  Log messages are not modelled.
-/

namespace Mutagenyx

/-! ### Settings (`mutagenyx/src/compiler_settings.rs`) -/

/-- Models `SolidityCompilerSettings` (`compiler_settings.rs:10-28`). -/
structure SolcSettings where
  compiler : String := "solc"
  basePath : Option String := none
  includePaths : List String := []
  allowPaths : List String := []
  remappings : List String := []
  stopAfter : Option String := none

/-- The list of strings as a preference, if it is not empty (`compiler_settings.rs:39-61`). -/
def setStrings (key : String) (xs : List String) (p : Prefs) : Prefs :=
  if xs.isEmpty then p else p.setArray key (xs.map Pref.str)

/-- The string as a preference, if there is one (`compiler_settings.rs:35-37`, `63-65`, `85-87`). -/
def setOption (key : String) (x : Option String) (p : Prefs) : Prefs :=
  match x with
  | some s => p.setString key s
  | none => p

/-- Models `SolidityCompilerSettings::to_preferences` (`compiler_settings.rs:31-68`). -/
def SolcSettings.toPreferences (c : SolcSettings) : Prefs :=
  setOption "stop-after" c.stopAfter (setStrings "remappings" c.remappings (setStrings "allow-paths" c.allowPaths
    (setStrings "include-paths" c.includePaths (setOption "base-path" c.basePath (Prefs.new.setString "path" c.compiler)))))

/-- Models `VyperCompilerSettings` (`compiler_settings.rs:71-77`). -/
structure VyperSettings where
  compiler : String := "vyper"
  rootPath : Option String := none

/-- Models `VyperCompilerSettings::to_preferences` (`compiler_settings.rs:80-89`). -/
def VyperSettings.toPreferences (c : VyperSettings) : Prefs :=
  setOption "root-path" c.rootPath (Prefs.new.setString "path" c.compiler)

/-- Models `CompilerSettings::to_preferences` (`compiler_settings.rs:119-137`). -/
def settingsPreferences (c : SolcSettings) (v : VyperSettings) : Prefs :=
  let solidity := Prefs.new.setPrefs "compiler" c.toPreferences
  let vyper := Prefs.new.setPrefs "compiler" v.toPreferences
  (Prefs.new.setPrefs Language.solidity.toStr solidity).setPrefs Language.vyper.toStr vyper

/-! ### Arguments -/

/-- The compiler settings of a language: the nested `get_preferences_for_key` of
`solidity/language_interface.rs:173-175`, `230-232` and `vyper/language_interface.rs:177-179`, `197-199`. -/
def compilerPrefs (lang : Language) (p : Prefs) : Option Prefs :=
  match p.getPrefs lang.toStr with
  | some lp => lp.getPrefs "compiler"
  | none => none

/-- The strings among the values; the others are skipped (`if let PreferenceValue::String`). -/
def strings (xs : List Pref) : List String := xs.filterMap fun
  | .str s => some s
  | _ => none

/-- The loop over the allowed paths (`solidity/language_interface.rs:190-200`) from position `i` of `len`: all but the
last get a comma. -/
def allowLoop (len : Nat) : Nat → List Pref → List String
  | _, [] => []
  | i, .str s :: xs => (if i < len - 1 then s ++ "," else s) :: allowLoop len (i + 1) xs
  | i, _ :: xs => allowLoop len (i + 1) xs

/-- Models `get_solidity_compiler_flags_from_preferences` (`solidity/language_interface.rs:170-220`). -/
def solidityFlags (p : Prefs) : List String :=
  match compilerPrefs .solidity p with
  | none => []
  | some c =>
    (match c.getString "base-path" with
      | some b => ["--base-path", b]
      | none => []) ++
    (match c.getArray "include-paths" with
      | some xs => (strings xs).flatMap fun x => ["--include-path", x]
      | none => []) ++
    (match c.getArray "allow-paths" with
      | some xs => if xs.isEmpty then [] else "--allow-paths" :: allowLoop xs.length 0 xs
      | none => []) ++
    (match c.getArray "remappings" with
      | some xs => strings xs
      | none => []) ++
    (match c.getString "stop-after" with
      | some s => ["--stop-after", s]
      | none => [])

/-- The `path` setting, or the usual name of the compiler. -/
def compilerPath (lang : Language) (default : String) (p : Prefs) : String :=
  match compilerPrefs lang p with
  | some c => (c.getString "path").getD default
  | none => default

/-- Models `get_solidity_compiler_from_preferences` (`solidity/language_interface.rs:227-240`). -/
def solidityCompiler (p : Prefs) : String := compilerPath .solidity "solc" p

/-- Models `get_vyper_compiler_flags_from_preferences` (`vyper/language_interface.rs:174-188`). -/
def vyperFlags (p : Prefs) : List String :=
  match compilerPrefs .vyper p with
  | none => []
  | some c => match c.getString "root-path" with
    | some r => ["-p", r]
    | none => []

/-- Models `get_vyper_compiler_from_preferences` (`vyper/language_interface.rs:195-208`). -/
def vyperCompiler (p : Prefs) : String := compilerPath .vyper "vyper" p

/-- The arguments with which the Solidity compiler makes a syntax tree (`solidity/language_interface.rs:252-264`). -/
def solidityAstArgs (tmp : String) (p : Prefs) (file : String) : List String :=
  solidityFlags p ++ ["--ast-compact-json", "--overwrite", "-o", tmp, file]

/-- The arguments with which the Solidity compiler tries a program (`solidity/language_interface.rs:307-314`). -/
def solidityTryArgs (tmp : String) (p : Prefs) (file : String) : List String :=
  solidityFlags p ++ ["--overwrite", "-o", tmp, file]

/-- The arguments of the second attempt (`solidity/language_interface.rs:322-323`). -/
def solidityRetryArgs (tmp : String) (p : Prefs) (file : String) : List String :=
  solidityTryArgs tmp p file ++ ["--stop-after", "parsing"]

/-- The arguments with which the Vyper compiler makes a syntax tree (`vyper/language_interface.rs:285-307`); `out` is
the file to write to, for compilers with the option `-o`. -/
def vyperAstArgs (dashO : Bool) (out : String) (p : Prefs) (file : String) : List String :=
  vyperFlags p ++ if dashO then ["-f", "ast", "-o", out, file] else ["-f", "ast", file]

/-- Components without the trailing ones that are empty or `.`, given last first; a leading `.` stays. -/
def Path.trim : List (List Char) → List (List Char)
  | [] => []
  | c :: cs => if c = [] ∨ (c = ['.'] ∧ cs ≠ []) then Path.trim cs else c :: cs

/-- Components, given last first, with slashes between them. -/
def Path.glue : List (List Char) → List Char
  | [] => []
  | [c] => c
  | c :: cs => Path.glue cs ++ '/' :: c

/-- Models `PathBuf::pop`: the path without its last component.  Only used for paths with a file name. -/
def Path.parent (p : String) : String :=
  let cs := Path.trim (Json.splitSlash p.toList).reverse
  let up := Path.trim cs.tail
  String.ofList (if up = [] ∧ p.toList.head? = some '/' then ['/'] else Path.glue up)

/-- The arguments with which docker runs the Vyper compiler to make a syntax tree
(`vyper/language_interface.rs:365-391`). -/
def dockerAstArgs (out : String) (p : Prefs) (file : String) : List String :=
  ["run", "-v", Path.parent file ++ ":/code", "vyperlang/vyper", "-f", "ast"] ++ vyperFlags p ++ [file, "-o", out]

/-- The arguments with which docker runs the Vyper compiler to try a program (`vyper/language_interface.rs:450-466`). -/
def dockerTryArgs (p : Prefs) (file : String) : List String :=
  ["run", "-v", Path.parent file ++ ":/code", "vyperlang/vyper"] ++ vyperFlags p ++ [file]

/-! ### Programs and files -/

/-- What the tool can do to the machine that it runs on, whose state is `S`. -/
structure Sys (S : Type) where
  /-- `shell_execute` (`utility.rs:13-31`): whether the program ended well, and its output; `none` if it could not be
  started.  Simplified: the output is valid UTF-8. -/
  exec : String → List String → S → Option (Bool × String) × S
  /-- `load_json_from_file_with_name` (`json.rs:26-40`).  Simplified: the reason of a failure is dropped. -/
  readJson : String → S → Option Json
  /-- Create a file with this text: whether that succeeds. -/
  write : String → String → S → Bool × S
  /-- `std::fs::remove_file`. -/
  remove : String → S → S
  /-- `std::env::temp_dir`. -/
  tmp : String
  /-- Whether a Vyper compiler that reports this version has the option `-o`: the crate `versions`. -/
  dashO : String → Outcome Bool

/-- A computation with effects. -/
def Act (S α : Type) := S → Outcome α × S

namespace Act
variable {S α β : Type}
/-- One computation after the other. -/
def bind (x : Act S α) (f : α → Act S β) : Act S β := fun s =>
  match x s with
  | (.ok a, s') => f a s'
  | (.err e, s') => (.err e, s')
  | (.panic, s') => (.panic, s')
  | (.outOfFuel, s') => (.outOfFuel, s')
instance : Monad (Act S) where
  pure a := fun s => (.ok a, s)
  bind := bind
/-- A computation without effects. -/
def lift (o : Outcome α) : Act S α := fun s => (o, s)
/-- `Result::ok`: an error is a value. -/
def attempt (x : Act S α) : Act S (Option α) := fun s =>
  match x s with
  | (.ok a, s') => (.ok (some a), s')
  | (.err _, s') => (.ok none, s')
  | (.panic, s') => (.panic, s')
  | (.outOfFuel, s') => (.outOfFuel, s')
/-- `Option::unwrap`. -/
def unwrap (o : Option α) : Act S α := lift (match o with
  | some a => .ok a
  | none => .panic)
end Act

variable {S : Type}

/-- `shell_execute`. -/
def Sys.run (sys : Sys S) (program : String) (args : List String) : Act S (Option (Bool × String)) := fun s =>
  let r := sys.exec program args s
  (.ok r.1, r.2)

/-- The program ended well. -/
def succeeded : Option (Bool × String) → Bool
  | some (b, _) => b
  | none => false

/-- `load_json_from_file_with_name`. -/
def Sys.load (sys : Sys S) (file : String) : Act S Json := fun s =>
  match sys.readJson file s with
  | some j => (.ok j, s)
  | none => (.err .json, s)

/-- Create a file with this text. -/
def Sys.create (sys : Sys S) (file text : String) : Act S Bool := fun s =>
  let r := sys.write file text s
  (.ok r.1, r.2)

/-! ### Making syntax trees -/

/-- Models `file_is_source_file` (`solidity/language_interface.rs:248-297`): the file with the syntax tree. -/
def solidityAst (sys : Sys S) (file : String) (p : Prefs) : Act S String := do
  let base ← Act.unwrap (Path.fileName file)
  let r ← sys.run (solidityCompiler p) (solidityAstArgs sys.tmp p file)
  if succeeded r then pure (sys.tmp ++ "/" ++ base ++ "_json.ast")
  else Act.lift (.err .sourceDoesNotCompile)

/-- Models `get_vyper_compiler_version` with the comparison that follows (`vyper/language_interface.rs:215-258`, `287`):
whether the compiler has the option `-o`.  The last byte of the output is cut off, which crashes if there is none
or if it is a part of a longer character. -/
def vyperDashO (sys : Sys S) (compiler : String) : Act S Bool := do
  match ← sys.run compiler ["--version"] with
  | none => Act.lift (.err .io)
  | some (false, _) => Act.lift (.err .compilerNoVersion)
  | some (true, out) => match out.toList.getLast? with
    | none => Act.lift .panic
    | some c => if c.utf8Size = 1 then Act.lift (sys.dashO (String.ofList out.toList.dropLast)) else Act.lift .panic

/-- Models `file_is_source_file_with_vyper_from_pip` (`vyper/language_interface.rs:269-344`). -/
def vyperAst (sys : Sys S) (file : String) (p : Prefs) : Act S String := do
  let base ← Act.unwrap (Path.fileName file)
  let out := Path.join sys.tmp (base ++ ".json")
  let dashO ← vyperDashO sys (vyperCompiler p)
  match ← sys.run (vyperCompiler p) (vyperAstArgs dashO out p file) with
  | some (true, text) =>
    if dashO then pure out
    else do
      if ← sys.create out text then pure out else Act.lift (.err .io)
  | _ => Act.lift (.err .sourceDoesNotCompile)

/-- Models `file_is_source_file_with_docker` (`vyper/language_interface.rs:352-409`). -/
def dockerAst (sys : Sys S) (file : String) (p : Prefs) : Act S String := do
  let base ← Act.unwrap (Path.fileName file)
  let out := sys.tmp ++ "/" ++ base ++ ".json"
  let r ← sys.run "docker" (dockerAstArgs out p file)
  if succeeded r then pure out else Act.lift (.err .sourceDoesNotCompile)

/-- Models `get_value_as_super_ast` (`solidity/language_interface.rs:63-70`, `vyper/language_interface.rs:62-68`). -/
def asAst (lang : Language) (j : Json) : Act S Json :=
  Act.lift (if isAstJson lang j then .ok j else .err .languageNotRecognized)

/-- Models `convert_source_file_to_ast` (`solidity/language_interface.rs:97-112`, `vyper/language_interface.rs:93-116`). -/
def convertSource (sys : Sys S) (lang : Language) (file : String) (p : Prefs) : Act S Json :=
  match lang with
  | .solidity => do
    match ← Act.attempt (solidityAst sys file p) with
    | some out => do asAst lang (← sys.load out)
    | none => Act.lift (.err .sourceDoesNotCompile)
  | .vyper => do
    match ← Act.attempt (vyperAst sys file p) with
    | some out => do asAst lang (← sys.load out)
    | none => do
      match ← Act.attempt (dockerAst sys file p) with
      | some out => do asAst lang (← sys.load out)
      | none => Act.lift (.err .sourceDoesNotCompile)

/-- Models `load_ast_from_file` (`json_ast_language_interface.rs:63-82`). -/
def loadAst (sys : Sys S) (lang : Language) (ft : FileType) (file : String) (p : Prefs) : Act S Json :=
  match ft with
  | .source => convertSource sys lang file p
  | .ast => do asAst lang (← sys.load file)
  | .config => Act.lift (.err .configFileNotSupported)

/-! ### Recognition (`recognizer.rs`) -/

/-- Models `file_is_language_source_file` (`solidity/language_interface.rs:114-116`,
`vyper/language_interface.rs:118-121`). -/
def isSource (sys : Sys S) (lang : Language) (file : String) (p : Prefs) : Act S Bool :=
  match lang with
  | .solidity => do pure (← Act.attempt (solidityAst sys file p)).isSome
  | .vyper => do
    if (← Act.attempt (vyperAst sys file p)).isSome then pure true
    else pure (← Act.attempt (dockerAst sys file p)).isSome

/-- Models `file_is_language_ast_file` (`json_ast_language_interface.rs:238-243`). -/
def isAst (sys : Sys S) (lang : Language) (file : String) : Act S Bool := do
  match ← Act.attempt (sys.load file) with
  | some j => pure (isAstJson lang j)
  | none => pure false

/-- The languages in the order of `get_list_of_all_language_objects` (`language_interface.rs:245-253`). -/
def allLanguages : List Language := [.solidity, .vyper]

/-- The loop of `recognize_source_file` and `recognize_ast_file` (`recognizer.rs:65-105`): the first language that
passes the check. -/
def firstLanguage (check : Language → Act S Bool) : List Language → Act S (Option Language)
  | [] => pure none
  | l :: ls => do if ← check l then pure (some l) else firstLanguage check ls

/-- Models `recognize_config_file` (`recognizer.rs:112-125`). -/
def recognizeConfig (sys : Sys S) (file : String) : Act S (Option Language) :=
  if Path.extension file = some "mgnx" then do
    match ← Act.attempt (sys.load file) with
    | some j => match j.getStrForKey "language" with
      | some l => pure (Language.ofString? l)
      | none => pure none
    | none => pure none
  else pure none

/-- Models `recognize_file` (`recognizer.rs:133-149`). -/
def recognizeFile (sys : Sys S) (file : String) (p : Prefs) : Act S (Language × FileType) := do
  match ← recognizeConfig sys file with
  | some l => pure (l, .config)
  | none => match ← firstLanguage (fun l => isSource sys l file p) allLanguages with
    | some l => pure (l, .source)
    | none => match ← firstLanguage (fun l => isAst sys l file) allLanguages with
      | some l => pure (l, .ast)
      | none => Act.lift (.err .languageNotRecognized)

/-! ### Trying mutants -/

/-- Models the two versions of `file_compiles` (`solidity/language_interface.rs:305-326`,
`vyper/language_interface.rs:411-494`). -/
def fileCompiles (sys : Sys S) (lang : Language) (file : String) (p : Prefs) : Act S Bool :=
  match lang with
  | .solidity => do
    if succeeded (← sys.run (solidityCompiler p) (solidityTryArgs sys.tmp p file)) then pure true
    else pure (succeeded (← sys.run (solidityCompiler p) (solidityRetryArgs sys.tmp p file)))
  | .vyper => do
    if succeeded (← sys.run (vyperCompiler p) (vyperFlags p ++ [file])) then pure true
    else pure (succeeded (← sys.run "docker" (dockerTryArgs p file)))

/-- Models `mutant_compiles` (`json_ast_language_interface.rs:249-280`) for a mutant with the given text, which goes to
a file in the directory for temporary files that has the name of the input. -/
def mutantCompiles (sys : Sys S) (lang : Language) (input text : String) (p : Prefs) : Act S Bool := do
  let base ← Act.unwrap (Path.fileName input)
  let file := Path.join sys.tmp base
  if ← sys.create file text then do
    let ok ← fileCompiles sys lang file p
    fun s => (.ok ok, sys.remove file s)
  else pure false

/-! ### The command `pretty-print` (`mutagenyx/src/pretty_printing.rs`) -/

/-- What the command shows. -/
inductive Shown where
  /-- The text printed for an input, on standard output. -/
  | text (file text : String)
  /-- The message that an input cannot be printed. -/
  | failure (file : String)
  /-- The text printed for an input, in a file. -/
  | written (file target text : String)
  deriving DecidableEq, Repr

/-- Models the common part of `pretty_print_file` and `pretty_print_file_to_stream`
(`pretty_printing.rs:81-92`, `127-141`): the language and the syntax tree. -/
def readInput (sys : Sys S) (p : Prefs) (file : String) : Act S (Language × Json) := do
  let (lang, ft) ← recognizeFile sys file p
  let ast ← loadAst sys lang ft file p
  pure (lang, ast)

/-- Models `pretty_print_file` (`pretty_printing.rs:73-116`); `print` is the text printed for a syntax tree.  Making the
directory is a part of creating the file. -/
def prettyPrintFile (sys : Sys S) (print : Language → Json → Outcome String) (p : Prefs) (dir file : String) :
    Act S Shown := do
  let (lang, ast) ← readInput sys p file
  let target ← Act.unwrap (printTarget lang.ext file dir)
  let text ← Act.lift (print lang ast)
  if ← sys.create target text then pure (.written file target text) else Act.lift (.err .io)

/-- Models `pretty_print_file_to_stream` (`pretty_printing.rs:125-145`). -/
def prettyPrintToStream (sys : Sys S) (print : Language → Json → Outcome String) (p : Prefs) (file : String) :
    Act S Shown := do
  let (lang, ast) ← readInput sys p file
  let text ← Act.lift (print lang ast)
  pure (.text file text)

/-- Models the loop of `pretty_print_files` (`pretty_printing.rs:44-63`): what is shown, in order.  On standard output
the loop ends with the first input that is printed (`:48`). -/
def prettyPrintFiles (sys : Sys S) (print : Language → Json → Outcome String) (p : Prefs) (stdout : Bool) (dir : String) :
    List String → Act S (List Shown)
  | [] => pure []
  | f :: fs =>
    if stdout then do
      match ← Act.attempt (prettyPrintToStream sys print p f) with
      | some shown => pure [shown]
      | none => do
        let rest ← prettyPrintFiles sys print p stdout dir fs
        pure (.failure f :: rest)
    else do
      let _ ← Act.unwrap (Path.fileName f)
      let shown := match ← Act.attempt (prettyPrintFile sys print p dir f) with
        | some shown => shown
        | none => .failure f
      let rest ← prettyPrintFiles sys print p stdout dir fs
      pure (shown :: rest)

end Mutagenyx
