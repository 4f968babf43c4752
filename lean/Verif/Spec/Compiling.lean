import Verif.Model.System

/-!
# What compilers have to say for a file to be a program
-/

namespace Mutagenyx

variable {S : Type}

/-- The installed Vyper compiler is asked about a file: the answer, and the state afterwards.  It is first asked for its
version, of which the line end is cut off; with `-o` it writes the syntax tree itself, without it the tool writes what it
says to `out`. -/
inductive VyperAsked (sys : Sys S) (p : Prefs) (file out : String) (s : S) : Bool → S → Prop
  | noVersion (r : Option (Bool × String)) (s1 : S) : sys.exec (vyperCompiler p) ["--version"] s = (r, s1) →
      (∀ text, r ≠ some (true, text)) → VyperAsked sys p file out s false s1
  | unknownVersion (v : String) (c : Char) (e : Err) (s1 : S) :
      sys.exec (vyperCompiler p) ["--version"] s = (some (true, v.push c), s1) → c.utf8Size = 1 → sys.dashO v = .err e →
      VyperAsked sys p file out s false s1
  | refused (v : String) (c : Char) (dashO : Bool) (r : Option (Bool × String)) (s1 s2 : S) :
      sys.exec (vyperCompiler p) ["--version"] s = (some (true, v.push c), s1) → c.utf8Size = 1 → sys.dashO v = .ok dashO →
      sys.exec (vyperCompiler p) (vyperAstArgs dashO out p file) s1 = (r, s2) → (∀ text, r ≠ some (true, text)) →
      VyperAsked sys p file out s false s2
  | writes (v : String) (c : Char) (text : String) (s1 s2 : S) :
      sys.exec (vyperCompiler p) ["--version"] s = (some (true, v.push c), s1) → c.utf8Size = 1 → sys.dashO v = .ok true →
      sys.exec (vyperCompiler p) (vyperAstArgs true out p file) s1 = (some (true, text), s2) →
      VyperAsked sys p file out s true s2
  | says (v : String) (c : Char) (text : String) (done : Bool) (s1 s2 s3 : S) :
      sys.exec (vyperCompiler p) ["--version"] s = (some (true, v.push c), s1) → c.utf8Size = 1 → sys.dashO v = .ok false →
      sys.exec (vyperCompiler p) (vyperAstArgs false out p file) s1 = (some (true, text), s2) →
      sys.write out text s2 = (done, s3) → VyperAsked sys p file out s done s3

/-- The compilers are asked for the syntax tree of a program with file name `base`: the file that holds it, if they accept
the program. -/
inductive Compiled (sys : Sys S) (p : Prefs) (file base : String) (s : S) : Language → Option String → S → Prop
  | solidity (text : String) (s' : S) : sys.exec (solidityCompiler p) (solidityAstArgs sys.tmp p file) s = (some (true, text), s') →
      Compiled sys p file base s .solidity (some (sys.tmp ++ "/" ++ base ++ "_json.ast")) s'
  | notSolidity (r : Option (Bool × String)) (s' : S) :
      sys.exec (solidityCompiler p) (solidityAstArgs sys.tmp p file) s = (r, s') → (∀ text, r ≠ some (true, text)) →
      Compiled sys p file base s .solidity none s'
  | vyper (s' : S) : VyperAsked sys p file (Path.join sys.tmp (base ++ ".json")) s true s' →
      Compiled sys p file base s .vyper (some (Path.join sys.tmp (base ++ ".json"))) s'
  | docker (text : String) (s1 s' : S) : VyperAsked sys p file (Path.join sys.tmp (base ++ ".json")) s false s1 →
      sys.exec "docker" (dockerAstArgs (sys.tmp ++ "/" ++ base ++ ".json") p file) s1 = (some (true, text), s') →
      Compiled sys p file base s .vyper (some (sys.tmp ++ "/" ++ base ++ ".json")) s'
  | notVyper (r : Option (Bool × String)) (s1 s' : S) : VyperAsked sys p file (Path.join sys.tmp (base ++ ".json")) s false s1 →
      sys.exec "docker" (dockerAstArgs (sys.tmp ++ "/" ++ base ++ ".json") p file) s1 = (r, s') → (∀ text, r ≠ some (true, text)) →
      Compiled sys p file base s .vyper none s'

end Mutagenyx
