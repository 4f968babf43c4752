import Verif.Proofs.VyperSturdy
import Verif.Proofs.SoliditySturdy
import Verif.Props.Flow

/-!
# Printing comes to an end (property C93)

`VyPrint.Sturdy` and `SolPrint.Sturdy` (`Spec/Sturdy.lean`) say what a node must be like: the lists that the printer
reads side by side are equally long, byte strings have two characters for every byte, and the words of running text
(comments and documentation) are short.
-/

namespace Mutagenyx

namespace Json

/-- The parts of a tree, in document order. -/
def parts : Json → List Json := fun j => go (NodePrinter.depth j + 1) j
where
  /-- The parts down to a depth. -/
  go : Nat → Json → List Json
    | 0, _ => []
    | k + 1, j => j :: j.children.flatMap (go k)

theorem mem_parts_go {m : Json} : (k : Nat) → (j : Json) → NodePrinter.depth j < k → Within m j → m ∈ parts.go k j
  | 0, _, h, _ => absurd h (by omega)
  | k + 1, j, h, hw => by
    cases hw with
    | refl => exact List.mem_cons_self ..
    | step hc hm =>
      have := NodePrinter.depth_children hc
      exact List.mem_cons_of_mem _ (List.mem_flatMap.2 ⟨_, hc, mem_parts_go k _ (by omega) hm⟩)

theorem mem_parts {m j : Json} (h : Within m j) : m ∈ parts j := mem_parts_go _ _ (by omega) h

end Json

/-- Calls on the token printer that come to running text with a word wider than the page do not end. -/
theorem Printer.run_stuck {checks : Bool} {w next : List Char} {post : List Op} : {pre : List Op} → {p p' : Printer} →
    (h1 : ' ' ∉ w) → (h2 : '\n' ∉ w) → (hr : run checks pre p = .ok p') → (hcol : p'.column ≤ p'.pageWidth) →
    (hroom : 1 + p'.indentLength + utf8Len next < p'.pageWidth) → (hlong : p'.pageWidth < utf8Len w) →
    run checks (pre ++ .flow w next :: post) p = .outOfFuel
  | [], p, p', h1, h2, hr, hcol, hroom, hlong => by
    cases hr
    rw [List.nil_append, run]
    show (match writeFlow checks w next p with | .ok p' => _ | .err e => _ | .panic => _ | .outOfFuel => _) = _
    rw [writeFlow, C46_long_word_counterexample checks w next p _ h1 h2 hcol hroom hlong]
  | o :: pre, p, p', h1, h2, hr, hcol, hroom, hlong => by
    rw [run] at hr
    rw [List.cons_append, run]
    split at hr
    · exact run_stuck h1 h2 hr hcol hroom hlong
    all_goals cases hr

/-! ## Vyper -/

namespace VyPrint

/-- **C93 for Vyper, in part.** Every JSON tree whose nodes are sturdy is printed: printing neither crashes nor runs
forever.  This is for every tree, not only those of programs, whatever keys are missing or have other values, and for
every depth if there is no running text (`w = none`).  If there is, its words must fit on the page next to the
deepest indentation.  Missing: other trees, for which see the counterexamples. -/
theorem C93_vyper_partial (env : PrintEnv) (w : Option Nat) (j : Json) (ho : ∀ m, Json.Within m j → Sturdy env w m)
    (hr : RoomFor w (Json.nest indents j)) : ∃ text, printText env j = .ok text :=
  prints env j ho hr

/-- A check of one node, for nodes other than comments that hold a node. -/
def sturdyCheck (W : Nat) (n : Json) : Bool :=
  let t := n.getStrForKey "ast_type"
  let short (v : String) := decide (∀ x ∈ Printer.words v.toList, utf8Len x ≤ W)
  if t = some "Dict" then match Json.field? "keys" n, Json.field? "values" n with
    | some (.arr ks), some (.arr vs) => ks.length = vs.length
    | _, _ => true
  else if t = some "Bytes" then match n.getStrForKey "value" with
    | some v => decide ((∀ c ∈ v.toList, c.utf8Size = 1) ∧ v.toList.length % 2 = 0)
    | none => true
  else if t = some "arguments" then match Json.field? "defaults" n, Json.field? "args" n with
    | some (.arr ds), some (.arr as) => ds.length ≤ as.length
    | _, _ => true
  else if t = some "Comment" then match Json.field? "value" n with
    | some (.str v) => short v
    | some (.obj _) => false
    | _ => true
  else if t = some "FunctionDef" ∨ t = some "Module" then match (Json.field? "doc_string" n).bind (·.getStrForKey "value") with
    | some v => short v
    | none => true
  else true

theorem sturdy_of_check {env : PrintEnv} {W : Nat} {n : Json} (h : sturdyCheck W n = true) : Sturdy env (some W) n := by
  unfold sturdyCheck at h
  dsimp only at h
  refine ⟨fun ht => ?_, fun ht => ?_, fun ht => ?_, fun ht => ?_, fun ht => ?_, fun ht => ?_⟩
  · rw [ht] at h
    intro ks vs h1 h2
    simpa [h1, h2] using h
  · rw [ht] at h
    intro v hv
    simpa [hv] using h
  · rw [ht] at h
    intro ks vs h1 h2
    simpa [h1, h2] using h
  · rw [ht] at h
    intro v hv
    exact ⟨W, rfl, by simpa [hv] using h⟩
  · rw [ht] at h
    intro kvs hv
    simp [hv] at h
  · intro d v h1 h2 _
    rcases ht with ht | ht <;> rw [ht] at h <;> exact ⟨W, rfl, by simpa [h1, h2] using h⟩

/-- A module with a comment and a dictionary in a function. -/
def sturdyModule : Json :=
  .obj [("ast_type", .str "Module"), ("body", .arr [
    .obj [("ast_type", .str "Comment"), ("value", .str "one line")],
    .obj [("ast_type", .str "FunctionDef"), ("name", .str "f"), ("body", .arr [
      .obj [("ast_type", .str "Expr"), ("value", .obj [("ast_type", .str "Dict"),
        ("keys", .arr [.obj [("ast_type", .str "Name"), ("id", .str "a")]]),
        ("values", .arr [.obj [("ast_type", .str "Bytes"), ("value", .str "0x41")]])])]])]])]

theorem sturdyModule_ok (env : PrintEnv) : ∀ m, Json.Within m sturdyModule → Sturdy env (some 40) m := by
  have h : (Json.parts sturdyModule).all (sturdyCheck 40) = true := by decide +kernel
  exact fun m hm => sturdy_of_check (List.all_eq_true.1 h m (Json.mem_parts hm))

/-- The hypotheses can be met: the module is printed. -/
example (env : PrintEnv) : ∃ text, printText env sturdyModule = .ok text :=
  C93_vyper_partial env (some 40) sturdyModule (sturdyModule_ok env) fun W hW => by
    cases hW
    show 4 * Json.nest indents sturdyModule + 40 + 9 ≤ 150
    rw [show Json.nest indents sturdyModule = 2 from by decide +kernel]
    decide

/-- **C93 fails: a dictionary with a key too many** brings the tool down. -/
theorem C93_dict_counterexample (env : PrintEnv) : printText env (.obj [("ast_type", .str "Dict"),
    ("keys", .arr [.obj [("ast_type", .str "Name"), ("id", .str "a")]]), ("values", .arr [])]) = .panic := by
  cases env with
  | mk checks f => cases checks <;> rfl

/-- **C93 fails: a byte string with an odd number of digits** brings the tool down. -/
theorem C93_bytes_counterexample (env : PrintEnv) :
    printText env (.obj [("ast_type", .str "Bytes"), ("value", .str "0x123")]) = .panic := by
  cases env with
  | mk checks f => cases checks <;> rfl

/-- **C93 fails: more default values than parameters** bring a build with overflow checks down. -/
theorem C93_defaults_counterexample (f : JNum → String) : printText ⟨true, f⟩ (.obj [("ast_type", .str "arguments"),
    ("args", .arr []), ("defaults", .arr [.obj [("ast_type", .str "Name"), ("id", .str "a")]])]) = .panic := rfl

theorem text_stuck {env : PrintEnv} {node : Json} {l : List Op} (h : printOps env {} node = l)
    (hr : Printer.run env.checks l (Printer.new 4 150) = .outOfFuel) : printText env node = .outOfFuel := by
  unfold printText
  rw [h, hr]

/-- **C93 fails: documentation with a word that is wider than the page**, such as a long address, is printed
forever. -/
theorem C93_word_counterexample (checks : Bool) : printText ⟨checks, fun _ => ""⟩ (.obj [("ast_type", .str "Module"),
    ("doc_string", .obj [("ast_type", .str "DocStr"), ("value", .str (String.ofList (List.replicate 160 'x')))]),
    ("body", .arr [])]) = .outOfFuel := by
  refine text_stuck (l := [.token "\"\"\"".toList] ++
      .flow (List.replicate 160 'x') [] :: [.token "\"\"\"".toList, .newline, .newline]) (by cases checks <;> decide +kernel) (Printer.run_stuck (p' := (Printer.new 4 150).writeToken "\"\"\"".toList) (by decide +kernel)
    (by decide +kernel) rfl (by decide +kernel) (by decide +kernel) (by decide +kernel))

end VyPrint

/-! ## Solidity -/

namespace SolPrint

/-- **C93 for Solidity, in part.** Every JSON tree whose nodes are sturdy is printed: printing neither crashes nor runs
forever.  This is for every tree, not only those of source files, whatever keys are missing or have other values, and
for every depth if there is no running text (`w = none`).  If there is, its words must fit on the page next to the
deepest indentation.  Missing: other trees, for which see the counterexamples. -/
theorem C93_solidity_partial (checks : Bool) (w : Option Nat) (j : Json) (ho : ∀ m, Json.Within m j → Sturdy w m)
    (hr : RoomFor w (Json.nest indents j)) : ∃ text, printText checks j = .ok text :=
  prints checks j ho hr

/-- A check of one node. -/
def sturdyCheck (W : Nat) (n : Json) : Bool :=
  let t := n.getStrForKey "nodeType"
  let short (v : Option String) := match v with
    | some v => decide (∀ x ∈ Printer.words v.toList, utf8Len x ≤ W)
    | none => true
  let named (ks vs : Option (List Json)) := match ks, vs with
    | some ks, some vs => decide (ks.length = vs.length ∧ ∀ x ∈ ks, x.asStr.isSome)
    | _, _ => true
  if t = some "FunctionCall" then
    n.getArrayForKey "names" = some [] || named (n.getArrayForKey "names") (n.getArrayForKey "arguments")
  else if t = some "FunctionCallOptions" then named (n.getArrayForKey "names") (n.getArrayForKey "options")
  else if t = some "Comment" ∨ t = some "StructuredDocumentation" then short (n.getStrForKey "text")
  else if t = some "InlineAssembly" then short (n.getStrForKey "documentation")
  else true

theorem sturdy_of_check {W : Nat} {n : Json} (h : sturdyCheck W n = true) : Sturdy (some W) n := by
  unfold sturdyCheck at h
  dsimp only at h
  refine ⟨fun ht => ?_, fun ht => ?_, fun ht => ?_, fun ht => ?_, fun ht => ?_⟩
  · rw [ht] at h
    intro k ks vs h1 h2
    simpa [h1, h2] using h
  · rw [ht] at h
    intro ks vs h1 h2
    simpa [h1, h2] using h
  · rw [ht] at h
    intro v hv _
    exact ⟨W, rfl, by simpa [hv] using h⟩
  · rw [ht] at h
    intro v hv
    exact ⟨W, rfl, by simpa [hv] using h⟩
  · rw [ht] at h
    intro v hv
    exact ⟨W, rfl, by simpa [hv] using h⟩

/-- A contract with documentation and a function that makes a call with named arguments. -/
def sturdyContract : Json :=
  .obj [("nodeType", .str "SourceUnit"), ("nodes", .arr [
    .obj [("nodeType", .str "ContractDefinition"), ("name", .str "C"),
      ("documentation", .obj [("nodeType", .str "StructuredDocumentation"), ("text", .str "first line\nsecond line")]),
      ("nodes", .arr [.obj [("nodeType", .str "FunctionDefinition"), ("kind", .str "function"), ("name", .str "f"),
        ("body", .obj [("nodeType", .str "Block"), ("statements", .arr [
          .obj [("nodeType", .str "Comment"), ("text", .str "a comment")],
          .obj [("nodeType", .str "ExpressionStatement"), ("expression", .obj [("nodeType", .str "FunctionCall"),
            ("expression", .obj [("nodeType", .str "Identifier"), ("name", .str "g")]),
            ("names", .arr [.str "x"]),
            ("arguments", .arr [.obj [("nodeType", .str "Identifier"), ("name", .str "y")]])])]])])]])]])]

/-- The hypotheses can be met: the contract is printed. -/
example (checks : Bool) : ∃ text, printText checks sturdyContract = .ok text := by
  have h : (Json.parts sturdyContract).all (sturdyCheck 40) = true := by decide +kernel
  refine C93_solidity_partial checks (some 40) sturdyContract
    (fun m hm => sturdy_of_check (List.all_eq_true.1 h m (Json.mem_parts hm))) fun W hW => ?_
  cases hW
  rw [show Json.nest indents sturdyContract = 3 from by decide +kernel]
  decide

/-- **C93 fails: a call with more names than arguments** brings the tool down. -/
theorem C93_names_counterexample (checks : Bool) : printText checks (.obj [("nodeType", .str "FunctionCall"),
    ("names", .arr [.str "x"]), ("arguments", .arr [])]) = .panic := by
  cases checks <;> decide +kernel

theorem text_stuck {checks : Bool} {node : Json} {l : List Op} (h : printOps checks {} node = l)
    (hr : Printer.run checks l (Printer.new 4 150) = .outOfFuel) : printText checks node = .outOfFuel := by
  unfold printText
  rw [h, hr]

/-- The token printer at the first word of documentation. -/
def docStart : Printer :=
  (((((((Printer.new 4 150).writeIndent).writeToken "/**".toList).writeNewline).writeIndent).writeSpace).writeToken
    "*".toList).writeSpace

/-- **C93 fails: documentation with a word that is wider than the page**, such as a long address, is printed
forever. -/
theorem C93_documentation_counterexample (checks : Bool) : printText checks (.obj [("nodeType", .str "SourceUnit"),
    ("nodes", .arr [.obj [("nodeType", .str "ContractDefinition"), ("name", .str "C"),
      ("documentation", .obj [("nodeType", .str "StructuredDocumentation"),
        ("text", .str (String.ofList (List.replicate 160 'x')))]), ("nodes", .arr [])]])]) = .outOfFuel := by
  refine text_stuck (l := [.indent, .token "/**".toList, .newline, .indent, .space, .token "*".toList, .space] ++
      .flow (List.replicate 160 'x') " *   ".toList :: [.newline, .indent, .space, .token "*/".toList, .newline, .indent,
        .token "contract".toList, .space, .token "C".toList, .space, .token "{".toList, .token "}".toList, .newline,
        .newline]) (by cases checks <;> decide +kernel) (Printer.run_stuck (p' := docStart) (by decide +kernel)
    (by decide +kernel) rfl (by decide +kernel) (by decide +kernel) (by decide +kernel))

end SolPrint
end Mutagenyx
