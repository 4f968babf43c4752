import Verif.Model.VyperPrinter
import Verif.Model.SolidityPrinter
import Verif.Proofs.Flow

/-!
# Trees that can be printed

What a tree must be like so that printing it comes to an end, said about its nodes one by one.
-/

namespace Mutagenyx

namespace Json

/-- The first tree is the second one or a part of it. -/
inductive Within : Json → Json → Prop
  | refl (n : Json) : Within n n
  | step {m c n : Json} : c ∈ n.children → Within m c → Within m n

/-- How many nodes that satisfy a condition lie at most on a way from the root down. -/
def nest (c : Json → Bool) (j : Json) : Nat := go j
where
  /-- How many such nodes lie on a way down at most. -/
  go : Json → Nat
    | .arr xs => (if c (.arr xs) then 1 else 0) + goList xs
    | .obj kvs => (if c (.obj kvs) then 1 else 0) + goFields kvs
    | _ => 0
  /-- The same for the elements. -/
  goList : List Json → Nat
    | [] => 0
    | x :: xs => max (go x) (goList xs)
  /-- The same for the values. -/
  goFields : List (String × Json) → Nat
    | [] => 0
    | (_, x) :: kvs => max (go x) (goFields kvs)

end Json

/-- Running text, such as that of a comment, is allowed (`w` is a bound then) and has only words of at most
that many bytes. -/
def ShortWords (w : Option Nat) (t : List Char) : Prop :=
  ∃ W, w = some W ∧ ∀ x ∈ Printer.words t, utf8Len x ≤ W

/-- There is room on the page of 150 columns for words of the bound, next to this many levels of indentation
by 4 columns and the start of a comment line. -/
def RoomFor (w : Option Nat) (levels : Nat) : Prop := ∀ W, w = some W → 4 * levels + W + 9 ≤ 150

namespace VyPrint

/-- The nodes of a Vyper tree below which text is indented. -/
def indents (n : Json) : Bool :=
  match n.getStrForKey "ast_type" with
  | some t => t ∈ ["FunctionDef", "InterfaceDef", "StructDef", "EventDef", "EnumDef", "For", "If", "Dict"]
  | none => false

/-- What a node of a Vyper tree must be like so that its printer does its work.  `w` bounds the words of running
text; with `none` there must not be any. -/
structure Sturdy (env : PrintEnv) (w : Option Nat) (n : Json) : Prop where
  /-- A dictionary has as many keys as values. -/
  dict : n.getStrForKey "ast_type" = some "Dict" → ∀ ks vs, Json.field? "keys" n = some (.arr ks) →
    Json.field? "values" n = some (.arr vs) → ks.length = vs.length
  /-- A byte string is written with an even number of characters of one byte each. -/
  bytes : n.getStrForKey "ast_type" = some "Bytes" → ∀ v, n.getStrForKey "value" = some v →
    (∀ c ∈ v.toList, c.utf8Size = 1) ∧ v.toList.length % 2 = 0
  /-- A function has at most as many default values as parameters. -/
  arguments : n.getStrForKey "ast_type" = some "arguments" → ∀ ds as, Json.field? "defaults" n = some (.arr ds) →
    Json.field? "args" n = some (.arr as) → ds.length ≤ as.length
  /-- A comment has short words. -/
  comment : n.getStrForKey "ast_type" = some "Comment" → ∀ t, Json.field? "value" n = some (.str t) →
    ShortWords w t.toList
  /-- A comment that holds a node has short words when that is printed. -/
  quote : n.getStrForKey "ast_type" = some "Comment" → ∀ kvs, Json.field? "value" n = some (.obj kvs) →
    ∀ s p, Printer.run env.checks (printOps env s (.obj kvs)) (Printer.new 4 150) = .ok p → ShortWords w p.out
  /-- Documentation on one line has short words. -/
  doc : n.getStrForKey "ast_type" = some "FunctionDef" ∨ n.getStrForKey "ast_type" = some "Module" →
    ∀ d v, Json.field? "doc_string" n = some d → d.getStrForKey "value" = some v → '\n' ∉ v.toList →
    ShortWords w v.toList

end VyPrint

namespace SolPrint

/-- The nodes of a Solidity tree below which text is indented. -/
def indents (n : Json) : Bool :=
  match n.getStrForKey "nodeType" with
  | some t => t ∈ ["ContractDefinition", "StructDefinition", "EnumDefinition", "UsingForDirective", "Block",
      "UncheckedBlock", "YulBlock", "IfStatement", "ForStatement", "FunctionCall", "YulForLoop", "YulSwitch"]
  | none => false

/-- What a node of a Solidity tree must be like so that its printer does its work.  `w` bounds the words of
running text; with `none` there must not be any. -/
structure Sturdy (w : Option Nat) (n : Json) : Prop where
  /-- A call with named arguments has as many names as arguments, and the names are texts. -/
  call : n.getStrForKey "nodeType" = some "FunctionCall" → ∀ k ks vs, n.getArrayForKey "names" = some (k :: ks) →
    n.getArrayForKey "arguments" = some vs → (k :: ks).length = vs.length ∧ ∀ x ∈ k :: ks, x.asStr.isSome
  /-- A call with options has as many names as options, and the names are texts. -/
  options : n.getStrForKey "nodeType" = some "FunctionCallOptions" → ∀ ks vs, n.getArrayForKey "names" = some ks →
    n.getArrayForKey "options" = some vs → ks.length = vs.length ∧ ∀ x ∈ ks, x.asStr.isSome
  /-- A comment has short words. -/
  comment : n.getStrForKey "nodeType" = some "Comment" → ∀ t, n.getStrForKey "text" = some t →
    t.toList ≠ [] → ShortWords w t.toList
  /-- Documentation has short words. -/
  doc : n.getStrForKey "nodeType" = some "StructuredDocumentation" → ∀ t, n.getStrForKey "text" = some t →
    ShortWords w t.toList
  /-- The documentation of an assembly block has short words. -/
  assembly : n.getStrForKey "nodeType" = some "InlineAssembly" → ∀ t, n.getStrForKey "documentation" = some t →
    ShortWords w t.toList

end SolPrint
end Mutagenyx
