import Verif.Model.PrinterOps
import Verif.Model.Traverse

/-!
# Printing nodes: `node_printer.rs`, `node_printer_helpers.rs`, `pretty_print_visitor.rs`

A node printer makes calls on the token printer and prints other nodes; it never looks at the state of the
token printer.  So what a node printer does with a node is a list of `Piece`s here.
-/

namespace Mutagenyx

/-- One thing that a node printer does; `σ` are the settings of the factory it works with. -/
inductive Piece (σ : Type) where
  /-- A call on the token printer. -/
  | op (o : Op)
  /-- `traverse_sub_node_and_print` with a factory with these settings (`node_printer_helpers.rs:17-25`). -/
  | sub (s : σ) (n : Json)
  /-- Print the node with a token printer of its own, and the result as flowable text
  (`vyper/pretty_printer.rs:254-262` and `:1360-1361`). -/
  | quote (s : σ) (n : Json) (next : List Char)

/-- Models a `NodePrinter` for one node (`node_printer.rs:15-78`): what `on_entry`, `print_node` and
`on_exit` do and what `visit_children` answers. -/
structure Layout (σ : Type) where
  entry : List (Piece σ) := []
  body : List (Piece σ) := []
  visitChildren : Bool := false
  exit : List (Piece σ) := []

/-- What printing depends on besides the tree: `checks` is whether arithmetic is checked for overflow,
`f64` is the text Rust prints for a number as `f64`. -/
structure PrintEnv where
  checks : Bool
  f64 : JNum → String

namespace NodePrinter

variable {σ : Type}

/-! ### The visitor -/

/-- Models `PrettyPrintVisitor` (`pretty_print_visitor.rs:12-92`).  The state is the stack of node printers
and what has been done so far; `pf` models `printer_for` of the factory. -/
def visitor (pf : Json → Layout σ) : Visitor (List (Layout σ) × List (Piece σ)) where
  onEnter n st := (pf n :: st.1, st.2 ++ (pf n).entry)
  visit _ st := (false, (st.1, st.2 ++ (st.1.head?.map (·.body)).getD []))
  visitChildren _ st := (st.1.head?.map (·.visitChildren)).getD true
  onExit _ st := (st.1.drop 1, st.2 ++ (st.1.head?.map (·.exit)).getD [])

/-- What `ASTTraverser::traverse` with that visitor does with a node (`node_printer_helpers.rs:23-24`). -/
def pieces (pf : Json → Layout σ) (n : Json) : List (Piece σ) :=
  (traverse (visitor pf) n ([], [])).2.2

/-! ### The calls on the token printer -/

/-- How deep a tree is. -/
def depth (j : Json) : Nat := go j
where
  /-- How deep a tree is. -/
  go : Json → Nat
    | .arr xs => goList xs + 1
    | .obj kvs => goFields kvs + 1
    | _ => 0
  /-- How deep the deepest element is. -/
  goList : List Json → Nat
    | [] => 0
    | x :: xs => max (go x + 1) (goList xs)
  /-- How deep the deepest value is. -/
  goFields : List (String × Json) → Nat
    | [] => 0
    | (_, x) :: kvs => max (go x + 1) (goFields kvs)

/-- Replace the nodes to print by the calls that print them. -/
def expand (checks : Bool) (print : σ → Json → List Op) : List (Piece σ) → List Op
  | [] => []
  | .op o :: ps => o :: expand checks print ps
  | .sub s n :: ps => print s n ++ expand checks print ps
  | .quote s n next :: ps =>
    (match Printer.run checks (print s n) (Printer.new 4 150) with
      | .ok p => Op.flow p.out next
      | .outOfFuel => Op.stop true
      | _ => Op.stop false) :: expand checks print ps

/-- The calls on the token printer that print a node, looking at most `fuel` levels deep. -/
def opsFuel (checks : Bool) (pf : σ → Json → Layout σ) : Nat → σ → Json → List Op
  | 0, _, _ => [.stop true]
  | fuel + 1, s, n => expand checks (opsFuel checks pf fuel) (pieces (pf s) n)

/-- The calls on the token printer that print a node.  The bound suffices, as node printers only print
nodes below their own (`ops_eq` in `Proofs/NodePrinter.lean`). -/
def ops (checks : Bool) (pf : σ → Json → Layout σ) (s : σ) (n : Json) : List Op :=
  opsFuel checks pf (depth n + 1) s n

/-! ### Helpers of the node printers -/

/-- `write_token`. -/
def tok (t : String) : List (Piece σ) := [.op (.token t.toList)]
/-- `write_space`. -/
def sp : List (Piece σ) := [.op .space]
/-- `write_newline`. -/
def nl : List (Piece σ) := [.op .newline]
/-- `write_indent`. -/
def ind : List (Piece σ) := [.op .indent]
/-- `increase_indent`. -/
def inc : List (Piece σ) := [.op .incr]
/-- `decrease_indent`. -/
def dec : List (Piece σ) := [.op .decr]
/-- A panic. -/
def crash : List (Piece σ) := [.op (.stop false)]

/-- `if let Some(x) = … { … }`. -/
def onSome {α : Type} (o : Option α) (f : α → List (Piece σ)) : List (Piece σ) :=
  match o with
  | some a => f a
  | none => []

/-- `if … { … }`. -/
def when (b : Bool) (ps : List (Piece σ)) : List (Piece σ) := if b then ps else []

/-- `if let Some(n) = node.get(key) { … }`. -/
def onField (key : String) (node : Json) (f : Json → List (Piece σ)) : List (Piece σ) :=
  onSome (Json.field? key node) f

/-- `if let Some(n) = node.get(key) { traverse_sub_node_and_print(…, n) }`. -/
def field (s : σ) (key : String) (node : Json) : List (Piece σ) := onField key node fun n => [.sub s n]

/-- `if let Some(n) = node.get(key) { if let Some(xs) = n.as_array() { … } }`. -/
def onArray (key : String) (node : Json) (f : List Json → List (Piece σ)) : List (Piece σ) :=
  onField key node fun n => onSome n.asArray f

/-- `if let Some(t) = node.get_str_for_key(key) { … }`. -/
def onStr (key : String) (node : Json) (f : String → List (Piece σ)) : List (Piece σ) :=
  onSome (node.getStrForKey key) f

/-- `if let Some(t) = node.get_str_for_key(key) { write_token(…, t) }`. -/
def strTok (key : String) (node : Json) : List (Piece σ) := onStr key node tok

/-- The loop of `print_array_helper_with_node_handler_and_space_formatter`
(`node_printer_helpers.rs:80-92`) at position `i` of an array of length `len`. -/
def arrayLoop (node : Json → List (Piece σ)) (between : List (Piece σ)) (len : Nat) :
    Nat → List Json → List (Piece σ)
  | _, [] => []
  | i, n :: ns => node n ++ (when (i < len - 1) between ++ arrayLoop node between len (i + 1) ns)

/-- Models `print_array_helper_with_node_handler_and_space_formatter` (`node_printer_helpers.rs:70-93`). -/
def arrayWith (node : Json → List (Piece σ)) (between : List (Piece σ)) (xs : List Json) : List (Piece σ) :=
  arrayLoop node between xs.length 0 xs

/-- Models `print_array_helper` (`node_printer_helpers.rs:36-55`). -/
def array (s : σ) (xs : List Json) : List (Piece σ) :=
  arrayWith (fun n => [.sub s n]) (tok "," ++ sp) xs

end NodePrinter
end Mutagenyx
