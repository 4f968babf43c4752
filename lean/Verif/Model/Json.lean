/-!
# JSON values and the accessors of `mutagenyx_lib/src/json.rs`

`serde_json::Value` (serde_json 1.0.94 without `preserve_order` and `arbitrary_precision`).
-/

namespace Mutagenyx

/-- A JSON number.  Models `serde_json::Number` without `arbitrary_precision`: an integer in
`-2^63 .. 2^64-1` or a float.  Simplified: the float is kept as opaque text; the integer range is a
separate predicate (`JNum.InRange`) rather than part of the type. -/
inductive JNum where
  | int (i : Int)
  | flt (repr : String)
  deriving DecidableEq, Repr, Inhabited

/-- The range of the integers a `serde_json::Number` can hold (`u64` or negative `i64`). -/
def JNum.InRange : JNum → Prop
  | .int i => -(2 ^ 63 : Int) ≤ i ∧ i < 2 ^ 64
  | .flt _ => True

/-- Models `serde_json::Value`.  An object (`serde_json::Map`, a `BTreeMap` here) is its list of
entries in key order; `Json.WF` says that keys are strictly increasing. -/
inductive Json where
  | null
  | bool (b : Bool)
  | num (n : JNum)
  | str (s : String)
  | arr (xs : List Json)
  | obj (kvs : List (String × Json))
  deriving Inhabited, Repr

namespace Json

mutual
/-- Decidable equality on `Json` (derived `PartialEq` of `serde_json::Value`). -/
def beq : Json → Json → Bool
  | .null, .null => true
  | .bool a, .bool b => a == b
  | .num a, .num b => decide (a = b)
  | .str a, .str b => decide (a = b)
  | .arr a, .arr b => beqList a b
  | .obj a, .obj b => beqFields a b
  | _, _ => false
/-- Pointwise `beq`. -/
def beqList : List Json → List Json → Bool
  | [], [] => true
  | a :: as, b :: bs => beq a b && beqList as bs
  | _, _ => false
/-- Pointwise `beq` on fields. -/
def beqFields : List (String × Json) → List (String × Json) → Bool
  | [], [] => true
  | (k, a) :: as, (l, b) :: bs => decide (k = l) && beq a b && beqFields as bs
  | _, _ => false
end

mutual
theorem beq_eq : ∀ a b : Json, beq a b = true ↔ a = b
  | .null, b => by cases b <;> simp [beq]
  | .bool x, b => by cases b <;> simp [beq]
  | .num x, b => by cases b <;> simp [beq]
  | .str x, b => by cases b <;> simp [beq]
  | .arr x, b => by
      cases b with
      | arr y => simp [beq, beqList_eq x y]
      | _ => simp [beq]
  | .obj x, b => by
      cases b with
      | obj y => simp [beq, beqFields_eq x y]
      | _ => simp [beq]
theorem beqList_eq : ∀ a b : List Json, beqList a b = true ↔ a = b
  | [], b => by cases b <;> simp [beqList]
  | x :: xs, [] => by simp [beqList]
  | x :: xs, y :: ys => by simp [beqList, beq_eq x y, beqList_eq xs ys]
theorem beqFields_eq : ∀ a b : List (String × Json), beqFields a b = true ↔ a = b
  | [], b => by cases b <;> simp [beqFields]
  | (k, x) :: xs, [] => by simp [beqFields]
  | (k, x) :: xs, (l, y) :: ys => by
      simp [beqFields, beq_eq x y, beqFields_eq xs ys]
end

instance : DecidableEq Json := fun a b =>
  if h : beq a b = true then isTrue ((beq_eq a b).1 h)
  else isFalse (fun e => h ((beq_eq a b).2 e))

/-- Children in traversal order: object values in key order, array elements, else none.
Models `get_children` (`json_ast.rs:15-33`). -/
def children : Json → List Json
  | .arr xs => xs
  | .obj kvs => kvs.map Prod.snd
  | _ => []

/-! ### JSON pointer (serde_json's `Value::pointer`, used by every keyed accessor) -/

/-- `str::split('/')` on characters. -/
def splitSlash : List Char → List (List Char)
  | [] => [[]]
  | c :: cs =>
    if c = '/' then [] :: splitSlash cs
    else match splitSlash cs with
      | [] => [[c]]
      | t :: ts => (c :: t) :: ts

/-- `str::replace("~" ++ d, r)` on characters, for a two-character pattern. -/
def replaceTilde (d r : Char) : List Char → List Char
  | [] => []
  | [c] => [c]
  | c :: c' :: cs =>
    if c = '~' ∧ c' = d then r :: replaceTilde d r cs
    else c :: replaceTilde d r (c' :: cs)

/-- Decoding of one reference token: `x.replace("~1", "/").replace("~0", "~")`. -/
def unescapeToken (t : List Char) : String :=
  String.ofList (replaceTilde '0' '~' (replaceTilde '1' '/' t))

/-- The reference tokens of a JSON pointer; `none` if it is not empty and does not start with `/`. -/
def pointerTokens (p : String) : Option (List String) :=
  match p.toList with
  | [] => some []
  | '/' :: cs => some ((splitSlash cs).map unescapeToken)
  | _ => none

/-- Value of a decimal digit. -/
def digitVal (c : Char) : Option Nat :=
  if '0' ≤ c ∧ c ≤ '9' then some (c.toNat - '0'.toNat) else none

/-- Decimal digits to a number, all characters must be digits. -/
def digitsVal : List Char → Nat → Option Nat
  | [], acc => some acc
  | c :: cs, acc => match digitVal c with
    | some d => digitsVal cs (acc * 10 + d)
    | none => none

/-- serde_json's `parse_index`: no sign, no leading zero unless it is the only digit, fits `usize`. -/
def parseIndex (s : String) : Option Nat :=
  match s.toList with
  | [] => none
  | '+' :: _ => none
  | '0' :: _ :: _ => none
  | cs => match digitsVal cs 0 with
    | some n => if n < 2 ^ 64 then some n else none
    | none => none

/-- `Map::get`: value stored for a key. -/
def objGet (k : String) : List (String × Json) → Option Json
  | [] => none
  | (l, v) :: rest => if l = k then some v else objGet k rest

/-- Replace the value stored for a key that is present (write through `Map::get_mut`). -/
def objReplace (k : String) (v : Json) : List (String × Json) → List (String × Json)
  | [] => []
  | (l, w) :: rest => if l = k then (l, v) :: rest else (l, w) :: objReplace k v rest

/-- `Map::insert` for a `BTreeMap`: replace the value of an equal key or insert in key order. -/
def objInsert (k : String) (v : Json) : List (String × Json) → List (String × Json)
  | [] => [(k, v)]
  | (l, w) :: rest =>
    if l = k then (l, v) :: rest
    else if k < l then (k, v) :: (l, w) :: rest
    else (l, w) :: objInsert k v rest

/-- One pointer step: `match target { Object(map) => map.get(token), Array(list) => parse_index(token)..., _ => None }`. -/
def step (tok : String) : Json → Option Json
  | .obj kvs => objGet tok kvs
  | .arr xs => match parseIndex tok with
    | some i => xs[i]?
    | none => none
  | _ => none

/-- Write one pointer step back. -/
def stepSet (tok : String) (v : Json) : Json → Json
  | .obj kvs => .obj (objReplace tok v kvs)
  | .arr xs => match parseIndex tok with
    | some i => .arr (xs.set i v)
    | none => .arr xs
  | j => j

/-- Follow reference tokens. -/
def follow : List String → Json → Option Json
  | [], j => some j
  | t :: ts, j => match step t j with
    | some c => follow ts c
    | none => none

/-- Assign through reference tokens (write through `pointer_mut`); `none` when nothing is there. -/
def followSet (v : Json) : List String → Json → Option Json
  | [], _ => some v
  | t :: ts, j => match step t j with
    | some c => match followSet v ts c with
      | some c' => some (stepSet t c' j)
      | none => none
    | none => none

/-- `Value::pointer`. -/
def pointer (p : String) (j : Json) : Option Json :=
  match pointerTokens p with
  | some ts => follow ts j
  | none => none

/-- Assignment to `*Value::pointer_mut(p)`; `none` when the pointer resolves to nothing. -/
def pointerSet (p : String) (v : Json) (j : Json) : Option Json :=
  match pointerTokens p with
  | some ts => followSet v ts j
  | none => none

/-- Models `json_path` (`json.rs:51-55`). -/
def jsonPath (key : String) : String := "/" ++ key

/-- `pointer(json_path(key))`, the lookup shared by all keyed accessors of `json.rs`. -/
def get? (key : String) (j : Json) : Option Json := pointer (jsonPath key) j

/-- Models `has_value_for_key` (`json.rs:109-112`). -/
def hasValueForKey (key : String) (j : Json) : Bool := (get? key j).isSome

/-- Models `take_value_for_key` (`json.rs:125-128`): returns the value and leaves `null` behind. -/
def takeValueForKey (key : String) (j : Json) : Option Json × Json :=
  match get? key j with
  | some v => (some v, (pointerSet (jsonPath key) .null j).getD j)
  | none => (none, j)

/-- Models `set_node_for_key` (`json.rs:141-152`). -/
def setNodeForKey (key : String) (v : Json) (j : Json) : Json :=
  match pointerSet (jsonPath key) v j with
  | some j' => j'
  | none => match j with
    | .obj kvs => .obj (objInsert key v kvs)
    | j => j

/-- Models `set_node_for_key_at_index` (`json.rs:166-173`). -/
def setNodeForKeyAtIndex (key : String) (i : Nat) (v : Json) (j : Json) : Json :=
  match get? key j with
  | some (.arr xs) =>
    if i < xs.length then (pointerSet (jsonPath key) (.arr (xs.set i v)) j).getD j else j
  | _ => j

/-- Models `push_node` (`json.rs:183-187`). -/
def pushNode (v : Json) : Json → Json
  | .arr xs => .arr (xs ++ [v])
  | j => j

/-- `Value::as_array`. -/
def asArray : Json → Option (List Json)
  | .arr xs => some xs
  | _ => none

/-- `Value::as_str`. -/
def asStr : Json → Option String
  | .str s => some s
  | _ => none

/-- `Value::as_bool`. -/
def asBool : Json → Option Bool
  | .bool b => some b
  | _ => none

/-- `Value::as_object`. -/
def asObj : Json → Option (List (String × Json))
  | .obj kvs => some kvs
  | _ => none

/-- `Value::as_i64`: integers that fit in `i64`. -/
def asI64 : Json → Option Int
  | .num (.int i) => if i < 2 ^ 63 ∧ -(2 ^ 63 : Int) ≤ i then some i else none
  | _ => none

/-- Models `get_array_for_key` (`json.rs:199-205`). -/
def getArrayForKey (key : String) (j : Json) : Option (List Json) := (get? key j).bind asArray

/-- Models `get_map_for_key` (`json.rs:235-241`). -/
def getMapForKey (key : String) (j : Json) : Option (List (String × Json)) := (get? key j).bind asObj

/-- Models `get_str_for_key` (`json.rs:271-277`). -/
def getStrForKey (key : String) (j : Json) : Option String := (get? key j).bind asStr

/-- Models `set_str_for_key` (`json.rs:289-300`). -/
def setStrForKey (key : String) (s : String) (j : Json) : Json := setNodeForKey key (.str s) j

/-- Models `get_bool_for_key` (`json.rs:311-317`). -/
def getBoolForKey (key : String) (j : Json) : Option Bool := (get? key j).bind asBool

/-- Models `get_int_for_key` (`json.rs:328-334`). -/
def getIntForKey (key : String) (j : Json) : Option Int := (get? key j).bind asI64

/-- `Value::get` with a string: only objects have keys. -/
def field? (key : String) : Json → Option Json
  | .obj kvs => objGet key kvs
  | _ => none

/-- Models `contains_key` (`json.rs:359-366`). -/
def containsKey (key : String) : Json → Bool
  | .obj kvs => (objGet key kvs).isSome
  | _ => false

mutual
/-- Models `get_node_with_id` (`json.rs:374-398`); `idOf` models the `Id` trait object. -/
def getNodeWithId (idOf : Json → Option Nat) (id : Nat) : Json → Option Json
  | .null => if idOf .null = some id then some .null else none
  | .bool b => if idOf (.bool b) = some id then some (.bool b) else none
  | .num n => if idOf (.num n) = some id then some (.num n) else none
  | .str s => if idOf (.str s) = some id then some (.str s) else none
  | .arr xs => if idOf (.arr xs) = some id then some (.arr xs) else getNodeWithIdList idOf id xs
  | .obj kvs => if idOf (.obj kvs) = some id then some (.obj kvs) else getNodeWithIdFields idOf id kvs
/-- Array loop of `get_node_with_id` (`json.rs:382-387`). -/
def getNodeWithIdList (idOf : Json → Option Nat) (id : Nat) : List Json → Option Json
  | [] => none
  | x :: xs => match getNodeWithId idOf id x with
    | some r => some r
    | none => getNodeWithIdList idOf id xs
/-- Object loop of `get_node_with_id` (`json.rs:389-394`). -/
def getNodeWithIdFields (idOf : Json → Option Nat) (id : Nat) : List (String × Json) → Option Json
  | [] => none
  | (_, x) :: xs => match getNodeWithId idOf id x with
    | some r => some r
    | none => getNodeWithIdFields idOf id xs
end

mutual
/-- Models a write through `get_node_with_id_mut` (`json.rs:407-431`): the found node `n` is replaced
by `f n`; `none` if no node has the id. -/
def modifyNodeWithId (idOf : Json → Option Nat) (id : Nat) (f : Json → Json) : Json → Option Json
  | .null => if idOf .null = some id then some (f .null) else none
  | .bool b => if idOf (.bool b) = some id then some (f (.bool b)) else none
  | .num n => if idOf (.num n) = some id then some (f (.num n)) else none
  | .str s => if idOf (.str s) = some id then some (f (.str s)) else none
  | .arr xs => if idOf (.arr xs) = some id then some (f (.arr xs))
      else (modifyNodeWithIdList idOf id f xs).map .arr
  | .obj kvs => if idOf (.obj kvs) = some id then some (f (.obj kvs))
      else (modifyNodeWithIdFields idOf id f kvs).map .obj
/-- Array loop (`json.rs:415-420`). -/
def modifyNodeWithIdList (idOf : Json → Option Nat) (id : Nat) (f : Json → Json) :
    List Json → Option (List Json)
  | [] => none
  | x :: xs => match modifyNodeWithId idOf id f x with
    | some r => some (r :: xs)
    | none => (modifyNodeWithIdList idOf id f xs).map (x :: ·)
/-- Object loop (`json.rs:422-427`). -/
def modifyNodeWithIdFields (idOf : Json → Option Nat) (id : Nat) (f : Json → Json) :
    List (String × Json) → Option (List (String × Json))
  | [] => none
  | (k, x) :: xs => match modifyNodeWithId idOf id f x with
    | some r => some ((k, r) :: xs)
    | none => (modifyNodeWithIdFields idOf id f xs).map ((k, x) :: ·)
end

end Json
end Mutagenyx
