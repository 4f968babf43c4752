import Verif.Model.Common

/-!
# `mutagenyx_lib/src/preferences.rs`

A `HashMap<String, PreferenceValue>` is the list of its entries in iteration order, which is arbitrary;
the theorems hold for every order.
-/

namespace Mutagenyx

/-- Models `PreferenceValue` (`preferences.rs:12-21`).  A float is represented by its text; infinities
and NaN, which JSON cannot hold, are not represented. -/
inductive Pref where
  | int (i : Int)
  | flt (repr : String)
  | str (s : String)
  | bool (b : Bool)
  | map (kvs : List (String × Pref))
  | arr (xs : List Pref)
  | null
  deriving Inhabited, Repr

/-- Models `Preferences` (`preferences.rs:87-90`). -/
abbrev Prefs := List (String × Pref)

/-- `Value::as_f64` of an integer above `i64::MAX`.  Simplified: the rounding is not modelled, only that
the result is a float. -/
def u64AsF64 (i : Int) : String := "f64(" ++ toString i ++ ")"

namespace Pref

mutual
/-- Models `TryFrom<Value> for PreferenceValue` (`preferences.rs:23-55`).  The error at the end is
unreachable, so it is left out. -/
def ofJson : Json → Pref
  | .num (.int i) => if -(2 ^ 63 : Int) ≤ i ∧ i < 2 ^ 63 then .int i else .flt (u64AsF64 i)
  | .num (.flt r) => .flt r
  | .str s => .str s
  | .bool b => .bool b
  | .obj kvs => .map (ofJsonFields kvs)
  | .arr xs => .arr (ofJsonList xs)
  | .null => .null
/-- The loop of `preferences.rs:44-47`. -/
def ofJsonList : List Json → List Pref
  | [] => []
  | x :: xs => ofJson x :: ofJsonList xs
/-- The loop of `preferences.rs:36-40`; keys of a JSON object are distinct, so every `insert` adds an
entry. -/
def ofJsonFields : List (String × Json) → List (String × Pref)
  | [] => []
  | (k, x) :: xs => (k, ofJson x) :: ofJsonFields xs
end

mutual
/-- Models `TryFrom<PreferenceValue> for Value` (`preferences.rs:57-84`), which never fails. -/
def toJson : Pref → Json
  | .int i => .num (.int i)
  | .flt r => .num (.flt r)
  | .str s => .str s
  | .bool b => .bool b
  | .map kvs => toJsonFields kvs (.obj [])
  | .arr xs => .arr (toJsonList xs)
  | .null => .null
/-- The loop of `preferences.rs:76-79`. -/
def toJsonList : List Pref → List Json
  | [] => []
  | x :: xs => toJson x :: toJsonList xs
/-- The loop of `preferences.rs:68-71` (and `369-372`): each entry is set on the object built so far. -/
def toJsonFields : List (String × Pref) → Json → Json
  | [], acc => acc
  | (k, x) :: xs, acc => toJsonFields xs (Json.setNodeForKey k (toJson x) acc)
end

end Pref

namespace Prefs

/-- Models `Preferences::new` (`preferences.rs:94-98`). -/
def new : Prefs := []

/-- `HashMap::insert`: the body of every setter.  Models `set_value_for_key` (`preferences.rs:115-117`). -/
def set (k : String) (v : Pref) : Prefs → Prefs
  | [] => [(k, v)]
  | (l, w) :: rest => if l = k then (k, v) :: rest else (l, w) :: set k v rest

/-- `HashMap::get`.  Models `get_value_for_key` (`preferences.rs:124-129`). -/
def get? (k : String) : Prefs → Option Pref
  | [] => none
  | (l, w) :: rest => if l = k then some w else get? k rest

/-- Models `contains_key` (`preferences.rs:136-138`). -/
def containsKey (k : String) (p : Prefs) : Bool := (p.get? k).isSome
/-- Models `get_int_for_key` (`preferences.rs:145-153`). -/
def getInt (k : String) (p : Prefs) : Option Int := match p.get? k with
  | some (.int i) => some i
  | _ => none
/-- Models `get_float_for_key` (`preferences.rs:160-168`). -/
def getFloat (k : String) (p : Prefs) : Option String := match p.get? k with
  | some (.flt f) => some f
  | _ => none
/-- Models `get_string_for_key` (`preferences.rs:175-183`). -/
def getString (k : String) (p : Prefs) : Option String := match p.get? k with
  | some (.str s) => some s
  | _ => none
/-- Models `get_bool_for_key` (`preferences.rs:190-198`). -/
def getBool (k : String) (p : Prefs) : Option Bool := match p.get? k with
  | some (.bool b) => some b
  | _ => none
/-- Models `get_map_for_key` and `get_preferences_for_key` (`preferences.rs:207-215`, `239-247`). -/
def getPrefs (k : String) (p : Prefs) : Option Prefs := match p.get? k with
  | some (.map m) => some m
  | _ => none
/-- Models `get_array_for_key` (`preferences.rs:222-230`). -/
def getArray (k : String) (p : Prefs) : Option (List Pref) := match p.get? k with
  | some (.arr a) => some a
  | _ => none
/-- Models `set_int_for_key` (`preferences.rs:254-256`). -/
def setInt (k : String) (i : Int) (p : Prefs) : Prefs := p.set k (.int i)
/-- Models `set_float_for_key` (`preferences.rs:264-267`). -/
def setFloat (k : String) (f : String) (p : Prefs) : Prefs := p.set k (.flt f)
/-- Models `set_string_for_key` (`preferences.rs:275-278`). -/
def setString (k : String) (s : String) (p : Prefs) : Prefs := p.set k (.str s)
/-- Models `set_bool_for_key` (`preferences.rs:286-289`). -/
def setBool (k : String) (b : Bool) (p : Prefs) : Prefs := p.set k (.bool b)
/-- Models `set_map_for_key` and `set_preferences_for_key` (`preferences.rs:298-301`, `320-323`). -/
def setPrefs (p : Prefs) (k : String) (m : Prefs) : Prefs := p.set k (.map m)
/-- Models `set_array_for_key` (`preferences.rs:308-311`). -/
def setArray (k : String) (a : List Pref) (p : Prefs) : Prefs := p.set k (.arr a)
/-- Models `len` (`preferences.rs:325-327`). -/
def len (p : Prefs) : Nat := p.length

/-- Models `TryFrom<Value> for Preferences` (`preferences.rs:343-361`). -/
def ofJson : Json → Outcome Prefs
  | .obj kvs => .ok (Pref.ofJsonFields kvs)
  | _ => .err .unrecognizedJSON

/-- Models `TryFrom<Preferences> for Value` (`preferences.rs:364-375`). -/
def toJson (p : Prefs) : Json := Pref.toJsonFields p (.obj [])

end Prefs
end Mutagenyx
