import Verif.Model.Preferences
import Verif.Spec.JsonSpec

/-!
# Specification vocabulary for preferences

Two preference values are the same when they differ only in the order of the entries of their maps:
`canon` sorts all maps by key, so `canon p = canon q` says that.
-/

namespace Mutagenyx
namespace Pref

mutual
/-- The same preference value with the entries of every map in key order. -/
def canon : Pref → Pref
  | .map kvs => .map (MutationType.sortBy Prod.fst (canonFields kvs))
  | .arr xs => .arr (canonList xs)
  | p => p
/-- `canon` of every element. -/
def canonList : List Pref → List Pref
  | [] => []
  | x :: xs => canon x :: canonList xs
/-- `canon` of every value. -/
def canonFields : List (String × Pref) → List (String × Pref)
  | [] => []
  | (k, x) :: xs => (k, canon x) :: canonFields xs
end

mutual
/-- Every map in the value has distinct keys without `/` and `~`, and every integer fits `i64`. -/
def Plain : Pref → Prop
  | .int i => -(2 ^ 63 : Int) ≤ i ∧ i < 2 ^ 63
  | .map kvs => (kvs.map Prod.fst).Nodup ∧ PlainFields kvs
  | .arr xs => PlainList xs
  | _ => True
/-- `Plain` for every element. -/
def PlainList : List Pref → Prop
  | [] => True
  | x :: xs => Plain x ∧ PlainList xs
/-- `Plain` for every value, and plain keys. -/
def PlainFields : List (String × Pref) → Prop
  | [] => True
  | (k, x) :: xs => Json.PlainKey k ∧ Plain x ∧ PlainFields xs
end
end Pref

namespace Json
mutual
/-- Every key in the value is free of `/` and `~`, and every integer fits `i64`. -/
def PlainJson : Json → Prop
  | .num (.int i) => -(2 ^ 63 : Int) ≤ i ∧ i < 2 ^ 63
  | .obj kvs => PlainJsonFields kvs
  | .arr xs => PlainJsonList xs
  | _ => True
/-- `PlainJson` for every element. -/
def PlainJsonList : List Json → Prop
  | [] => True
  | x :: xs => PlainJson x ∧ PlainJsonList xs
/-- `PlainJson` for every value, and plain keys. -/
def PlainJsonFields : List (String × Json) → Prop
  | [] => True
  | (k, x) :: xs => PlainKey k ∧ PlainJson x ∧ PlainJsonFields xs
end
end Json
end Mutagenyx
