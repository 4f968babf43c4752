import Verif.Model.Json

/-! # Specification vocabulary for JSON values -/

namespace Mutagenyx
namespace Json

/-- A key without the characters that are special in a JSON pointer.  All keys the tool uses itself
are of this kind. -/
def PlainKey (k : String) : Prop := ∀ c ∈ k.toList, c ≠ '/' ∧ c ≠ '~'

instance (k : String) : Decidable (PlainKey k) := inferInstanceAs (Decidable (∀ c ∈ k.toList, _))

/-- The keys of a list of fields are strictly increasing (what a `BTreeMap` guarantees). -/
def SortedKeys (kvs : List (String × Json)) : Prop := (kvs.map Prod.fst).Pairwise (· < ·)

instance (kvs : List (String × Json)) : Decidable (SortedKeys kvs) :=
  inferInstanceAs (Decidable (List.Pairwise _ _))

mutual
/-- A value the tool can hold in memory: the keys of every object in it are strictly increasing. -/
def WF : Json → Prop
  | .arr xs => WFList xs
  | .obj kvs => SortedKeys kvs ∧ WFFields kvs
  | _ => True
/-- All values of a list are well formed. -/
def WFList : List Json → Prop
  | [] => True
  | x :: xs => WF x ∧ WFList xs
/-- All values of a list of fields are well formed. -/
def WFFields : List (String × Json) → Prop
  | [] => True
  | (_, x) :: xs => WF x ∧ WFFields xs
end

mutual
/-- `WF` is decidable. -/
def decWF : (j : Json) → Decidable (WF j)
  | .null => isTrue trivial
  | .bool _ => isTrue trivial
  | .num _ => isTrue trivial
  | .str _ => isTrue trivial
  | .arr xs => decWFList xs
  | .obj kvs => @instDecidableAnd _ _ (inferInstance) (decWFFields kvs)
/-- `WFList` is decidable. -/
def decWFList : (xs : List Json) → Decidable (WFList xs)
  | [] => isTrue trivial
  | x :: xs => @instDecidableAnd _ _ (decWF x) (decWFList xs)
/-- `WFFields` is decidable. -/
def decWFFields : (xs : List (String × Json)) → Decidable (WFFields xs)
  | [] => isTrue trivial
  | (_, x) :: xs => @instDecidableAnd _ _ (decWF x) (decWFFields xs)
end

instance (j : Json) : Decidable (WF j) := decWF j

/-- The value an object stores for a key. -/
def field (k : String) : Json → Option Json
  | .obj kvs => objGet k kvs
  | _ => none

/-- The value is a JSON object. -/
def IsObj : Json → Prop
  | .obj _ => True
  | _ => False

end Json
end Mutagenyx
