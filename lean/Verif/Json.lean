import Verif.Number
import Verif.Order

/-!
# JSON and Serde

Models the conversions between trees and JSON documents of `layouts/src/value/mod.rs` L339-413, L490-569, and the
serialization of trees with Serde, `layouts/src/value/ser.rs` and `layouts/src/value/de.rs`.

A JSON document is modelled after `json_syntax::Value`: numbers are strings, objects are sequences of entries.
-/

namespace Verif

/-- `json_syntax::Value`, `serde_json::Value`. -/
inductive Json where
  | null
  | boolean (b : Bool)
  | number (s : List Char)
  | string (s : String)
  | array (l : List Json)
  | object (m : List (String × Json))
  deriving Repr

/-- `BTreeMap::insert` on the list of entries in iteration order. -/
def bmapInsert {κ α : Type _} [DecidableEq κ] (le : κ → κ → Bool) (k : κ) (v : α) : List (κ × α) → List (κ × α)
  | [] => [(k, v)]
  | (k', v') :: m =>
    if k = k' then (k, v) :: m
    else if le k k' then (k, v) :: (k', v') :: m
    else (k', v') :: bmapInsert le k v m

/-- `collect::<BTreeMap<_, _>>()`: the last entry of each key remains. -/
def bmapCollect {κ α : Type _} [DecidableEq κ] (le : κ → κ → Bool) (l : List (κ × α)) : List (κ × α) :=
  l.foldl (fun m e => bmapInsert le e.1 e.2 m) []

mutual
/-- `From<json_syntax::Value> for Value` (and `From<serde_json::Value>`, `TryFromJson`).
`layouts/src/value/mod.rs` L339-413. A number that is not an `xsd:decimal` makes `unwrap` panic. -/
def Json.toValue : Json → Out Empty Value
  | .null => .ok (.literal .unit)
  | .boolean b => .ok (.literal (.boolean b))
  | .number s => (Number.ofJson s).bind fun n => .ok (.literal (.number n))
  | .string s => .ok (.literal (.textString s))
  | .array l => (Json.toValues l).bind fun l => .ok (.list l)
  | .object m => (Json.toEntries m).bind fun m => .ok (.map (bmapCollect Value.le m))

/-- `a.into_iter().map(Into::into).collect()`. `layouts/src/value/mod.rs` L386. -/
def Json.toValues : List Json → Out Empty (List Value)
  | [] => .ok []
  | j :: l => j.toValue.bind fun v => (Json.toValues l).bind fun l => .ok (v :: l)

/-- The entries of an object, keys becoming text strings. `layouts/src/value/mod.rs` L387-391. -/
def Json.toEntries : List (String × Json) → Out Empty (List (Value × Value))
  | [] => .ok []
  | (k, j) :: m => j.toValue.bind fun v => (Json.toEntries m).bind fun m => .ok ((Value.text k, v) :: m)
end

/-- `NonJsonValue`. `layouts/src/value/mod.rs` L449-461. -/
inductive NonJsonValue where
  | number (n : Rat)
  | byteString (b : List UInt8)
  | nonStringKey (k : Value)
  deriving DecidableEq, Repr

/-- `TryFrom<Literal> for json_syntax::Value` (and `serde_json::Value`). `layouts/src/value/mod.rs` L469-495. -/
def Literal.toJson : Literal → Out NonJsonValue Json
  | .unit => .ok .null
  | .boolean b => .ok (.boolean b)
  | .number n =>
    match Number.toJson n with
    | some s => .ok (.number s)
    | none => .err (.number n)
  | .textString s => .ok (.string s)
  | .byteString b => .err (.byteString b)

mutual
/-- `TryFrom<Value> for json_syntax::Value` (and `serde_json::Value`). `layouts/src/value/mod.rs` L513-569. -/
def Value.toJson : Value → Out NonJsonValue Json
  | .literal l => l.toJson
  | .map m => (Value.entriesToJson m).bind fun m => .ok (.object m)
  | .list l => (Value.itemsToJson l).bind fun l => .ok (.array l)

/-- The loop over the entries of a map. `layouts/src/value/mod.rs` L522-529. The keys of a map are distinct, so that
`Object::insert` adds an entry. -/
def Value.entriesToJson : List (Value × Value) → Out NonJsonValue (List (String × Json))
  | [] => .ok []
  | (k, v) :: m =>
    match k with
    | .literal (.textString k) =>
      v.toJson.bind fun j => (Value.entriesToJson m).bind fun m => .ok ((k, j) :: m)
    | other => .err (.nonStringKey other)

/-- `list.into_iter().map(TryInto::try_into).collect::<Result<_, _>>()`. `layouts/src/value/mod.rs` L533-537. -/
def Value.itemsToJson : List Value → Out NonJsonValue (List Json)
  | [] => .ok []
  | v :: l => v.toJson.bind fun j => (Value.itemsToJson l).bind fun l => .ok (j :: l)
end

/-- `TryFrom<TypedLiteral> for serde_json::Value`. `layouts/src/value/mod.rs` L497-511. -/
def TypedLiteral.toJson {R : Type _} : TypedLiteral R → Out NonJsonValue Json
  | .id s _ => .ok (.string s)
  | .unit v _ => v.toJson
  | .boolean b _ => .ok (.boolean b)
  | .number n _ =>
    match Number.toJson n with
    | some s => .ok (.number s)
    | none => .err (.number n)
  | .textString s _ => .ok (.string s)
  | .byteString b _ => .err (.byteString b)

/-! ### Serde -/

/-- The part of Serde's data model that trees use. The type of floating point numbers is a parameter. -/
inductive SerdeValue (F : Type) where
  | unit
  | bool (b : Bool)
  | u64 (n : Nat)
  | i64 (z : Int)
  | f64 (f : F)
  | bytes (b : List UInt8)
  | str (s : String)
  | seq (l : List (SerdeValue F))
  | map (m : List (SerdeValue F × SerdeValue F))
  deriving Repr

variable {F : Type} (toF64 : Rat → F) (ofF64 : F → Option Rat)

/-- `Serialize for Literal`. `layouts/src/value/ser.rs` L33-50. -/
def Literal.serialize : Literal → Out Empty (SerdeValue F)
  | .unit => .ok .unit
  | .boolean b => .ok (.bool b)
  | .number n => (Number.asNative toF64 n).bind fun n => .ok (match n with
    | .u64 n => .u64 n
    | .i64 z => .i64 z
    | .f64 f => .f64 f)
  | .textString s => .ok (.str s)
  | .byteString b => .ok (.bytes b)

mutual
/-- `Serialize for Value`. `layouts/src/value/ser.rs` L3-31. -/
def Value.serialize : Value → Out Empty (SerdeValue F)
  | .literal l => l.serialize toF64
  | .map m => (Value.serializeEntries m).bind fun m => .ok (.map m)
  | .list l => (Value.serializeItems l).bind fun l => .ok (.seq l)

/-- `map.serialize_entry(key, value)` for each entry. `layouts/src/value/ser.rs` L13-15. -/
def Value.serializeEntries : List (Value × Value) → Out Empty (List (SerdeValue F × SerdeValue F))
  | [] => .ok []
  | (k, v) :: m => k.serialize.bind fun k => v.serialize.bind fun v =>
    (Value.serializeEntries m).bind fun m => .ok ((k, v) :: m)

/-- `seq.serialize_element(item)` for each item. `layouts/src/value/ser.rs` L23-25. -/
def Value.serializeItems : List Value → Out Empty (List (SerdeValue F))
  | [] => .ok []
  | v :: l => v.serialize.bind fun v => (Value.serializeItems l).bind fun l => .ok (v :: l)
end

mutual
/-- `Deserialize for Value`. `layouts/src/value/de.rs` L5-124. `ofF64` is `Number::try_from`; `none` is a non finite
number, reported as an error. -/
def Value.deserialize : SerdeValue F → Option Value
  | .unit => some (.literal .unit)
  | .bool b => some (.literal (.boolean b))
  | .u64 n => some (.literal (.number n))
  | .i64 z => some (.literal (.number z))
  | .f64 f => (ofF64 f).map fun n => .literal (.number n)
  | .bytes b => some (.literal (.byteString b))
  | .str s => some (.literal (.textString s))
  | .seq l => (Value.deserializeItems l).map .list
  | .map m => (Value.deserializeEntries m).map fun m => .map (bmapCollect Value.le m)

/-- `visit_map`. `layouts/src/value/de.rs` L106-119. -/
def Value.deserializeEntries : List (SerdeValue F × SerdeValue F) → Option (List (Value × Value))
  | [] => some []
  | (k, v) :: m =>
    (Value.deserialize k).bind fun k => (Value.deserialize v).bind fun v =>
      (Value.deserializeEntries m).map fun m => (k, v) :: m

/-- `visit_seq`. `layouts/src/value/de.rs` L91-104. -/
def Value.deserializeItems : List (SerdeValue F) → Option (List Value)
  | [] => some []
  | v :: l => (Value.deserialize v).bind fun v => (Value.deserializeItems l).map fun l => v :: l
end

end Verif
