import Verif.Json
import Verif.Hydrate

/-!
# CBOR

Models `layouts/src/value/cbor/mod.rs` and `layouts/src/value/cbor/serde_cbor.rs`: conversion of trees to
`serde_cbor::Value`.

* The type of floating point numbers and the conversion to it are parameters.
* Collecting entries into the `BTreeMap` of `serde_cbor::Value::Map` is the parameter `collect`, because the order on
  CBOR values belongs to `serde_cbor`.
* `num_bigint`'s `to_signed_bytes_be` (called `to_be_bytes` through `num_traits::ToBytes`) is modelled from its
  documentation: shortest two's complement representation, most significant byte first.
-/

namespace Verif

/-- `serde_cbor::Value`. -/
inductive Cbor (F : Type) where
  | null
  | bool (b : Bool)
  | integer (z : Int)
  | float (f : F)
  | bytes (b : List UInt8)
  | text (s : String)
  | array (l : List (Cbor F))
  | map (m : List (Cbor F × Cbor F))
  | tag (t : Nat) (v : Cbor F)
  deriving Repr

/-- Little endian bytes of a natural number, without leading zero; `fuel` bounds the number of bytes. -/
def bytesLe : Nat → Nat → List UInt8
  | 0, _ => []
  | fuel + 1, n => if n = 0 then [] else UInt8.ofNat (n % 256) :: bytesLe fuel (n / 256)

/-- `twos_complement` of `num_bigint`, least significant byte first: invert all bytes and add one. -/
def twosComplementLe : Bool → List UInt8 → List UInt8
  | _, [] => []
  | carry, d :: l =>
    let d := ~~~d
    if carry then
      let d := d + 1
      d :: twosComplementLe (d == 0) l
    else d :: twosComplementLe false l

/-- `BigInt::to_signed_bytes_be`. -/
def toSignedBytesBe (z : Int) : List UInt8 :=
  let bytes := (bytesLe (z.natAbs + 1) z.natAbs).reverse
  let first := bytes.headD 0
  let bytes :=
    if 0x7f < first ∧ ¬(first = 0x80 ∧ (bytes.drop 1).all (· == 0) = true ∧ z < 0) then 0 :: bytes else bytes
  if z < 0 then (twosComplementLe true bytes.reverse).reverse else bytes

variable {F : Type} (toF64 : Rat → F)

/-- `From<Number> for serde_cbor::Value`. `layouts/src/value/cbor/serde_cbor.rs` L139-158. -/
def Number.toCbor (n : Rat) : Out Empty (Cbor F) :=
  if n.den = 1 then
    let z := n.num
    if Number.bits z ≤ 64 then
      (Out.ofOption (Number.firstU64Digit z)).bind fun unsigned =>
        let signed : Int := if 0 < z then unsigned else -unsigned
        .ok (.integer signed)
    else
      let tag := if 0 < z then 2 else 3
      .ok (.tag tag (.bytes (toSignedBytesBe z)))
  else .ok (.float (toF64 n))

variable (collect : List (Cbor F × Cbor F) → List (Cbor F × Cbor F))

mutual
/-- `From<Value> for serde_cbor::Value`. `layouts/src/value/cbor/serde_cbor.rs` L160-178. -/
def Value.toCbor : Value → Out Empty (Cbor F)
  | .literal .unit => .ok .null
  | .literal (.boolean b) => .ok (.bool b)
  | .literal (.number n) => Number.toCbor toF64 n
  | .literal (.byteString b) => .ok (.bytes b)
  | .literal (.textString s) => .ok (.text s)
  | .map m => (Value.entriesToCbor m).bind fun m => .ok (.map (collect m))
  | .list l => (Value.itemsToCbor l).bind fun l => .ok (.array l)

/-- The entries of a map. `layouts/src/value/cbor/serde_cbor.rs` L168-172. -/
def Value.entriesToCbor : List (Value × Value) → Out Empty (List (Cbor F × Cbor F))
  | [] => .ok []
  | (k, v) :: m => k.toCbor.bind fun k => v.toCbor.bind fun v => (Value.entriesToCbor m).bind fun m => .ok ((k, v) :: m)

/-- The items of a list. `layouts/src/value/cbor/serde_cbor.rs` L173-175. -/
def Value.itemsToCbor : List Value → Out Empty (List (Cbor F))
  | [] => .ok []
  | v :: l => v.toCbor.bind fun v => (Value.itemsToCbor l).bind fun l => .ok (v :: l)
end

variable {R : Type} {ε : Type}

/-- The literal cases of the conversion of typed values. `layouts/src/value/cbor/serde_cbor.rs` L58-69, L122-127. -/
def TypedLiteral.toCbor : TypedLiteral R → Out Empty (Cbor F)
  | .unit _ _ => .ok .null
  | .boolean b _ => .ok (.bool b)
  | .number n _ => Number.toCbor toF64 n
  | .byteString b _ => .ok (.bytes b)
  | .textString s _ => .ok (.text s)
  | .id s _ => .ok (.text s)

mutual
/-- `From<TypedValue<R>> for serde_cbor::Value`. `layouts/src/value/cbor/serde_cbor.rs` L118-137. -/
def TypedValue.toCbor : TypedValue R → Out Empty (Cbor F)
  | .always v => v.toCbor toF64 collect
  | .literal l => l.toCbor toF64
  | .variant v _ _ => v.toCbor
  | .map m _ => (TypedValue.entriesToCbor m).bind fun m => .ok (.map (collect m))
  | .list l _ => (TypedValue.itemsToCbor l).bind fun l => .ok (.array l)

/-- The entries of a map. `layouts/src/value/cbor/serde_cbor.rs` L129-133. -/
def TypedValue.entriesToCbor : List (Value × TypedValue R) → Out Empty (List (Cbor F × Cbor F))
  | [] => .ok []
  | (k, v) :: m => (k.toCbor toF64 collect).bind fun k => v.toCbor.bind fun v =>
    (TypedValue.entriesToCbor m).bind fun m => .ok ((k, v) :: m)

/-- The items of a list. `layouts/src/value/cbor/serde_cbor.rs` L134. -/
def TypedValue.itemsToCbor : List (TypedValue R) → Out Empty (List (Cbor F))
  | [] => .ok []
  | v :: l => v.toCbor.bind fun v => (TypedValue.itemsToCbor l).bind fun l => .ok (v :: l)
end

/-- Outcomes of functions that return no error. -/
def Out.lift {α : Type} : Out Empty α → Out ε α
  | .ok a => .ok a
  | .err e => nomatch e
  | .panic => .panic
  | .fuel => .fuel

variable (tagOf : R → Out ε (Option Nat))

/-- The last step of `try_into_tagged_serde_cbor`: adds the tag of the layout, if any.
`layouts/src/value/cbor/serde_cbor.rs` L108-114. -/
def addTag (ty : Option R) (value : Cbor F) : Out ε (Cbor F) :=
  match ty with
  | some ty => (tagOf ty).bind fun tag => match tag with
    | some tag => .ok (.tag tag value)
    | none => .ok value
  | none => .ok value

mutual
/-- `TypedValue::try_into_tagged_serde_cbor_with`. `layouts/src/value/cbor/serde_cbor.rs` L23-116.
`tagOf` is `get_layout_tag` for the given vocabulary, interpretation and registry. -/
def TypedValue.toTaggedCbor : TypedValue R → Out ε (Cbor F)
  | .always v => (v.toCbor toF64 collect).lift.bind fun v => addTag tagOf none v
  | .literal l => (l.toCbor toF64).lift.bind fun v => addTag tagOf (some l.type) v
  | .variant v ty _ => v.toTaggedCbor.bind fun v => addTag tagOf (some ty) v
  | .map m ty => (TypedValue.entriesToTaggedCbor m).bind fun m => addTag tagOf (some ty) (.map (collect m))
  | .list l ty => (TypedValue.itemsToTaggedCbor l).bind fun l => addTag tagOf (some ty) (.array l)

/-- The entries of a map; keys are not tagged. `layouts/src/value/cbor/serde_cbor.rs` L76-87. -/
def TypedValue.entriesToTaggedCbor : List (Value × TypedValue R) → Out ε (List (Cbor F × Cbor F))
  | [] => .ok []
  | (k, v) :: m => (k.toCbor toF64 collect).lift.bind fun k => v.toTaggedCbor.bind fun v =>
    (TypedValue.entriesToTaggedCbor m).bind fun m => .ok ((k, v) :: m)

/-- The items of a list. `layouts/src/value/cbor/serde_cbor.rs` L93-102. -/
def TypedValue.itemsToTaggedCbor : List (TypedValue R) → Out ε (List (Cbor F))
  | [] => .ok []
  | v :: l => v.toTaggedCbor.bind fun v => (TypedValue.itemsToTaggedCbor l).bind fun l => .ok (v :: l)
end

/-! ### Tags -/

/-- `InvalidTag`. `layouts/src/value/cbor/mod.rs` L21-30. -/
inductive InvalidTag where
  | nonLiteral
  | value (s : String)
  | type (iri : String)
  deriving DecidableEq, Repr

/-- The IRI of the property. `layouts/src/value/cbor/mod.rs` L16. -/
def cborTagIri : String := "https://schema.treeldr.org/cbor#tag"

/-- `UnsignedLongDatatype::from_iri`: `xsd:unsignedLong` and the datatypes derived from it (XSD 1.1 Part 2,
section 3.4). -/
def isUnsignedLong (iri : String) : Bool :=
  ["unsignedLong", "unsignedInt", "unsignedShort", "unsignedByte"].any
    fun t => iri == "http://www.w3.org/2001/XMLSchema#" ++ t

/-- Removes a leading `+`. -/
def stripPlus : List Char → List Char
  | '+' :: d => d
  | d => d

/-- `str::parse::<u64>`: an optional `+` and decimal digits, in the range of `u64`. -/
def parseU64 (s : String) : Option Nat :=
  let d := stripPlus s.toList
  if d ≠ [] ∧ d.all Char.isDigit = true then
    let n := Nat.ofDigitChars 10 d 0
    if n < 2 ^ 64 then some n else none
  else none

/-- The loop of `get_layout_tag` over the literals of the value of the property.
`layouts/src/value/cbor/mod.rs` L49-64. The vocabulary is total, so the first literal that has a datatype decides. -/
def tagOfLiterals : List RdfLit → Out InvalidTag (Option Nat)
  | [] => .err .nonLiteral
  | l :: ls =>
    match l.type with
    | .any ty =>
      if isUnsignedLong ty then
        match parseU64 l.value with
        | some n => .ok (some n)
        | none => .err (.value l.value)
      else .err (.type ty)
    | .langString _ => tagOfLiterals ls

/-- `get_layout_tag`. `layouts/src/value/cbor/mod.rs` L33-71.
`extra` gives the extra properties of the layout of a reference (`None` if it is not in the registry, which panics);
`iriResource` is `lexical_iri_interpretation`. -/
def getLayoutTag [DecidableEq R] (extra : R → Option (List (R × R))) (iriResource : String → Option R)
    (literalsOf : R → List RdfLit) (ref : R) : Out InvalidTag (Option Nat) :=
  (Out.ofOption (extra ref)).bind fun props =>
    match iriResource cborTagIri with
    | some prop =>
      match props.lookup prop with
      | some value => tagOfLiterals (literalsOf value)
      | none => .ok none
    | none => .ok none

end Verif
