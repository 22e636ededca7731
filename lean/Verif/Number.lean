import Verif.Value
import Mathlib.Data.Rat.Defs

/-!
# Numbers

Models `Number` of `layouts/src/value/mod.rs` L31-252: decimal representation, native representation, conversions from
and to JSON numbers.

`BigRational` is `Rat`: numerator and denominator are coprime and the denominator is positive. Strings are lists of
characters. JSON numbers (`json_syntax::NumberBuf`, `serde_json::Number` with the feature `arbitrary_precision`) are
strings that follow the grammar of RFC 8259. The parser of `xsd_types::Decimal` is modelled after the lexical space of
`xsd:decimal` (XSD 1.1 Part 2, section 3.3.3); it is a dependency of the project and not part of `/repo`.
-/

namespace Verif

namespace Number

/-- Division and remainder loop of `decimal_representation`. `layouts/src/value/mod.rs` L100-105.

`seen` holds the keys of the hash map (its values are never read). `n.to_string()` for a natural number is
`Nat.toDigits 10 n`. Outcome `fuel` means that the loop has not stopped after `fuel` iterations. -/
def fractionLoop (denom : Nat) : Nat → Nat → List Nat → List Char → Out Empty (Nat × List Char)
  | fuel, rem, seen, fraction =>
    if rem = 0 ∨ rem ∈ seen then .ok (rem, fraction)
    else
      match fuel with
      | 0 => .fuel
      | fuel + 1 =>
        fractionLoop denom fuel (rem * 10 % denom) (rem :: seen) (fraction ++ Nat.toDigits 10 (rem * 10 / denom))

/-- `BigInt::to_string`. -/
def intToString (z : Int) : List Char :=
  if z < 0 then '-' :: Nat.toDigits 10 z.natAbs else Nat.toDigits 10 z.natAbs

/-- `Number::decimal_representation`. `layouts/src/value/mod.rs` L88-125.
The division of `BigInt` truncates towards zero. -/
def decimal (fuel : Nat) (n : Rat) : Out Empty (Option (List Char)) :=
  (fractionLoop n.den fuel ((if n.num < 0 then (-n.num).toNat else n.num.toNat) % n.den) [] []).bind
    fun (rem, fraction) =>
      let output := if n.num < 0 then ['-'] else []
      let output := output ++ intToString (n.num.tdiv n.den)
      .ok (if rem = 0 then some (if fraction = [] then output else output ++ '.' :: fraction) else none)

/-- The result of `decimal_representation`: the loop stops after at most `denom` iterations
(`Verif.Props.C34_terminates`). -/
def decimalRepresentation (n : Rat) : Option (List Char) :=
  match decimal n.den n with
  | .ok s => s
  | _ => none

/-- Longest prefix of decimal digits. -/
def spanDigits : List Char → List Char × List Char
  | [] => ([], [])
  | c :: s => if c.isDigit then let (d, r) := spanDigits s; (c :: d, r) else ([], c :: s)

/-- Removes a leading `-`. -/
def stripMinus : List Char → Bool × List Char
  | '-' :: s => (true, s)
  | s => (false, s)

/-- Removes the sign of an exponent. -/
def skipSign : List Char → List Char
  | '+' :: s => s
  | '-' :: s => s
  | s => s

/-- Optional exponent of a JSON number, up to the end of the string. RFC 8259, section 6 (`exp`). -/
def jsonExponent : List Char → Bool
  | [] => true
  | c :: s =>
    (c = 'e' || c = 'E') &&
      match spanDigits (skipSign s) with
      | ([], _) => false
      | (_, r) => r = []

/-- JSON numbers. `json_syntax::NumberBuf::from_str` accepts exactly these strings. RFC 8259, section 6. -/
def isJson (s : List Char) : Bool :=
  match spanDigits (stripMinus s).2 with
  | ([], _) => false
  | (c :: i, r) =>
    (c ≠ '0' || i = []) &&
      match r with
      | '.' :: r =>
        match spanDigits r with
        | ([], _) => false
        | (_, r) => jsonExponent r
      | r => jsonExponent r

/-- `TryFrom<Number> for json_syntax::NumberBuf`, and for `serde_json::Number`. `layouts/src/value/mod.rs` L226-252.
`none` is `Err(NonJsonNumber)`. -/
def toJson (n : Rat) : Option (List Char) :=
  match decimalRepresentation n with
  | some s => if isJson s then some s else none
  | none => none

/-- Removes a leading sign of an `xsd:decimal`. -/
def stripSign : List Char → Bool × List Char
  | '-' :: s => (true, s)
  | '+' :: s => (false, s)
  | s => (false, s)

/-- The fractional part of an `xsd:decimal`. -/
def spanFraction : List Char → List Char × List Char
  | '.' :: r => spanDigits r
  | r => ([], r)

/-- `xsd_types::Decimal::parse_xsd`: `(\+|-)?([0-9]+(\.[0-9]*)?|\.[0-9]+)`. -/
def parseXsdDecimal (s : List Char) : Option Rat :=
  let (neg, s) := stripSign s
  let (i, r) := spanDigits s
  let (f, r) := spanFraction r
  if r = [] ∧ (i ≠ [] ∨ f ≠ []) then
    let q : Rat := (Nat.ofDigitChars 10 (i ++ f) 0 : Rat) / (10 : Rat) ^ f.length
    some (if neg then -q else q)
  else none

/-- `From<serde_json::Number>`, `From<json_syntax::NumberBuf>` and `From<&json_syntax::Number>` for `Number`.
`layouts/src/value/mod.rs` L189-220. The result of the parser is unwrapped. -/
def ofJson {ε} (s : List Char) : Out ε Rat := Out.ofOption (parseXsdDecimal s)

end Number

/-- `NativeNumber`. `layouts/src/value/mod.rs` L128-132. The type of floating point numbers is a parameter. -/
inductive NativeNumber (F : Type) where
  | u64 (n : Nat)
  | i64 (z : Int)
  | f64 (f : F)
  deriving Repr, DecidableEq

namespace Number

/-- `BigInt::bits`: length of the binary representation of the magnitude. -/
def bits (z : Int) : Nat := if z = 0 then 0 else z.natAbs.log2 + 1

/-- `BigInt::iter_u64_digits().next()`: the least significant 64 bits of the magnitude; there is no digit in zero. -/
def firstU64Digit (z : Int) : Option Nat := if z = 0 then none else some (z.natAbs % 2 ^ 64)

/-- `u as i64`: wrapping conversion of a `u64`. -/
def wrapI64 (u : Nat) : Int := if u < 2 ^ 63 then u else (u : Int) - 2 ^ 64

variable {F : Type} (toF64 : Rat → F)

/-- `Number::as_native`. `layouts/src/value/mod.rs` L58-81. -/
def asNative (n : Rat) : Out Empty (NativeNumber F) :=
  if n.den = 1 then
    let z := n.num
    if z < 0 then
      if bits z < 64 then
        (Out.ofOption (firstU64Digit z)).bind fun u => .ok (.i64 (-wrapI64 u))
      else .ok (.f64 (toF64 n))
    else
      if bits z ≤ 64 then
        (Out.ofOption (firstU64Digit z)).bind fun u => .ok (.u64 u)
      else .ok (.f64 (toF64 n))
  else .ok (.f64 (toF64 n))

end Number

end Verif
