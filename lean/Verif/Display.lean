import Verif.Value
import Verif.Number

/-!
# The text of trees

Models `impl Display` for `Number`, `Literal` and `Value`, `layouts/src/value/mod.rs` L182-186, L282-300, L415-446.
-/

namespace Verif

namespace Display

/-- `write!(f, "{b:02x}")`. `layouts/src/value/mod.rs` L292. -/
def byte (b : UInt8) : List Char := [Nat.digitChar (b.toNat / 16), Nat.digitChar (b.toNat % 16)]

/-- `impl Display for Number`, `layouts/src/value/mod.rs` L182-186: the text of `num_rational::Ratio`, the numerator alone if the
denominator is one, and otherwise both separated by a slash. -/
def number (n : Rat) : List Char :=
  if n.den = 1 then Number.intToString n.num else Number.intToString n.num ++ '/' :: Nat.toDigits 10 n.den

/-- `impl Display for Literal`. `layouts/src/value/mod.rs` L282-300. `quote` is `json_syntax::print::string_literal`. -/
def literal (quote : String → List Char) : Literal → List Char
  | .unit => "null".toList
  | .boolean true => "true".toList
  | .boolean false => "false".toList
  | .number n => number n
  | .byteString bytes => 'x' :: bytes.flatMap byte
  | .textString s => quote s

/-- What is needed of the quotation of strings: it begins with a quotation mark, and a quoted string followed by anything can be told
from any other one. -/
structure Quotes (quote : String → List Char) : Prop where
  start : ∀ s, ∃ t, quote s = '"' :: t
  ends : ∀ a b s t, quote a ++ s = quote b ++ t → a = b ∧ s = t

/-- What is written before the item number `i`. `layouts/src/value/mod.rs` L422-424, L433-435. -/
def comma (i : Nat) : List Char := if i > 0 then [','] else []

mutual
/-- `impl Display for Value`. `layouts/src/value/mod.rs` L415-446. -/
def value (quote : String → List Char) : Value → List Char
  | .literal l => literal quote l
  | .list l => '[' :: (items quote 0 l ++ [']'])
  | .map m => '{' :: (entries quote 0 m ++ ['}'])

/-- The items, from number `i` on. `layouts/src/value/mod.rs` L421-427. -/
def items (quote : String → List Char) (i : Nat) : List Value → List Char
  | [] => []
  | v :: l => comma i ++ (value quote v ++ items quote (i + 1) l)

/-- The entries, from number `i` on. `layouts/src/value/mod.rs` L432-440. -/
def entries (quote : String → List Char) (i : Nat) : List (Value × Value) → List Char
  | [] => []
  | (k, v) :: m => comma i ++ (value quote k ++ ':' :: (value quote v ++ entries quote (i + 1) m))
end

end Display

end Verif
