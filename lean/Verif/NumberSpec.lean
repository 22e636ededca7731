import Mathlib.Data.Rat.Defs

/-!
# Decimal numerals

What it means for a string to be a decimal numeral of a number, and for a number to have one, independently of the code.
-/

namespace Verif

/-- A number with a finite decimal expansion: an integer divided by a power of ten. -/
def FiniteDecimal (q : Rat) : Prop := ∃ (m : Int) (k : Nat), q = (m : Rat) / (10 : Rat) ^ k

/-- `s` is a decimal numeral of `q`: an optional minus sign, an integer part without superfluous leading zero, and an
optional non-empty fractional part. -/
def IsNumeral (s : List Char) (q : Rat) : Prop :=
  ∃ (neg : Bool) (i f : List Char),
    (∀ c ∈ i ++ f, c.isDigit = true) ∧ i ≠ [] ∧ (i.head? = some '0' → i = ['0']) ∧
    s = (if neg then ['-'] else []) ++ i ++ (if f = [] then [] else '.' :: f) ∧
    q = (if neg then (-1 : Rat) else 1) * ((Nat.ofDigitChars 10 (i ++ f) 0 : Rat) / (10 : Rat) ^ f.length)

example : IsNumeral "-0.25".toList (-1 / 4) :=
  ⟨true, ['0'], ['2', '5'], by decide, by decide, by decide, by decide, by decide +kernel⟩

/-- An exponent of a JSON number (RFC 8259, section 6). -/
def IsExponent (e : List Char) : Prop :=
  ∃ (c : Char) (sign ds : List Char), (c = 'e' ∨ c = 'E') ∧ (sign = [] ∨ sign = ['+'] ∨ sign = ['-']) ∧ ds ≠ [] ∧
    (∀ d ∈ ds, d.isDigit = true) ∧ e = c :: (sign ++ ds)

/-- A JSON number (RFC 8259, section 6): a decimal numeral, possibly followed by an exponent. -/
def IsJsonNumber (s : List Char) : Prop :=
  ∃ (q : Rat) (t e : List Char), IsNumeral t q ∧ (e = [] ∨ IsExponent e) ∧ s = t ++ e

end Verif
