import Verif.Display
import Verif.Hydrate
import Verif.Dehydrate

/-!
# The messages of the errors of hydration and dehydration

Models `#[error(..)]` on `hy::Error`, `hy::DataFragment` and `de::Error`, `layouts/src/distill/hy/mod.rs` L23-78 and
`layouts/src/distill/de/mod.rs` L28-53. `quote` quotes strings (see `Verif/Display.lean`), `showRef` is the text of the identifier of a
layout.
-/

namespace Verif

/-- A fixed part of a message. -/
@[irreducible] def Message.lit (s : String) : List Char := s.toList

open Message (lit)

/-- `impl Display for DataFragment`. `layouts/src/distill/hy/mod.rs` L49-78. -/
def DataFragment.message {R} (quote : String → List Char) : DataFragment R → List Char
  | .discriminant _ => lit "layout discriminant"
  | .variant _ name => lit "variant `" ++ name.toList ++ lit "`"
  | .key _ k => lit "key `" ++ Display.value quote k ++ lit "`"
  | .orderedListNode _ _ _ => lit "list node"
  | .sizedListItem _ _ => lit "list item"

/-- `impl Display for hy::Error`. `layouts/src/distill/hy/mod.rs` L23-46. -/
def HyError.message {R} (quote : String → List Char) (showRef : R → List Char) : HyError R → List Char
  | .incompatibleLayout => lit "incompatible layout"
  | .invalidInputCount expected found =>
    lit "invalid input count (expected " ++ Nat.toDigits 10 expected ++ lit ", found " ++ Nat.toDigits 10 found ++ lit ")"
  | .dataAmbiguity f => lit "ambiguous " ++ f.message quote
  | .missingData f => lit "missing required " ++ f.message quote
  | .unknownNumberDatatype _ => lit "unknown number datatype"
  | .noMatchingLiteral => lit "no matching literal representation found"
  | .layoutNotFound layout => lit "layout `" ++ showRef layout ++ lit "` is undefined"

/-- `impl Display for de::Error`. `layouts/src/distill/de/mod.rs` L28-53, L82-87. The terms of a term ambiguity are not modelled: they
are the parameter `terms`. -/
def DeError.message (quote : String → List Char) (showRef : Term → List Char) (terms : List Char) : DeError → List Char
  | .incompatibleLayout => lit "incompatible layout"
  | .invalidInputCount expected found =>
    lit "invalid input count (expected " ++ Nat.toDigits 10 expected ++ lit ", found " ++ Nat.toDigits 10 found ++ lit ")"
  | .undeclaredVariable x => lit "undeclared variable #" ++ Nat.toDigits 10 x
  | .dataAmbiguity => lit "data ambiguity"
  | .termAmbiguity => lit "term ambiguity (" ++ terms ++ lit ")"
  | .layoutNotFound layout => lit "layout `" ++ showRef layout ++ lit "` is undefined"
  | .missingRequiredKey _ key _ => lit "missing required key `" ++ Display.value quote key ++ lit "`"

end Verif
