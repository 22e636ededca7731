import Verif.Rust
import Verif.Derive

/-!
# The types of the layouts of the prelude

Which Rust type the generator uses for a layout of the prelude, and whether the runtime implements this type.
-/

namespace Verif.Rust

/-- The implementation of `SerializeLd` and `DeserializeLd` for a type that was not generated: by its name, in the scope of
generated code. `generators/rust/treeldr-rs/src/datatypes.rs`. -/
def runtimeType : RType → Option Prim
  | .path [] n [] => if n = "Id" then none else primTypes.lookup n
  | .path ["treeldr", "rdf_types"] n [] => if n = "Id" then some .id else none
  | _ => none

/-- The public items at the root of the runtime crate. `generators/rust/treeldr-rs/src/lib.rs` L1-50. -/
def runtimeItems : List String :=
  ["tldr", "tldr_include", "DeserializeLd", "SerializeLd", "iref", "rdf_types", "de", "pattern", "ser", "utils",
    "DeserializeError", "Pattern", "RdfContext", "RdfContextMut", "SerializeError", "AsId"]

/-! ## Specification -/

/-- The range of an integer type of Rust: `u` or `i`, followed by the number of bits. -/
def IntRange (ty : String) (lo hi : Int) : Prop :=
  ∃ bits : Nat, (ty = "u" ++ toString bits ∧ lo = 0 ∧ hi = 2 ^ bits - 1) ∨
    (ty = "i" ++ toString bits ∧ lo = -2 ^ (bits - 1) ∧ hi = 2 ^ (bits - 1) - 1)

/-- The bounds of an integer datatype of XML Schema (XML Schema Definition Language 1.1 Part 2, section 3.4). -/
def XsdRange (iri : String) (lo hi : Int) : Prop :=
  (iri = "http://www.w3.org/2001/XMLSchema#unsignedByte" ∧ lo = 0 ∧ hi = 255) ∨
  (iri = "http://www.w3.org/2001/XMLSchema#unsignedShort" ∧ lo = 0 ∧ hi = 65535) ∨
  (iri = "http://www.w3.org/2001/XMLSchema#unsignedInt" ∧ lo = 0 ∧ hi = 4294967295) ∨
  (iri = "http://www.w3.org/2001/XMLSchema#unsignedLong" ∧ lo = 0 ∧ hi = 18446744073709551615) ∨
  (iri = "http://www.w3.org/2001/XMLSchema#byte" ∧ lo = -128 ∧ hi = 127) ∨
  (iri = "http://www.w3.org/2001/XMLSchema#short" ∧ lo = -32768 ∧ hi = 32767) ∨
  (iri = "http://www.w3.org/2001/XMLSchema#int" ∧ lo = -2147483648 ∧ hi = 2147483647) ∨
  (iri = "http://www.w3.org/2001/XMLSchema#long" ∧ lo = -9223372036854775808 ∧ hi = 9223372036854775807)

end Verif.Rust
