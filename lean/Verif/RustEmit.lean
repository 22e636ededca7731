import Verif.Rust
import Verif.Prelude

/-!
# The derive macros: emission of the code

What the derive macros do once the layout is built: the failures and panics of the emission, and the type with which each field,
variant or item is read and written. The emitted code itself is modelled in `Verif/Derive.lean`.
-/

namespace Verif.Rust

/-- `Error::{InvalidFieldIdent, InvalidDatatype}`. `generators/rust/treeldr-rs-macros/src/generate/de.rs` L13-25. -/
inductive EmitError where
  | invalidFieldIdent (v : Value)
  | invalidDatatype (t : Term)

/-- `generate_pattern`. `generators/rust/treeldr-rs-macros/src/generate/de.rs` L648-676, `generate/ser.rs` L540-571. -/
def emitPattern : Pattern Term → Out EmitError Unit
  | .var _ => .ok ()
  | .res (.iri _) => .ok ()
  | .res (.blank _) => .panic
  | .res (.literal l) =>
    match l.type with
    | .any _ => .ok ()
    | .langString _ => .panic

/-- `pattern_interpretation`, `term_interpretation`. `generators/rust/treeldr-rs-macros/src/generate/ser.rs` L455-493. -/
def emitTarget : Pattern Term → Out EmitError Unit
  | .res (.literal l) =>
    match l.type with
    | .any _ => .ok ()
    | .langString _ => .panic
  | _ => .ok ()

/-- In order, stopping at the first failure. -/
def emitEach {α : Type} (f : α → Out EmitError Unit) : List α → Out EmitError Unit
  | [] => .ok ()
  | a :: l => (f a).bind fun _ => emitEach f l

/-- The graph of a quad. -/
def emitGraphOpt : Option (Pattern Term) → Out EmitError Unit
  | some g => emitPattern g
  | none => .ok ()

/-- `dataset_to_array`. `generators/rust/treeldr-rs-macros/src/generate/de.rs` L624-641, `generate/ser.rs` L516-533. -/
def emitDataset (ds : List (QuadPat Term)) : Out EmitError Unit :=
  emitEach (fun q => (emitPattern q.s).bind fun _ => (emitPattern q.p).bind fun _ => (emitPattern q.o).bind fun _ => emitGraphOpt q.g) ds

/-- `generate_graph_pattern`. `generators/rust/treeldr-rs-macros/src/generate/de.rs` L613-622. -/
def emitGraph : Option (Option (Pattern Term)) → Out EmitError Unit
  | some (some g) => emitPattern g
  | _ => .ok ()

/-- `term_to_datatype`. `generators/rust/treeldr-rs-macros/src/generate/de.rs` L678-686, `generate/ser.rs` L495-513. -/
def emitDatatype : Term → Out EmitError Unit
  | .iri _ => .ok ()
  | t => .err (.invalidDatatype t)

/-- `syn::Ident::new`, which panics unless the string is an identifier. The names of fields and variants are those of the type
definition, given by `Ident::to_string`: identifiers, or raw identifiers with the prefix `r#`, which `Ident::new` does not accept. -/
def emitIdent (name : String) : Out EmitError Unit := if startsWith name "r#" then .panic else .ok ()

/-- `TypeMap::get`. `generators/rust/treeldr-rs-macros/src/parse.rs` L22-24: the `i`-th type is at `typeIri i`. -/
def typeAt : Nat → List RType → String → Option RType
  | _, [], _ => none
  | i, t :: ts, iri => if typeIri i = iri then some t else typeAt (i + 1) ts iri

/-- `input.type_map.get(layout.id().as_iri().unwrap()).unwrap()`. `generators/rust/treeldr-rs-macros/src/generate/de.rs` L175-178. -/
def emitType (types : List RType) : Term → Out EmitError RType
  | .iri i => Out.ofOption (typeAt 0 types i)
  | _ => .panic

/-- The value of a field, variant or item. The order of the four steps is not that of the code.
`generators/rust/treeldr-rs-macros/src/generate/de.rs` L185-193, L276-284, L349-360, L427-434, L509-517. -/
def emitValue (types : List RType) (ds : List (QuadPat Term)) (v : ValueFormat Term) : Out EmitError RType :=
  (emitDataset ds).bind fun _ => (emitEach emitPattern v.input).bind fun _ => (emitGraph v.graph).bind fun _ => emitType types v.layout

/-- The name of a field: a text. `generators/rust/treeldr-rs-macros/src/generate/de.rs` L163-171, `generate/ser.rs` L167-170. -/
def fieldName : Value → Out EmitError String
  | .text s => .ok s
  | v => .err (.invalidFieldIdent v)

/-- The fields of a structure. -/
def emitFields (types : List RType) : List (Value × Field Term) → Out EmitError (List (String × RType))
  | [] => .ok []
  | (k, f) :: fs =>
    (fieldName k).bind fun n => (emitIdent n).bind fun _ => (emitValue types f.dataset f.value).bind fun t =>
    (emitFields types fs).bind fun l => .ok ((n, t) :: l)

/-- The variants of an enumeration. -/
def emitVariants (types : List RType) : List (Variant Term) → Out EmitError (List (String × RType))
  | [] => .ok []
  | v :: vs =>
    (emitIdent v.name).bind fun _ => (emitValue types v.dataset v.value).bind fun t =>
    (emitVariants types vs).bind fun l => .ok ((v.name, t) :: l)

/-- The items of a tuple. -/
def emitItems (types : List RType) : List (ItemLayout Term) → Out EmitError (List RType)
  | [] => .ok []
  | i :: is => (emitValue types i.dataset i.value).bind fun t => (emitItems types is).bind fun l => .ok (t :: l)

/-- The types with which the contents of a value are read and written. -/
inductive Emitted where
  | nothing
  | fields (l : List (String × RType))
  | variants (l : List (String × RType))
  | items (l : List RType)
  | list (t : RType)

/-- A literal type. `de`: deserialization. `generators/rust/treeldr-rs-macros/src/generate/de.rs` L688-699, `generate/ser.rs` L87-153. -/
def emitData (de : Bool) (l : DataLayout Term) : Out EmitError Emitted :=
  (emitDataset l.dataset).bind fun _ => (if de then emitPattern l.resource else emitTarget l.resource).bind fun _ =>
  (emitDatatype l.datatype).bind fun _ => .ok .nothing

/-- The body of `generate`: derivation of `DeserializeLd` (`de`) or `SerializeLd`. `input_count().unwrap()` panics for the layouts
without inputs. `generators/rust/treeldr-rs-macros/src/generate/de.rs` L47-587, `generate/ser.rs` L47-433. -/
def emit (de : Bool) (types : List RType) : Layout Term → Out EmitError Emitted
  | .never => .panic
  | .always => .panic
  | .id l =>
    (emitDataset l.dataset).bind fun _ => (if de then emitPattern l.resource else .ok ()).bind fun _ => .ok .nothing
  | .unit l => (emitDataset l.dataset).bind fun _ => .ok .nothing
  | .boolean l => emitData de l
  | .number l => emitData de l
  | .byteString l => emitData de l
  | .textString l => emitData de l.toDataLayout
  | .product l => (emitDataset l.dataset).bind fun _ => (emitFields types l.fields).bind fun x => .ok (.fields x)
  | .sum l => (emitDataset l.dataset).bind fun _ => (emitVariants types l.variants).bind fun x => .ok (.variants x)
  | .unordered l =>
    (emitDataset l.dataset).bind fun _ => (emitValue types l.item.dataset l.item.value).bind fun t => .ok (.list t)
  | .ordered l =>
    (emitDataset l.dataset).bind fun _ => (emitPattern l.head).bind fun _ => (emitPattern l.tail).bind fun _ =>
    (emitValue types l.node.dataset l.node.value).bind fun t => .ok (.list t)
  | .sized l => (emitDataset l.dataset).bind fun _ => (emitItems types l.items).bind fun x => .ok (.items x)

/-- Errors of `generate`. -/
inductive DeriveCodeError where
  | derive (e : DeriveError)
  | emit (e : EmitError)

/-- `generate`: from a type definition to the emitted code. `generators/rust/treeldr-rs-macros/src/generate/de.rs` L38-612,
`generate/ser.rs` L38-453. -/
def deriveCode (lib : IriLib) (c : BuildCtx Term) (debug : Bool) (fuel : Nat) (de : Bool) (item : RItem) :
    Out DeriveCodeError Emitted :=
  ((derive lib c debug fuel item).mapErr .derive).bind fun p => (emit de p.2 p.1).mapErr .emit

end Verif.Rust
