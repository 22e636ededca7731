import Verif.Pattern
import Verif.Value
import Verif.AutomatonDef

/-!
# Compiled layouts

Models the types of `layouts/src/layout/**`, `layouts/src/format.rs` and the registry of `layouts/src/lib.rs`.

Simplifications: the nested enums `LiteralLayout`/`DataLayout`/`ListLayout` are flattened into `Layout`; the
`extra_properties` maps (unused by hydration and dehydration) are left out; a `Dataset<R>` (`BTreeDataset` of
patterns) is the list of its quads; `BTreeMap` fields are the list of their entries in key order.
-/

namespace Verif

/-- `ValueFormat<R>`. `layouts/src/format.rs`: sub-layout, its inputs and optional graph selector. -/
structure ValueFormat (R : Type _) where
  layout : R
  input : List (Pattern R)
  graph : Option (Option (Pattern R))
  deriving DecidableEq, Repr

/-- `UnitLayout<R>`. `layouts/src/layout/literal/data.rs`. -/
structure UnitLayout (R : Type _) where
  input : Nat
  intro : Nat
  dataset : List (QuadPat R)
  const : Value
  deriving DecidableEq, Repr

/-- `BooleanLayout<R>`, `NumberLayout<R>`, `ByteStringLayout<R>`, which have the same fields.
`layouts/src/layout/literal/data.rs`. -/
structure DataLayout (R : Type _) where
  input : Nat
  intro : Nat
  dataset : List (QuadPat R)
  resource : Pattern R
  datatype : R
  deriving DecidableEq, Repr

/-- `TextStringLayout<R>`: a data layout with an optional pattern automaton.
`layouts/src/layout/literal/data.rs`. -/
structure TextLayout (R : Type _) extends DataLayout R where
  pattern : Option (DetAut Nat CharRange)
  deriving DecidableEq, Repr

/-- `IdLayout<R>`. `layouts/src/layout/literal/id.rs`. -/
structure IdLayout (R : Type _) where
  input : Nat
  intro : Nat
  dataset : List (QuadPat R)
  pattern : Option (DetAut Nat CharRange)
  resource : Pattern R
  deriving DecidableEq, Repr

/-- `Field<R>`. `layouts/src/layout/product.rs`. -/
structure Field (R : Type _) where
  intro : Nat
  value : ValueFormat R
  dataset : List (QuadPat R)
  required : Bool
  deriving DecidableEq, Repr

/-- `ProductLayout<R>`. `layouts/src/layout/product.rs`. -/
structure ProductLayout (R : Type _) where
  input : Nat
  intro : Nat
  fields : List (Value × Field R)
  dataset : List (QuadPat R)
  deriving DecidableEq, Repr

/-- `ItemLayout<R>` and `NodeLayout<R>`, which have the same fields. `layouts/src/layout/list/mod.rs`,
`layouts/src/layout/list/ordered.rs`. -/
structure ItemLayout (R : Type _) where
  intro : Nat
  value : ValueFormat R
  dataset : List (QuadPat R)
  deriving DecidableEq, Repr

/-- `UnorderedListLayout<R>`. `layouts/src/layout/list/unordered.rs`. -/
structure UnorderedLayout (R : Type _) where
  input : Nat
  intro : Nat
  item : ItemLayout R
  dataset : List (QuadPat R)
  deriving DecidableEq, Repr

/-- `OrderedListLayout<R>`. `layouts/src/layout/list/ordered.rs`. -/
structure OrderedLayout (R : Type _) where
  input : Nat
  intro : Nat
  node : ItemLayout R
  head : Pattern R
  tail : Pattern R
  dataset : List (QuadPat R)
  deriving DecidableEq, Repr

/-- `SizedListLayout<R>`. `layouts/src/layout/list/sized.rs`. -/
structure SizedLayout (R : Type _) where
  input : Nat
  intro : Nat
  items : List (ItemLayout R)
  dataset : List (QuadPat R)
  deriving DecidableEq, Repr

/-- `Variant<R>`. `layouts/src/layout/sum.rs`. -/
structure Variant (R : Type _) where
  name : String
  intro : Nat
  value : ValueFormat R
  dataset : List (QuadPat R)
  deriving DecidableEq, Repr

/-- `SumLayout<R>`. `layouts/src/layout/sum.rs`. -/
structure SumLayout (R : Type _) where
  input : Nat
  intro : Nat
  variants : List (Variant R)
  dataset : List (QuadPat R)
  deriving DecidableEq, Repr

/-- `Layout<R>`. `layouts/src/layout/mod.rs` L73-112. -/
inductive Layout (R : Type _) where
  | never
  | unit (l : UnitLayout R)
  | boolean (l : DataLayout R)
  | number (l : DataLayout R)
  | byteString (l : DataLayout R)
  | textString (l : TextLayout R)
  | id (l : IdLayout R)
  | product (l : ProductLayout R)
  | unordered (l : UnorderedLayout R)
  | ordered (l : OrderedLayout R)
  | sized (l : SizedLayout R)
  | sum (l : SumLayout R)
  | always
  deriving DecidableEq, Repr

variable {R : Type _}

/-- `Layout::input_count`. `layouts/src/layout/mod.rs` L164-173: literal layouts always need one input, whatever
their `input` field says. -/
def Layout.inputCount : Layout R → Option Nat
  | .never => none
  | .unit _ => some 1
  | .boolean _ => some 1
  | .number _ => some 1
  | .byteString _ => some 1
  | .textString _ => some 1
  | .id _ => some 1
  | .product l => some l.input
  | .unordered l => some l.input
  | .ordered l => some l.input
  | .sized l => some l.input
  | .sum l => some l.input
  | .always => none

/-- `LayoutRegistry<R>::get`. `layouts/src/lib.rs`. -/
abbrev Registry (R : Type _) := R → Option (Layout R)

/-- An RDF literal type: datatype IRI or language tag (`rdf_types::LiteralType`). -/
inductive LitType where
  | any (iri : String)
  | langString (tag : String)
  deriving DecidableEq, Repr

/-- An RDF literal (`rdf_types::Literal`). -/
structure RdfLit where
  value : String
  type : LitType
  deriving DecidableEq, Repr

/-- An RDF term (`rdf_types::Term`). -/
inductive Term where
  | iri (s : String)
  | blank (s : String)
  | literal (l : RdfLit)
  deriving DecidableEq, Repr

/-- The functions of the XSD library used by (de)hydration. Left abstract; `XsdLaws` states what is needed of them. -/
structure Xsd where
  /-- `xsd_types::XSD_BOOLEAN` -/
  boolean : String
  /-- `matches!(Datatype::from_iri(i), Some(Datatype::Decimal(_)))` -/
  isDecimal : String → Bool
  /-- `Boolean::parse_xsd` -/
  parseBoolean : String → Option Bool
  /-- `BooleanBuf::from(b).into_string()` -/
  printBoolean : Bool → String
  /-- `lexical::Decimal::parse(s)` then `.value().into_big_rational()` -/
  parseDecimal : String → Option Rat
  /-- `Decimal::try_from(r)` then `to_string()`; `none` when the number has no finite decimal representation -/
  printDecimal : Rat → Option String

/-- What is assumed of the XSD library where a round trip is claimed. -/
structure XsdLaws (x : Xsd) : Prop where
  bool : ∀ b, x.parseBoolean (x.printBoolean b) = some b
  decimal : ∀ q s, x.printDecimal q = some s → x.parseDecimal s = some q

end Verif
