import Verif.SyntaxDoc
import Verif.SyntaxParse

/-!
# Deserialization of layout definitions

Models the derived implementations of `serde::Deserialize` in `layouts/src/abs/syntax/**`, which the macros `tldr` and
`tldr_include` and the tool `tldr-rs` use to read layout files (`treeldr` uses the parser of `Verif.SyntaxParse`).

What `serde` and `serde_json` do is modelled after their sources:
* the documents are first read into a buffer, because layouts are an untagged enumeration. With the feature
  `arbitrary_precision` of `serde_json` (`Cargo.toml` L44), a number becomes a map with one entry in this buffer if it is read
  from a text (`from_str`: the macros, `tldr-rs` and the prelude). If it is read from a `serde_json::Value` (`from_value`: the
  examples of the documentation), integers of 64 bits stay numbers;
* the variants of an untagged enumeration are tried in order; its errors are dropped, so errors are `none` here;
* a structure is read from a map, or from a sequence of its fields in order of declaration; fields with the attribute `default`
  and fields of type `Option` may be missing, and `null` is `None` for the latter;
* a structure with flattened fields is only read from a map.

Not modelled: the limit of `serde_json` on the depth of documents.
-/

set_option linter.unusedSectionVars false

namespace Verif

/-- `str::parse::<u64>`. -/
def parseUnsigned64 (s : List Char) : Option Nat :=
  if s ≠ [] ∧ s.all Char.isDigit ∧ Nat.ofDigitChars 10 s 0 < 2 ^ 64 then some (Nat.ofDigitChars 10 s 0) else none

/-- The name of the entry that stands for a number in the buffer (`serde_json::number::TOKEN`). -/
def numberToken : String := "$serde_json::private::Number"

mutual
/-- The buffer (`serde::__private::de::Content`) of a document. -/
def Json.buffer : Json → Json
  | .number s => .object [(numberToken, .string (String.ofList s))]
  | .array l => .array (Json.bufferList l)
  | .object m => .object (Json.bufferEntries m)
  | j => j

/-- The buffer of the items of an array. -/
def Json.bufferList : List Json → List Json
  | [] => []
  | j :: l => j.buffer :: Json.bufferList l

/-- The buffer of the entries of an object. -/
def Json.bufferEntries : List (String × Json) → List (String × Json)
  | [] => []
  | (k, j) :: m => (k, j.buffer) :: Json.bufferEntries m
end

mutual
/-- The buffer of a document that is a `serde_json::Value`. Integers that fit in 64 bits are numbers. Simplification: what becomes
of the other numbers is not described (`other`). -/
def Json.bufferValue (other : List Char → Json) : Json → Json
  | .number s => if (parseI64 s).isSome ∨ (parseUnsigned64 s).isSome then .number s else other s
  | .array l => .array (Json.bufferValueList other l)
  | .object m => .object (Json.bufferValueEntries other m)
  | j => j

/-- The buffer of the items of an array. -/
def Json.bufferValueList (other : List Char → Json) : List Json → List Json
  | [] => []
  | j :: l => j.bufferValue other :: Json.bufferValueList other l

/-- The buffer of the entries of an object. -/
def Json.bufferValueEntries (other : List Char → Json) : List (String × Json) → List (String × Json)
  | [] => []
  | (k, j) :: m => (k, j.bufferValue other) :: Json.bufferValueEntries other m
end

namespace Serde

/-! ## Structures -/

/-- The fields of a structure that denies unknown fields, from a map. -/
def mapFields (names : List String) (o : JsonObject) : Option (String → Option Json) :=
  if (o.map Prod.fst).Nodup ∧ ∀ e ∈ o, e.1 ∈ names then some fun k => o.lookup k else none

/-- The fields of a structure that denies unknown fields, from a map or a sequence. -/
def fields (names : List String) : Json → Option (String → Option Json)
  | .object o => mapFields names o
  | .array l => if l.length ≤ names.length then some fun k => (names.zip l).lookup k else none
  | _ => none

/-- A field without a default value. -/
def required {α : Type} (p : Json → Option α) (j : Option Json) : Option α := j.bind p

/-- A field with a default value. -/
def withDefault {α : Type} (dflt : α) (p : Json → Option α) : Option Json → Option α
  | none => some dflt
  | some j => p j

/-- A field of type `Option`. -/
def optional {α : Type} (p : Json → Option α) : Option Json → Option (Option α)
  | none => some none
  | some .null => some none
  | some j => (p j).map some

/-! ## Leaves -/

/-- `String`. -/
def string : Json → Option String
  | .string s => some s
  | _ => none

/-- `bool`. -/
def bool : Json → Option Bool
  | .boolean b => some b
  | _ => none

/-- `Vec<T>`. -/
def vec {α : Type} (p : Json → Option α) : Json → Option (List α)
  | .array l => l.mapM p
  | _ => none

/-- `OneOrMany<T>`, untagged. `layouts/src/abs/syntax/mod.rs` L379-384. -/
def oneOrMany {α : Type} (p : Json → Option α) (j : Json) : Option (OneOrMany α) :=
  ((p j).map .one).orElse fun _ => (vec p j).map .many

/-- `BTreeMap<K, V>`. -/
def map {κ α : Type} [DecidableEq κ] (le : κ → κ → Bool) (key : String → Option κ) (p : Json → Option α) : Json → Option (List (κ × α))
  | .object o => (o.mapM fun e => (key e.1).bind fun k => (p e.2).map fun a => (k, a)).map (bmapCollect le)
  | _ => none

/-- `IriRefBuf`, from a string. -/
def iriString (lib : ParseLib) (s : String) : Option CompactIri := if lib.isIriRef s then some s else none

/-- `CompactIri`, transparent. `layouts/src/abs/syntax/pattern/compact_iri.rs` L10-12. -/
def iri (lib : ParseLib) (j : Json) : Option CompactIri := (string j).bind (iriString lib)

/-- The only entry with the given key, if any; fails if there are several. -/
def unique (o : JsonObject) (key : String) : Option (Option Json) :=
  match o.filter fun e => e.1 = key with
  | [] => some none
  | [e] => some (some e.2)
  | _ => none

/-- `LiteralTypeIri`: other entries are ignored. `layouts/src/abs/syntax/pattern/literal.rs` L94-104. -/
def literalTypeIri (lib : ParseLib) (o : JsonObject) : Option SLitType :=
  (unique o "type").bind fun ty => (withDefault xsdString (iri lib) ty).map .iri

/-- `LiteralTypeLanguage`: other entries are ignored. `layouts/src/abs/syntax/pattern/literal.rs` L112-117. -/
def literalTypeLanguage (lib : ParseLib) (o : JsonObject) : Option SLitType :=
  (unique o "language").bind fun tag => (required string tag).bind fun tag =>
    if lib.isLangTag tag then some (.language tag) else none

/-- `LiteralValue`: the type is flattened and untagged; other entries are ignored.
`layouts/src/abs/syntax/pattern/literal.rs` L9-17, L57-64. -/
def literalValue (lib : ParseLib) : Json → Option SPattern
  | .object o =>
    (unique o "value").bind fun v => (required string v).bind fun v =>
    ((literalTypeIri lib o).orElse fun _ => literalTypeLanguage lib o).map (.literal v)
  | _ => none

/-- `Pattern`. `layouts/src/abs/syntax/pattern/mod.rs` L115-151. -/
def pattern (lib : ParseLib) : Json → Option SPattern
  | .string s =>
    if lib.isBlankId s then some (.var (blankSuffix s))
    else if lib.isIriRef s then some (.iri s)
    else none
  | j => literalValue lib j

/-- `Quad`: the last component has a default value. `layouts/src/abs/syntax/dataset.rs` L50-56. -/
def quad (lib : ParseLib) : Json → Option (Quad SPattern)
  | .array (s :: p :: o :: g) =>
    if g.length ≤ 1 then
      (pattern lib s).bind fun s => (pattern lib p).bind fun p => (pattern lib o).bind fun o =>
      (optional (pattern lib) g.head?).map fun g => ⟨s, p, o, g⟩
    else none
  | _ => none

/-- `Dataset`, transparent. `layouts/src/abs/syntax/dataset.rs` L6-8. -/
def dataset (lib : ParseLib) : Json → Option (List (Quad SPattern)) := vec (quad lib)

/-- `Resource`, untagged, with `TypedString`, which ignores other entries and is also read from a sequence. Numbers are
integers of 64 bits; in the buffer of a text there are none. `layouts/src/abs/syntax/resource.rs` L11-25, L90-99. -/
def resource (lib : ParseLib) : Json → Option SResource
  | .boolean b => some (.boolean b)
  | .number s => (parseI64 s).map .number
  | .string s => some (.string s)
  | .object o =>
    (unique o "value").bind fun v => (required string v).bind fun v =>
    (unique o "type").bind fun ty => (required (iri lib) ty).map (.typed v)
  | .array [v, ty] => (string v).bind fun v => (iri lib ty).map (.typed v)
  | _ => none

/-- `RegExp`. `layouts/src/abs/regexp.rs` L595-619. -/
def regExp (j : Json) : Option RegExp :=
  (string j).bind fun s =>
  match RegExp.parse (s.toList.map RegExp.charNumber) with
  | .ok e => some e
  | _ => none

/-- `Value`, on the buffer, in which the only numbers are integers of 64 bits. `layouts/src/value/de.rs`. -/
def const (j : Json) : Option Value :=
  match j.toValue with
  | .ok v => some v
  | _ => none

/-- `LayoutHeader`, flattened. `layouts/src/abs/syntax/layout/mod.rs` L389-412. -/
def header (lib : ParseLib) (f : String → Option Json) : Option LayoutHeader :=
  (optional (iri lib) (f "base")).bind fun base =>
  (withDefault [] (map strLe some (iri lib)) (f "prefixes")).bind fun prefixes =>
  (optional (iri lib) (f "id")).bind fun id =>
  (withDefault (.one "self") (oneOrMany string) (f "input")).bind fun input =>
  (withDefault (.many []) (oneOrMany string) (f "intro")).bind fun intro =>
  (withDefault [] (dataset lib) (f "dataset")).bind fun dataset =>
  (withDefault [] (map lib.leIri (iriString lib) (resource lib)) (f "extra")).bind fun extra =>
  some { base, prefixes, id, input, intro, dataset, extra }

/-! ## Layouts

The deserializer of layouts is the parameter `rec`: it is called for nested layouts. -/

section

variable (lib : ParseLib) (rec : Json → Option SLayout)

/-- `LayoutRef`, untagged. `layouts/src/abs/syntax/layout/mod.rs` L266-271. -/
def ref (j : Json) : Option SLayoutRef := ((iri lib j).map .ref).orElse fun _ => (rec j).map .layout

/-- `ValueFormat` and `VariantFormat`. `layouts/src/abs/syntax/mod.rs` L498-508,
`layouts/src/abs/syntax/layout/sum.rs` L204-214. The type of `graph` is `Option<Option<Pattern>>`: `null` is `None`. -/
def formatStruct (dflt : String) (j : Json) : Option SFormat :=
  (fields ["layout", "input", "graph"] j).bind fun f =>
  (required (ref lib rec) (f "layout")).bind fun layout =>
  (withDefault (.one (.var dflt)) (oneOrMany (pattern lib)) (f "input")).bind fun input =>
  (optional (optional (pattern lib) ∘ some) (f "graph")).bind fun graph =>
  some (.format layout input graph)

/-- `ValueFormatOrLayout` and `VariantFormatOrLayout`, untagged. `layouts/src/abs/syntax/mod.rs` L445-450,
`layouts/src/abs/syntax/layout/sum.rs` L151-156. -/
def format (dflt : String) (j : Json) : Option SFormat :=
  (formatStruct lib rec dflt j).orElse fun _ => (ref lib rec j).map .layout

/-- `Field`. `layouts/src/abs/syntax/layout/product.rs` L135-151. -/
def field (j : Json) : Option SField :=
  (fields ["intro", "value", "dataset", "property", "required"] j).bind fun f =>
  (withDefault (.one "value") (oneOrMany string) (f "intro")).bind fun intro =>
  (required (format lib rec "value") (f "value")).bind fun value =>
  (withDefault [] (dataset lib) (f "dataset")).bind fun dataset =>
  (optional (pattern lib) (f "property")).bind fun property =>
  (withDefault false bool (f "required")).bind fun required =>
  some (.mk intro value dataset property required)

/-- `Variant`. `layouts/src/abs/syntax/layout/sum.rs` L74-84. -/
def variant (j : Json) : Option SVariant :=
  (fields ["intro", "value", "dataset"] j).bind fun f =>
  (withDefault (.many []) (oneOrMany string) (f "intro")).bind fun intro =>
  (required (format lib rec "self") (f "value")).bind fun value =>
  (withDefault [] (dataset lib) (f "dataset")).bind fun dataset =>
  some (.mk intro value dataset)

/-- `ListItem`. `layouts/src/abs/syntax/layout/list.rs` L405-418. -/
def item (j : Json) : Option SItem :=
  (fields ["intro", "value", "dataset", "property"] j).bind fun f =>
  (withDefault (.one "value") (oneOrMany string) (f "intro")).bind fun intro =>
  (required (format lib rec "value") (f "value")).bind fun value =>
  (withDefault [] (dataset lib) (f "dataset")).bind fun dataset =>
  (optional (pattern lib) (f "property")).bind fun property =>
  some (.mk intro value dataset property)

/-- `ListNode`. `layouts/src/abs/syntax/layout/list.rs` L238-260. -/
def nodeStruct (j : Json) : Option SNode :=
  (fields ["head", "rest", "intro", "value", "dataset"] j).bind fun f =>
  (withDefault "head" string (f "head")).bind fun head =>
  (withDefault "rest" string (f "rest")).bind fun rest =>
  (withDefault (.one "value") (oneOrMany string) (f "intro")).bind fun intro =>
  (required (format lib rec "value") (f "value")).bind fun value =>
  (optional (dataset lib) (f "dataset")).bind fun dataset =>
  some (.node head rest intro value dataset)

/-- `ListNodeOrLayout`, untagged. `layouts/src/abs/syntax/layout/list.rs` L148-153. -/
def node (j : Json) : Option SNode := (nodeStruct lib rec j).orElse fun _ => (ref lib rec j).map .layout

/-- A layout of the kind `ty`: a map with the marker of this type, the flattened header, and other members.
`layouts/src/abs/syntax/layout/mod.rs` L627-657 (the markers). -/
def kind (ty : String) (members : List String) (body : LayoutHeader → (String → Option Json) → Option SLayout) : Json → Option SLayout
  | .object o =>
    (mapFields (members ++ headerMembers) o).bind fun f =>
    (required string (f "type")).bind fun t =>
    if t = ty then (header lib f).bind fun h => body h f else none
  | _ => none

/-- `UnitLayout`. `layouts/src/abs/syntax/layout/literal.rs` L187-198. -/
def unitLayout : Json → Option SLayout := kind lib "unit" ["const"] fun h f =>
  (withDefault (.literal .unit) const (f "const")).map (.unit h)

/-- `BooleanLayout`. `layouts/src/abs/syntax/layout/literal.rs` L247-260. -/
def booleanLayout : Json → Option SLayout := kind lib "boolean" ["resource", "datatype"] fun h f =>
  (optional (pattern lib) (f "resource")).bind fun r => (optional (iri lib) (f "datatype")).map fun dt => .boolean h r dt

/-- `NumberLayout`. `layouts/src/abs/syntax/layout/literal.rs` L340-352. -/
def numberLayout : Json → Option SLayout := kind lib "number" ["resource", "datatype"] fun h f =>
  (optional (pattern lib) (f "resource")).bind fun r => (required (iri lib) (f "datatype")).map fun dt => .number h r dt

/-- `ByteStringLayout`. `layouts/src/abs/syntax/layout/literal.rs` L409-421. -/
def byteStringLayout : Json → Option SLayout := kind lib "bytes" ["resource", "datatype"] fun h f =>
  (optional (pattern lib) (f "resource")).bind fun r => (required (iri lib) (f "datatype")).map fun dt => .byteString h r dt

/-- `TextStringLayout`. `layouts/src/abs/syntax/layout/literal.rs` L478-494. -/
def textStringLayout : Json → Option SLayout := kind lib "string" ["pattern", "resource", "datatype"] fun h f =>
  (optional regExp (f "pattern")).bind fun e =>
  (optional (pattern lib) (f "resource")).bind fun r => (optional (iri lib) (f "datatype")).map fun dt => .textString h e r dt

/-- `IdLayout`. `layouts/src/abs/syntax/layout/literal.rs` L559-572. -/
def idLayout : Json → Option SLayout := kind lib "id" ["pattern", "resource"] fun h f =>
  (optional regExp (f "pattern")).bind fun e => (optional (pattern lib) (f "resource")).map fun r => .id h e r

/-- `ProductLayout`. `layouts/src/abs/syntax/layout/product.rs` L19-30. -/
def productLayout : Json → Option SLayout := kind lib "record" ["fields"] fun h f =>
  (withDefault [] (map Value.le (fun k => some (Value.text k)) (field lib rec)) (f "fields")).map fun fs => .product h fs

/-- `SumLayout`. `layouts/src/abs/syntax/layout/sum.rs` L16-27. -/
def sumLayout : Json → Option SLayout := kind lib "sum" ["variants"] fun h f =>
  (withDefault [] (map strLe some (variant lib rec)) (f "variants")).map fun vs => .sum h vs

/-- `OrderedListLayout`. `layouts/src/abs/syntax/layout/list.rs` L89-111. -/
def orderedLayout : Json → Option SLayout := kind lib "list" ["node", "head", "tail"] fun h f =>
  (required (node lib rec) (f "node")).bind fun n =>
  (withDefault (.var "self") (pattern lib) (f "head")).bind fun hd =>
  (withDefault (.iri rdfNil) (pattern lib) (f "tail")).map fun tl => .ordered h n hd tl

/-- `UnorderedListLayout`. `layouts/src/abs/syntax/layout/list.rs` L362-372. -/
def unorderedLayout : Json → Option SLayout := kind lib "set" ["item"] fun h f =>
  (required (item lib rec) (f "item")).map fun i => .unordered h i

/-- `SizedListLayout`. `layouts/src/abs/syntax/layout/list.rs` L525-536. -/
def sizedLayout : Json → Option SLayout := kind lib "tuple" ["items"] fun h f =>
  (withDefault [] (vec (item lib rec)) (f "items")).map fun is => .sized h is

/-- `bool`, as a layout. -/
def boolLayout (j : Json) : Option SLayout := (bool j).map .bool

/-- `UnionLayout`. `layouts/src/abs/syntax/layout/union.rs` L12-20. -/
def unionLayout : Json → Option SLayout := kind lib "union" [] fun h _ => some (.union h)

/-- `IntersectionLayout`. `layouts/src/abs/syntax/layout/intersection.rs` L12-20. -/
def intersectionLayout : Json → Option SLayout := kind lib "intersection" [] fun h _ => some (.intersection h)

/-- The variants of `Layout`, `LiteralLayout`, `DataLayout` and `ListLayout`, in order. `layouts/src/abs/syntax/layout/mod.rs`
L44-99, `literal.rs` L21-26, L87-95, `list.rs` L18-24. -/
def readers : List (Json → Option SLayout) :=
  [unitLayout lib, booleanLayout lib, numberLayout lib, byteStringLayout lib, textStringLayout lib, idLayout lib,
   productLayout lib rec, sumLayout lib rec, orderedLayout lib rec, unorderedLayout lib rec, sizedLayout lib rec,
   boolLayout, unionLayout lib, intersectionLayout lib]

/-- An untagged enumeration: the first variant that can be read. -/
def untagged {α : Type} (rs : List (Json → Option α)) (j : Json) : Option α := rs.findSome? fun r => r j

end

/-- `Layout`, with at most `n` levels of nested layouts. -/
def layoutN (lib : ParseLib) : Nat → Json → Option SLayout
  | 0, _ => none
  | n + 1, j => untagged (readers lib (layoutN lib n)) j

/-- `serde_json::from_str::<Layout>`. -/
def layout (lib : ParseLib) (j : Json) : Option SLayout := layoutN lib (j.depth + 1) j.buffer

/-- `serde_json::from_value::<Layout>`. -/
def layoutOfValue (lib : ParseLib) (other : List Char → Json) (j : Json) : Option SLayout :=
  layoutN lib (j.depth + 1) (j.bufferValue other)

end Serde

end Verif
