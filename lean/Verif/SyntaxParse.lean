import Verif.Syntax

/-!
# Parsing of layout definitions

Models the parser of layout definitions: the implementations of `TryFromJson` and `TryFromJsonObject` in
`layouts/src/abs/syntax/**` and `layouts/src/abs/regexp.rs`.

Simplifications:
* errors carry no position in the document;
* what `iref`, `rdf_types` and `langtag` accept is a parameter (`ParseLib`);
* the parsers that the `json_syntax` library provides for `String`, `bool`, `Option`, `Vec` and `BTreeMap` are modelled
  after its documentation: the last of several entries with the same key of a map remains;
* the nested dispatch on `type` (`Layout`, `LiteralLayout`, `DataLayout`, `ListLayout`) is flattened: each level reads the
  same entry again.
-/

set_option linter.unusedSectionVars false

namespace Verif

/-- The entries of `json_syntax::Object`. -/
abbrev JsonObject := List (String × Json)

/-- `Error`, without positions. `layouts/src/abs/syntax/mod.rs` L20-73. -/
inductive SyntaxError where
  | unexpected
  | missingRequiredEntry (key : String)
  | duplicateEntry (key : String)
  | unexpectedEntry (key : String)
  | missingType
  | invalidType (found : String)
  | invalidRegex
  | invalidPattern (s : String)
  | invalidLangTag (s : String)
  | invalidCompactIri (s : String)
  | missingQuadPattern
  | tooManyQuadPatterns
  | expectedInteger
  | integerOverflow
  deriving DecidableEq, Repr

/-- The library functions used by the parser. -/
structure ParseLib extends IriLib where
  /-- order of IRI references -/
  leIri : String → String → Bool

/-! ## Objects -/

/-- The entries with a given key, with their indices, the first being numbered `i`. -/
def entriesOf (key : String) : Nat → JsonObject → List (Nat × Json)
  | _, [] => []
  | i, (k, v) :: o => if k = key then (i, v) :: entriesOf key (i + 1) o else entriesOf key (i + 1) o

/-- `Object::get_unique_mapped_entry_with_index`, with the conversion of its error. -/
def uniqueEntry (o : JsonObject) (key : String) : Out SyntaxError (Option (Nat × Json)) :=
  match entriesOf key 0 o with
  | [] => .ok none
  | [e] => .ok (some e)
  | _ => .err (.duplicateEntry key)

/-- A step of the parsing of an object, with the flags of `ObjectUnusedEntries`: `true` for each entry that has not been
used yet. `layouts/src/abs/syntax/mod.rs` L244-247. -/
def ObjParser (α : Type) := List Bool → Out SyntaxError (α × List Bool)

namespace ObjParser

/-- The `?` operator. -/
def bind {α β : Type} (x : ObjParser α) (f : α → ObjParser β) : ObjParser β := fun u =>
  (x u).bind fun r => f r.1 r.2

/-- Returns a value. -/
def pure {α : Type} (a : α) : ObjParser α := fun u => .ok (a, u)

end ObjParser

/-- `ObjectUnusedEntries::check`: fails at the first entry that has not been used.
`layouts/src/abs/syntax/mod.rs` L266-277. -/
def checkUnused : JsonObject → List Bool → Out SyntaxError Unit
  | (k, _) :: o, unused :: u => if unused then .err (.unexpectedEntry k) else checkUnused o u
  | _, _ => .ok ()

/-- `get_entry`. `layouts/src/abs/syntax/mod.rs` L280-304. -/
def getEntry {α : Type} (p : Json → Out SyntaxError α) (o : JsonObject) (key : String) : ObjParser (Option α) := fun u =>
  (uniqueEntry o key).bind fun e =>
    match e with
    | some (i, v) => (p v).bind fun t => .ok (some t, u.set i false)
    | none => .ok (none, u)

/-- `require_entry`. `layouts/src/abs/syntax/mod.rs` L306-331. -/
def requireEntry {α : Type} (p : Json → Out SyntaxError α) (o : JsonObject) (key : String) : ObjParser α := fun u =>
  (uniqueEntry o key).bind fun e =>
    match e with
    | some (i, v) => (p v).bind fun t => .ok (t, u.set i false)
    | none => .err (.missingRequiredEntry key)

/-- `require_type`. `layouts/src/abs/syntax/mod.rs` L333-358. -/
def requireType (o : JsonObject) : Out SyntaxError (Nat × String) :=
  (uniqueEntry o "type").bind fun e =>
    match e with
    | some (i, .string s) => .ok (i, s)
    | some _ => .err .unexpected
    | none => .err .missingType

/-- `check_type`. `layouts/src/abs/syntax/mod.rs` L360-377. -/
def checkType (o : JsonObject) (expected : String) : ObjParser Unit := fun u =>
  (requireType o).bind fun r =>
    if r.2 = expected then .ok ((), u.set r.1 false) else .err (.invalidType r.2)

/-- The parsing of an object: all entries are unused at first (`ObjectUnusedEntries::new`,
`layouts/src/abs/syntax/mod.rs` L250-260), none is at the end. -/
def runObj {α : Type} (o : JsonObject) (m : ObjParser α) : Out SyntaxError α :=
  (m (o.map fun _ => true)).bind fun r => (checkUnused o r.2).bind fun _ => .ok r.1

/-! ## Leaves -/

/-- `TryFromJson for String` (`json_syntax`), `expect_string` (`layouts/src/abs/syntax/mod.rs` L233-242). -/
def parseString : Json → Out SyntaxError String
  | .string s => .ok s
  | _ => .err .unexpected

/-- `TryFromJson for bool` (`json_syntax`). -/
def parseBool : Json → Out SyntaxError Bool
  | .boolean b => .ok b
  | _ => .err .unexpected

/-- `TryFromJson for Option<T>` (`json_syntax`): `null` is `None`. -/
def parseOption {α : Type} (p : Json → Out SyntaxError α) : Json → Out SyntaxError (Option α)
  | .null => .ok none
  | j => (p j).bind fun a => .ok (some a)

/-- `TryFromJson for Vec<T>` (`json_syntax`). -/
def parseVec {α : Type} (p : Json → Out SyntaxError α) : Json → Out SyntaxError (List α)
  | .array l => Out.mapM' p l
  | _ => .err .unexpected

/-- `TryFromJson for OneOrMany<T>`. `layouts/src/abs/syntax/mod.rs` L426-443. -/
def parseOneOrMany {α : Type} (p : Json → Out SyntaxError α) : Json → Out SyntaxError (OneOrMany α)
  | .array l => (Out.mapM' p l).bind fun l => .ok (.many l)
  | j => (p j).bind fun a => .ok (.one a)

/-- The entries of a map: each key and each value is parsed. -/
def parseEntries {κ α : Type} (key : String → Out SyntaxError κ) (p : Json → Out SyntaxError α) :
    JsonObject → Out SyntaxError (List (κ × α))
  | [] => .ok []
  | (k, v) :: o =>
    (key k).bind fun k => (p v).bind fun a => (parseEntries key p o).bind fun l => .ok ((k, a) :: l)

/-- `TryFromJson for BTreeMap<K, V>` (`json_syntax`). -/
def parseMap {κ α : Type} [DecidableEq κ] (le : κ → κ → Bool) (key : String → Out SyntaxError κ)
    (p : Json → Out SyntaxError α) : Json → Out SyntaxError (List (κ × α))
  | .object o => (parseEntries key p o).bind fun l => .ok (bmapCollect le l)
  | _ => .err .unexpected

/-- The order of strings, by code points. -/
def strLe (a b : String) : Bool := Value.le (.text a) (.text b)

/-- `CompactIri::from_str`, `LayoutRef::try_from_json_string_at`. `layouts/src/abs/syntax/pattern/compact_iri.rs` L45-54,
`layouts/src/abs/syntax/layout/mod.rs` L273-285. -/
def parseIriString (lib : ParseLib) (s : String) : Out SyntaxError CompactIri :=
  if lib.isIriRef s then .ok s else .err (.invalidCompactIri s)

/-- `TryFromJson for CompactIri`. `layouts/src/abs/syntax/pattern/compact_iri.rs` L62-75. -/
def parseIri (lib : ParseLib) (j : Json) : Out SyntaxError CompactIri := (parseString j).bind (parseIriString lib)

/-- The type of a literal: `type`, or else `language`, which is required.
`layouts/src/abs/syntax/pattern/literal.rs` L26-39. -/
def parseLitType (lib : ParseLib) (o : JsonObject) : Option CompactIri → ObjParser SLitType
  | some ty => .pure (.iri ty)
  | none => (requireEntry parseString o "language").bind fun tag u =>
      if lib.isLangTag tag then .ok (.language tag, u) else .err (.invalidLangTag tag)

/-- `LiteralValue::try_from_json_object_at`. `layouts/src/abs/syntax/pattern/literal.rs` L19-46. -/
def parseLiteralValue (lib : ParseLib) (o : JsonObject) : Out SyntaxError SPattern :=
  runObj o <|
    (getEntry (parseIri lib) o "type").bind fun ty =>
    (parseLitType lib o ty).bind fun ty =>
    (requireEntry parseString o "value").bind fun value =>
    .pure (.literal value ty)

/-- `BlankId::suffix`: what follows `_:`. -/
def blankSuffix (s : String) : String := String.ofList (s.toList.drop 2)

/-- `TryFromJson for Pattern`. `layouts/src/abs/syntax/pattern/mod.rs` L77-103. -/
def parsePattern (lib : ParseLib) : Json → Out SyntaxError SPattern
  | .string s =>
    if lib.isBlankId s then .ok (.var (blankSuffix s))
    else if lib.isIriRef s then .ok (.iri s)
    else .err (.invalidPattern s)
  | .object o => parseLiteralValue lib o
  | _ => .err .unexpected

/-- The graph of a quad: the fourth component, if any. `layouts/src/abs/syntax/dataset.rs` L83-86. -/
def parseFourth (lib : ParseLib) : List Json → Out SyntaxError (Option SPattern)
  | g :: _ => (parsePattern lib g).bind fun g => .ok (some g)
  | [] => .ok none

/-- `TryFromJson for Quad`. `layouts/src/abs/syntax/dataset.rs` L59-90. -/
def parseQuad (lib : ParseLib) : Json → Out SyntaxError (Quad SPattern)
  | .array (s :: p :: o :: g) =>
    if 3 + g.length > 4 then .err .tooManyQuadPatterns
    else
      (parsePattern lib s).bind fun s =>
      (parsePattern lib p).bind fun p =>
      (parsePattern lib o).bind fun o =>
      (parseFourth lib g).bind fun g =>
      .ok ⟨s, p, o, g⟩
  | .array _ => .err .missingQuadPattern
  | _ => .err .unexpected

/-- `TryFromJson for Dataset`. `layouts/src/abs/syntax/dataset.rs` L22-32. -/
def parseDataset (lib : ParseLib) : Json → Out SyntaxError (List (Quad SPattern)) := parseVec (parseQuad lib)

/-- `str::parse::<i64>`. -/
def parseI64 (s : List Char) : Option Int :=
  let ds := (Number.stripSign s).2
  let n : Int := Nat.ofDigitChars 10 ds 0
  let z := if (Number.stripSign s).1 then -n else n
  if ds ≠ [] ∧ ds.all Char.isDigit ∧ -2 ^ 63 ≤ z ∧ z < 2 ^ 63 then some z else none

/-- The number of an extra property. `layouts/src/abs/syntax/resource.rs` L39-48. -/
def parseInteger (s : List Char) : Out SyntaxError SResource :=
  if '.' ∈ s then .err .expectedInteger
  else
    match parseI64 s with
    | some z => .ok (.number z)
    | none => .err .integerOverflow

/-- `TryFromJson for Resource`, `TypedString::try_from_json_object_at`. `layouts/src/abs/syntax/resource.rs` L27-63,
L105-118. -/
def parseResource (lib : ParseLib) : Json → Out SyntaxError SResource
  | .boolean b => .ok (.boolean b)
  | .number n => parseInteger n
  | .string s => .ok (.string s)
  | .object o => runObj o <|
    (requireEntry parseString o "value").bind fun value =>
    (requireEntry (parseIri lib) o "type").bind fun ty =>
    .pure (.typed value ty)
  | _ => .err .unexpected

/-- `TryFromJson for RegExp`. `layouts/src/abs/regexp.rs` L9-20. -/
def parseRegExp (j : Json) : Out SyntaxError RegExp :=
  (parseString j).bind fun s => (RegExp.parse (s.toList.map RegExp.charNumber)).mapErr fun _ => .invalidRegex

/-- `TryFromJson for Value`. `layouts/src/value/mod.rs` L339-372. Its error is `Infallible`; numbers that are not decimal
numerals make it panic. -/
def parseConst (j : Json) : Out SyntaxError Value := j.toValue.mapErr nofun

/-- `LayoutHeader::try_from_json_object_at`. `layouts/src/abs/syntax/layout/mod.rs` L413-436. -/
def parseHeader (lib : ParseLib) (o : JsonObject) : ObjParser LayoutHeader :=
  (getEntry (parseIri lib) o "base").bind fun base =>
  (getEntry (parseMap strLe .ok (parseIri lib)) o "prefixes").bind fun prefixes =>
  (getEntry (parseIri lib) o "id").bind fun id =>
  (getEntry (parseOneOrMany parseString) o "input").bind fun input =>
  (getEntry (parseOneOrMany parseString) o "intro").bind fun intro =>
  (getEntry (parseDataset lib) o "dataset").bind fun dataset =>
  (getEntry (parseMap lib.leIri (parseIriString lib) (parseResource lib)) o "extra").bind fun extra =>
  .pure {
    base := base
    prefixes := prefixes.getD []
    id := id
    input := input.getD (.one "self")
    intro := intro.getD (.many [])
    dataset := dataset.getD []
    extra := extra.getD [] }

/-! ## Layouts

The parser of layout objects is the parameter `rec`: it is called for nested layouts. -/

section

variable (lib : ParseLib) (rec : JsonObject → Out SyntaxError SLayout)

/-- `TryFromJson for LayoutRef`. `layouts/src/abs/syntax/layout/mod.rs` L287-320. -/
def parseRef : Json → Out SyntaxError SLayoutRef
  | .string s => (parseIriString lib s).bind fun i => .ok (.ref i)
  | .object o => (rec o).bind fun l => .ok (.layout l)
  | _ => .err .unexpected

/-- `TryFromJsonObject for ValueFormat` and `VariantFormat`; `dflt` is the default input.
`layouts/src/abs/syntax/mod.rs` L510-531, `layouts/src/abs/syntax/layout/sum.rs` L230-250. -/
def parseFormatObject (dflt : String) (o : JsonObject) : Out SyntaxError SFormat :=
  runObj o <|
    (requireEntry (parseRef lib rec) o "layout").bind fun layout =>
    (getEntry (parseOneOrMany (parsePattern lib)) o "input").bind fun input =>
    (getEntry (parseOption (parseOption (parsePattern lib))) o "graph").bind fun graph =>
    .pure (.format layout (input.getD (.one (.var dflt))) (graph.getD none))

/-- `TryFromJson for ValueFormatOrLayout` and `VariantFormatOrLayout`. `layouts/src/abs/syntax/mod.rs` L452-477,
`layouts/src/abs/syntax/layout/sum.rs` L158-184. -/
def parseFormat (dflt : String) : Json → Out SyntaxError SFormat
  | .string s => (parseIriString lib s).bind fun i => .ok (.layout (.ref i))
  | .object o =>
    if "type" ∈ o.map Prod.fst then (rec o).bind fun l => .ok (.layout (.layout l))
    else parseFormatObject lib rec dflt o
  | _ => .err .unexpected

/-- `TryFromJson for Field`. `layouts/src/abs/syntax/layout/product.rs` L153-189. -/
def parseField : Json → Out SyntaxError SField
  | .object o => runObj o <|
    (getEntry (parseOneOrMany parseString) o "intro").bind fun intro =>
    (requireEntry (parseFormat lib rec "value") o "value").bind fun value =>
    (getEntry (parseDataset lib) o "dataset").bind fun dataset =>
    (getEntry (parsePattern lib) o "property").bind fun property =>
    (getEntry parseBool o "required").bind fun required =>
    .pure (.mk (intro.getD (.one "value")) value (dataset.getD []) property (required.getD false))
  | _ => .err .unexpected

/-- `TryFromJson for Variant`. `layouts/src/abs/syntax/layout/sum.rs` L86-118. -/
def parseVariant : Json → Out SyntaxError SVariant
  | .object o => runObj o <|
    (getEntry (parseOneOrMany parseString) o "intro").bind fun intro =>
    (requireEntry (parseFormat lib rec "self") o "value").bind fun value =>
    (getEntry (parseDataset lib) o "dataset").bind fun dataset =>
    .pure (.mk (intro.getD (.many [])) value (dataset.getD []))
  | _ => .err .unexpected

/-- `TryFromJson for ListItem`. `layouts/src/abs/syntax/layout/list.rs` L420-453. -/
def parseItem : Json → Out SyntaxError SItem
  | .object o => runObj o <|
    (getEntry (parseOneOrMany parseString) o "intro").bind fun intro =>
    (requireEntry (parseFormat lib rec "value") o "value").bind fun value =>
    (getEntry (parseDataset lib) o "dataset").bind fun dataset =>
    (getEntry (parsePattern lib) o "property").bind fun property =>
    .pure (.mk (intro.getD (.one "value")) value (dataset.getD []) property)
  | _ => .err .unexpected

/-- `TryFromJsonObject for ListNode`. `layouts/src/abs/syntax/layout/list.rs` L280-302. -/
def parseNodeObject (o : JsonObject) : Out SyntaxError SNode :=
  runObj o <|
    (getEntry parseString o "head").bind fun head =>
    (getEntry parseString o "rest").bind fun rest =>
    (getEntry (parseOneOrMany parseString) o "intro").bind fun intro =>
    (requireEntry (parseFormat lib rec "value") o "value").bind fun value =>
    (getEntry (parseDataset lib) o "dataset").bind fun dataset =>
    .pure (.node (head.getD "head") (rest.getD "rest") (intro.getD (.one "value")) value dataset)

/-- `TryFromJson for ListNodeOrLayout`. `layouts/src/abs/syntax/layout/list.rs` L155-183. -/
def parseNode : Json → Out SyntaxError SNode
  | .string s => (parseIriString lib s).bind fun i => .ok (.layout (.ref i))
  | .object o =>
    if "type" ∈ o.map Prod.fst then (rec o).bind fun l => .ok (.layout (.layout l))
    else parseNodeObject lib rec o
  | _ => .err .unexpected

/-- `TryFromJsonObject for UnitLayout`. `layouts/src/abs/syntax/layout/literal.rs` L200-227. -/
def parseUnit (o : JsonObject) : ObjParser SLayout :=
  (checkType o "unit").bind fun _ =>
  (parseHeader lib o).bind fun h =>
  (getEntry parseConst o "const").bind fun k =>
  .pure (.unit h (k.getD (.literal .unit)))

/-- `TryFromJsonObject for BooleanLayout`. `layouts/src/abs/syntax/layout/literal.rs` L310-338. -/
def parseBooleanLayout (o : JsonObject) : ObjParser SLayout :=
  (checkType o "boolean").bind fun _ =>
  (parseHeader lib o).bind fun h =>
  (getEntry (parsePattern lib) o "resource").bind fun r =>
  (getEntry (parseIri lib) o "datatype").bind fun dt =>
  .pure (.boolean h r dt)

/-- `TryFromJsonObject for NumberLayout`. `layouts/src/abs/syntax/layout/literal.rs` L379-407. -/
def parseNumber (o : JsonObject) : ObjParser SLayout :=
  (checkType o "number").bind fun _ =>
  (parseHeader lib o).bind fun h =>
  (getEntry (parsePattern lib) o "resource").bind fun r =>
  (requireEntry (parseIri lib) o "datatype").bind fun dt =>
  .pure (.number h r dt)

/-- `TryFromJsonObject for ByteStringLayout`. `layouts/src/abs/syntax/layout/literal.rs` L448-476. -/
def parseByteString (o : JsonObject) : ObjParser SLayout :=
  (checkType o "bytes").bind fun _ =>
  (parseHeader lib o).bind fun h =>
  (getEntry (parsePattern lib) o "resource").bind fun r =>
  (requireEntry (parseIri lib) o "datatype").bind fun dt =>
  .pure (.byteString h r dt)

/-- `TryFromJsonObject for TextStringLayout`. `layouts/src/abs/syntax/layout/literal.rs` L496-526. -/
def parseTextString (o : JsonObject) : ObjParser SLayout :=
  (checkType o "string").bind fun _ =>
  (parseHeader lib o).bind fun h =>
  (getEntry parseRegExp o "pattern").bind fun e =>
  (getEntry (parsePattern lib) o "resource").bind fun r =>
  (getEntry (parseIri lib) o "datatype").bind fun dt =>
  .pure (.textString h e r dt)

/-- `TryFromJsonObject for IdLayout`. `layouts/src/abs/syntax/layout/literal.rs` L572-600. -/
def parseIdLayout (o : JsonObject) : ObjParser SLayout :=
  (checkType o "id").bind fun _ =>
  (parseHeader lib o).bind fun h =>
  (getEntry parseRegExp o "pattern").bind fun e =>
  (getEntry (parsePattern lib) o "resource").bind fun r =>
  .pure (.id h e r)

/-- `TryFromJsonObject for ProductLayout`. The map with string keys becomes a map with text values as keys, whose order is
the same. `layouts/src/abs/syntax/layout/product.rs` L45-76. -/
def parseRecord (o : JsonObject) : ObjParser SLayout :=
  (checkType o "record").bind fun _ =>
  (getEntry (parseMap Value.le (fun k => .ok (Value.text k)) (parseField lib rec)) o "fields").bind fun fields =>
  (parseHeader lib o).bind fun h =>
  .pure (.product h (fields.getD []))

/-- `TryFromJsonObject for SumLayout`. `layouts/src/abs/syntax/layout/sum.rs` L42-72. -/
def parseSum (o : JsonObject) : ObjParser SLayout :=
  (checkType o "sum").bind fun _ =>
  (parseHeader lib o).bind fun h =>
  (getEntry (parseMap strLe .ok (parseVariant lib rec)) o "variants").bind fun variants =>
  .pure (.sum h (variants.getD []))

/-- `TryFromJsonObject for OrderedListLayout`. `layouts/src/abs/syntax/layout/list.rs` L113-146. -/
def parseList (o : JsonObject) : ObjParser SLayout :=
  (checkType o "list").bind fun _ =>
  (parseHeader lib o).bind fun h =>
  (requireEntry (parseNode lib rec) o "node").bind fun node =>
  (getEntry (parsePattern lib) o "head").bind fun head =>
  (getEntry (parsePattern lib) o "tail").bind fun tail =>
  .pure (.ordered h node (head.getD (.var "self")) (tail.getD (.iri rdfNil)))

/-- `TryFromJsonObject for UnorderedListLayout`. `layouts/src/abs/syntax/layout/list.rs` L374-403. -/
def parseSet (o : JsonObject) : ObjParser SLayout :=
  (checkType o "set").bind fun _ =>
  (parseHeader lib o).bind fun h =>
  (requireEntry (parseItem lib rec) o "item").bind fun item =>
  .pure (.unordered h item)

/-- `TryFromJsonObject for SizedListLayout`. `layouts/src/abs/syntax/layout/list.rs` L538-568. -/
def parseTuple (o : JsonObject) : ObjParser SLayout :=
  (checkType o "tuple").bind fun _ =>
  (parseHeader lib o).bind fun h =>
  (getEntry (parseVec (parseItem lib rec)) o "items").bind fun items =>
  .pure (.sized h (items.getD []))

/-- `TryFromJsonObject for UnionLayout`. `layouts/src/abs/syntax/layout/union.rs` L22-50. -/
def parseUnion (o : JsonObject) : ObjParser SLayout :=
  (checkType o "union").bind fun _ =>
  (parseHeader lib o).bind fun h =>
  .pure (.union h)

/-- `TryFromJsonObject for IntersectionLayout`. `layouts/src/abs/syntax/layout/intersection.rs` L22-50. -/
def parseIntersection (o : JsonObject) : ObjParser SLayout :=
  (checkType o "intersection").bind fun _ =>
  (parseHeader lib o).bind fun h =>
  .pure (.intersection h)

/-- The parser for a kind of layouts. `layouts/src/abs/syntax/layout/mod.rs` L182-226, `literal.rs` L46-69, L131-160,
`list.rs` L45-66. -/
def kindParser (ty : String) (o : JsonObject) : Out SyntaxError SLayout :=
  if ty = "id" then runObj o (parseIdLayout lib o)
  else if ty = "unit" then runObj o (parseUnit lib o)
  else if ty = "boolean" then runObj o (parseBooleanLayout lib o)
  else if ty = "number" then runObj o (parseNumber lib o)
  else if ty = "bytes" then runObj o (parseByteString lib o)
  else if ty = "string" then runObj o (parseTextString lib o)
  else if ty = "record" then runObj o (parseRecord lib rec o)
  else if ty = "sum" then runObj o (parseSum lib rec o)
  else if ty = "list" then runObj o (parseList lib rec o)
  else if ty = "set" then runObj o (parseSet lib rec o)
  else if ty = "tuple" then runObj o (parseTuple lib rec o)
  else if ty = "union" then runObj o (parseUnion lib o)
  else if ty = "intersection" then runObj o (parseIntersection lib o)
  else .err (.invalidType ty)

/-- `TryFromJsonObject for Layout`. `layouts/src/abs/syntax/layout/mod.rs` L173-228. -/
def parseObjectWith (o : JsonObject) : Out SyntaxError SLayout :=
  (requireType o).bind fun ty => kindParser lib rec ty.2 o

end

/-- `TryFromJsonObject for Layout`, with at most `n` levels of nested layouts. -/
def parseLayoutObject (lib : ParseLib) : Nat → JsonObject → Out SyntaxError SLayout
  | 0, _ => .fuel
  | n + 1, o => parseObjectWith lib (parseLayoutObject lib n) o

mutual
/-- The depth of a document. -/
def Json.depth : Json → Nat
  | .array l => Json.depthList l + 1
  | .object m => Json.depthEntries m + 1
  | _ => 0

/-- The depth of the items of an array. -/
def Json.depthList : List Json → Nat
  | [] => 0
  | j :: l => max j.depth (Json.depthList l)

/-- The depth of the entries of an object. -/
def Json.depthEntries : List (String × Json) → Nat
  | [] => 0
  | (_, j) :: m => max j.depth (Json.depthEntries m)
end

/-- `TryFromJson for Layout`. `layouts/src/abs/syntax/layout/mod.rs` L149-171. Layouts cannot be nested more deeply than
the document. -/
def parseLayout (lib : ParseLib) : Json → Out SyntaxError SLayout
  | .boolean b => .ok (.bool b)
  | .object o => parseLayoutObject lib (Json.depthEntries o + 1) o
  | _ => .err .unexpected

end Verif
