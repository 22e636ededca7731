import Verif.SyntaxParse

/-!
# Positions of syntax errors

Models the parser of layout definitions again, this time with the positions that its errors carry, and the use of these
positions in the diagnostics of the tool: `layouts/src/abs/syntax/**`, `src/main.rs` L305-353.

A position is the number of a fragment of the document. The fragments are numbered in the order of the document: a value comes
before the fragments it contains, and an entry of an object before its key, which comes before its value. The code map
(`json_syntax::CodeMap`) has, for each fragment, its volume: how many fragments it is made of, itself included. The parser goes
from an item or an entry to the next by adding the volume of the former to its position; if the code map had no such position, it
would panic.

Simplifications, besides those of `Verif/SyntaxParse.lean`: the code map has no spans in the text; the constant of a unit
layout is read without going through the code map (it cannot fail, see `parseConst`); the error of regular expressions is not
detailed.
-/

set_option linter.unusedSectionVars false
set_option linter.unusedSimpArgs false

namespace Verif

namespace Pos

/-! ## Fragments -/

/-- A fragment of a document (`json_syntax::FragmentRef`). -/
inductive Fragment where
  | value (j : Json)
  | entry (key : String) (j : Json)
  | key (key : String)

mutual
/-- The fragments of a document, in order. -/
def fragments : Json → List Fragment
  | .array l => .value (.array l) :: fragmentsItems l
  | .object o => .value (.object o) :: fragmentsEntries o
  | .null => [.value .null]
  | .boolean b => [.value (.boolean b)]
  | .number n => [.value (.number n)]
  | .string s => [.value (.string s)]

/-- The fragments of the items of an array. -/
def fragmentsItems : List Json → List Fragment
  | [] => []
  | j :: l => fragments j ++ fragmentsItems l

/-- The fragments of the entries of an object. -/
def fragmentsEntries : List (String × Json) → List Fragment
  | [] => []
  | (k, j) :: o => .entry k j :: .key k :: (fragments j ++ fragmentsEntries o)
end

/-- The volume of a fragment. -/
def Fragment.volume : Fragment → Nat
  | .value j => (fragments j).length
  | .entry _ j => (fragments j).length + 2
  | .key _ => 1

/-- `CodeMap`: the volume of each fragment. `json_syntax::Value::parse_str` returns it with the document. -/
abbrev CodeMap := List Nat

/-- The code map of a document. -/
def codeMap (j : Json) : CodeMap := (fragments j).map Fragment.volume

/-! ## Errors -/

/-- `json_syntax::Kind`. -/
inductive Kind where
  | null | boolean | number | string | array | object
  deriving DecidableEq, Repr

/-- `json_syntax::Value::kind`. -/
def kind : Json → Kind
  | .null => .null
  | .boolean _ => .boolean
  | .number _ => .number
  | .string _ => .string
  | .array _ => .array
  | .object _ => .object

/-- `Error`. `layouts/src/abs/syntax/mod.rs` L20-73. -/
inductive Error where
  | unexpected (offset : Nat) (expected : List Kind) (found : Kind)
  | missingRequiredEntry (offset : Nat) (key : String)
  | duplicateEntry (offset : Nat) (key : String) (other : Nat)
  | unexpectedEntry (offset : Nat) (key : String)
  | missingType (offset : Nat)
  | invalidType (offset : Nat) (expected : List String) (found : String)
  | invalidRegex (offset : Nat)
  | invalidPattern (offset : Nat) (s : String)
  | invalidLangTag (offset : Nat) (s : String)
  | invalidCompactIri (offset : Nat) (s : String)
  | missingQuadPattern (offset : Nat)
  | tooManyQuadPatterns (offset : Nat)
  | expectedInteger (offset : Nat) (n : List Char)
  | integerOverflow (offset : Nat) (n : List Char)

/-- `position`. `layouts/src/abs/syntax/mod.rs` L91-108. -/
def Error.position : Error → Nat
  | .unexpected offset _ _ => offset
  | .missingRequiredEntry offset _ => offset
  | .duplicateEntry offset _ _ => offset
  | .unexpectedEntry offset _ => offset
  | .missingType offset => offset
  | .invalidType offset _ _ => offset
  | .invalidRegex offset => offset
  | .invalidPattern offset _ => offset
  | .invalidLangTag offset _ => offset
  | .invalidCompactIri offset _ => offset
  | .missingQuadPattern offset => offset
  | .tooManyQuadPatterns offset => offset
  | .expectedInteger offset _ => offset
  | .integerOverflow offset _ => offset

/-- `ErrorHint`. `layouts/src/abs/syntax/mod.rs` L153-157. -/
inductive ErrorHint where
  | expectedType (types : List String)
  | foundType (ty : String)
  | duplicateEntry (offset : Nat)
  deriving DecidableEq, Repr

/-- `hints`. `layouts/src/abs/syntax/mod.rs` L110-124. -/
def Error.hints : Error → List ErrorHint
  | .duplicateEntry _ _ other => [.duplicateEntry other]
  | .invalidType _ expected found => [.expectedType expected, .foundType found]
  | _ => []

/-- `ErrorHint::position`. `layouts/src/abs/syntax/mod.rs` L160-166. -/
def ErrorHint.position : ErrorHint → Option Nat
  | .duplicateEntry offset => some offset
  | _ => none

/-- The error without what `SyntaxError` leaves out. -/
def Error.erase : Error → SyntaxError
  | .unexpected _ _ _ => .unexpected
  | .missingRequiredEntry _ key => .missingRequiredEntry key
  | .duplicateEntry _ key _ => .duplicateEntry key
  | .unexpectedEntry _ key => .unexpectedEntry key
  | .missingType _ => .missingType
  | .invalidType _ _ found => .invalidType found
  | .invalidRegex _ => .invalidRegex
  | .invalidPattern _ s => .invalidPattern s
  | .invalidLangTag _ s => .invalidLangTag s
  | .invalidCompactIri _ s => .invalidCompactIri s
  | .missingQuadPattern _ => .missingQuadPattern
  | .tooManyQuadPatterns _ => .tooManyQuadPatterns
  | .expectedInteger _ _ => .expectedInteger
  | .integerOverflow _ _ => .integerOverflow

/-- Parsers of values: position and value. -/
abbrev Parser (α : Type) := Nat → Json → Out Error α

section

variable (cm : CodeMap)

/-- `code_map.get(offset).unwrap().volume`, e.g. `layouts/src/abs/syntax/dataset.rs` L77; also the iterators of the library. -/
def volume (offset : Nat) : Out Error Nat := Out.ofOption cm[offset]?

/-! ## Objects -/

/-- The positions of the keys of an object whose first entry is at `offset`: each comes just after its entry.
`ObjectUnusedEntries::new`, `layouts/src/abs/syntax/mod.rs` L250-260. -/
def keyOffsets : Nat → JsonObject → Out Error (List Nat)
  | _, [] => .ok []
  | offset, _ :: o =>
    (volume cm offset).bind fun n => (keyOffsets (offset + n) o).bind fun l => .ok ((offset + 1) :: l)

/-- The entries with a given key of an object whose first entry is at `offset`: number, position of the key, position of the value
and value. -/
def entriesOf (key : String) : Nat → Nat → JsonObject → Out Error (List (Nat × Nat × Nat × Json))
  | _, _, [] => .ok []
  | i, offset, (k, v) :: o =>
    (volume cm offset).bind fun n => (entriesOf key (i + 1) (offset + n) o).bind fun l =>
      .ok (if k = key then (i, offset + 1, offset + 2, v) :: l else l)

/-- `Object::get_unique_mapped_entry_with_index` with the conversion of its error: number, position of the value, value.
`layouts/src/abs/syntax/mod.rs` L76-89. -/
def uniqueEntry (o : JsonObject) (key : String) (offset : Nat) : Out Error (Option (Nat × Nat × Json)) :=
  (entriesOf cm key 0 (offset + 1) o).bind fun l =>
    match l with
    | [] => .ok none
    | [(i, _, p, v)] => .ok (some (i, p, v))
    | (_, p, _, _) :: (_, p', _, _) :: _ => .err (.duplicateEntry p key p')

/-- A step of the parsing of an object (see `Verif.ObjParser`). -/
def ObjParser (α : Type) := List Bool → Out Error (α × List Bool)

/-- The `?` operator. -/
def ObjParser.bind {α β : Type} (x : ObjParser α) (f : α → ObjParser β) : ObjParser β := fun u =>
  (x u).bind fun r => f r.1 r.2

/-- Returns a value. -/
def ObjParser.pure {α : Type} (a : α) : ObjParser α := fun u => .ok (a, u)

/-- `ObjectUnusedEntries::check`. `layouts/src/abs/syntax/mod.rs` L266-277. -/
def checkUnused : List Nat → JsonObject → List Bool → Out Error Unit
  | p :: ps, (k, _) :: o, unused :: u => if unused then .err (.unexpectedEntry p k) else checkUnused ps o u
  | _, _, _ => .ok ()

/-- `get_entry`. `layouts/src/abs/syntax/mod.rs` L280-304. -/
def getEntry {α : Type} (p : Parser α) (o : JsonObject) (key : String) (offset : Nat) : ObjParser (Option α) := fun u =>
  (uniqueEntry cm o key offset).bind fun e =>
    match e with
    | some (i, q, v) => (p q v).bind fun t => .ok (some t, u.set i false)
    | none => .ok (none, u)

/-- `require_entry`. `layouts/src/abs/syntax/mod.rs` L306-331. -/
def requireEntry {α : Type} (p : Parser α) (o : JsonObject) (key : String) (offset : Nat) : ObjParser α := fun u =>
  (uniqueEntry cm o key offset).bind fun e =>
    match e with
    | some (i, q, v) => (p q v).bind fun t => .ok (t, u.set i false)
    | none => .err (.missingRequiredEntry offset key)

/-- `require_type`: the number of the entry, the position of its value, and the type. `layouts/src/abs/syntax/mod.rs` L333-358. -/
def requireType (o : JsonObject) (offset : Nat) : Out Error (Nat × Nat × String) :=
  (uniqueEntry cm o "type" offset).bind fun e =>
    match e with
    | some (i, q, .string s) => .ok (i, q, s)
    | some (_, q, j) => .err (.unexpected q [.string] (kind j))
    | none => .err (.missingType offset)

/-- `check_type`. `layouts/src/abs/syntax/mod.rs` L360-377. -/
def checkType (o : JsonObject) (expected : String) (offset : Nat) : ObjParser Unit := fun u =>
  (requireType cm o offset).bind fun r =>
    if r.2.2 = expected then .ok ((), u.set r.1 false) else .err (.invalidType r.2.1 [expected] r.2.2)

/-- The parsing of an object, see `Verif.runObj`. -/
def runObj {α : Type} (o : JsonObject) (offset : Nat) (m : ObjParser α) : Out Error α :=
  (keyOffsets cm (offset + 1) o).bind fun ps =>
  (m (o.map fun _ => true)).bind fun r => (checkUnused ps o r.2).bind fun _ => .ok r.1

/-! ## Leaves -/

/-- `TryFromJson for String` (`json_syntax`), `expect_string` (`layouts/src/abs/syntax/mod.rs` L233-242). -/
def parseString : Parser String
  | _, .string s => .ok s
  | p, j => .err (.unexpected p [.string] (kind j))

/-- `TryFromJson for bool` (`json_syntax`). -/
def parseBool : Parser Bool
  | _, .boolean b => .ok b
  | p, j => .err (.unexpected p [.boolean] (kind j))

/-- `TryFromJson for Option<T>` (`json_syntax`): `null` is `None`. -/
def parseOption {α : Type} (f : Parser α) : Parser (Option α)
  | _, .null => .ok none
  | p, j => (f p j).bind fun a => .ok (some a)

/-- The items of an array, the first of which is at `offset`. -/
def parseItems {α : Type} (f : Parser α) : Nat → List Json → Out Error (List α)
  | _, [] => .ok []
  | offset, j :: l =>
    (f offset j).bind fun a => (volume cm offset).bind fun n => (parseItems f (offset + n) l).bind fun l => .ok (a :: l)

/-- `TryFromJson for Vec<T>` (`json_syntax`). -/
def parseVec {α : Type} (f : Parser α) : Parser (List α)
  | p, .array l => parseItems cm f (p + 1) l
  | p, j => .err (.unexpected p [.array] (kind j))

/-- `TryFromJson for OneOrMany<T>`. `layouts/src/abs/syntax/mod.rs` L426-443. -/
def parseOneOrMany {α : Type} (f : Parser α) : Parser (OneOrMany α)
  | p, .array l => (parseItems cm f (p + 1) l).bind fun l => .ok (.many l)
  | p, j => (f p j).bind fun a => .ok (.one a)

/-- The entries of a map, the first of which is at `offset`: each key and each value is parsed. -/
def parseEntries {κ α : Type} (key : Nat → String → Out Error κ) (f : Parser α) :
    Nat → JsonObject → Out Error (List (κ × α))
  | _, [] => .ok []
  | offset, (k, v) :: o =>
    (key (offset + 1) k).bind fun k => (f (offset + 2) v).bind fun a =>
    (volume cm offset).bind fun n => (parseEntries key f (offset + n) o).bind fun l => .ok ((k, a) :: l)

/-- `TryFromJson for BTreeMap<K, V>` (`json_syntax`). -/
def parseMap {κ α : Type} [DecidableEq κ] (le : κ → κ → Bool) (key : Nat → String → Out Error κ) (f : Parser α) :
    Parser (List (κ × α))
  | p, .object o => (parseEntries cm key f (p + 1) o).bind fun l => .ok (bmapCollect le l)
  | p, j => .err (.unexpected p [.object] (kind j))

/-- Keys that are strings. -/
def anyKey {κ : Type} (f : String → κ) (_ : Nat) (k : String) : Out Error κ := .ok (f k)

variable (lib : ParseLib)

/-- `CompactIri::from_str` with the conversion of its error, `LayoutRef::try_from_json_string_at`.
`layouts/src/abs/syntax/mod.rs` L127-131, `layouts/src/abs/syntax/layout/mod.rs` L273-285. -/
def parseIriString (p : Nat) (s : String) : Out Error CompactIri :=
  if lib.isIriRef s then .ok s else .err (.invalidCompactIri p s)

/-- `TryFromJson for CompactIri`. `layouts/src/abs/syntax/pattern/compact_iri.rs` L62-75. -/
def parseIri : Parser CompactIri := fun p j => (parseString p j).bind (parseIriString lib p)

/-- The type of a literal. `layouts/src/abs/syntax/pattern/literal.rs` L26-39: the position of an invalid language tag is that of the
literal. -/
def parseLitType (o : JsonObject) (p : Nat) : Option CompactIri → ObjParser SLitType
  | some ty => .pure (.iri ty)
  | none => (requireEntry cm parseString o "language" p).bind fun tag u =>
      if lib.isLangTag tag then .ok (.language tag, u) else .err (.invalidLangTag p tag)

/-- `LiteralValue::try_from_json_object_at`. `layouts/src/abs/syntax/pattern/literal.rs` L19-46. -/
def parseLiteralValue (p : Nat) (o : JsonObject) : Out Error SPattern :=
  runObj cm o p <|
    (getEntry cm (parseIri lib) o "type" p).bind fun ty =>
    (parseLitType cm lib o p ty).bind fun ty =>
    (requireEntry cm parseString o "value" p).bind fun value =>
    .pure (.literal value ty)

/-- `TryFromJson for Pattern`. `layouts/src/abs/syntax/pattern/mod.rs` L77-103. -/
def parsePattern : Parser SPattern
  | p, .string s =>
    if lib.isBlankId s then .ok (.var (blankSuffix s))
    else if lib.isIriRef s then .ok (.iri s)
    else .err (.invalidPattern p s)
  | p, .object o => parseLiteralValue cm lib p o
  | p, j => .err (.unexpected p [.string, .object] (kind j))

/-- The graph of a quad. `layouts/src/abs/syntax/dataset.rs` L83-86. -/
def parseFourth (p : Nat) : List Json → Out Error (Option SPattern)
  | g :: _ => (parsePattern cm lib p g).bind fun g => .ok (some g)
  | [] => .ok none

/-- `TryFromJson for Quad`. `layouts/src/abs/syntax/dataset.rs` L59-90. -/
def parseQuad : Parser (Quad SPattern)
  | p, .array (s :: q :: o :: g) =>
    if 3 + g.length > 4 then .err (.tooManyQuadPatterns p)
    else
      (parsePattern cm lib (p + 1) s).bind fun s =>
      (volume cm (p + 1)).bind fun n₁ =>
      (parsePattern cm lib (p + 1 + n₁) q).bind fun q =>
      (volume cm (p + 1 + n₁)).bind fun n₂ =>
      (parsePattern cm lib (p + 1 + n₁ + n₂) o).bind fun o =>
      (volume cm (p + 1 + n₁ + n₂)).bind fun n₃ =>
      (parseFourth cm lib (p + 1 + n₁ + n₂ + n₃) g).bind fun g =>
      .ok ⟨s, q, o, g⟩
  | p, .array _ => .err (.missingQuadPattern p)
  | p, j => .err (.unexpected p [.array] (kind j))

/-- `TryFromJson for Dataset`. `layouts/src/abs/syntax/dataset.rs` L22-32. -/
def parseDataset : Parser (List (Quad SPattern)) := parseVec cm (parseQuad cm lib)

/-- The number of an extra property. `layouts/src/abs/syntax/resource.rs` L39-48. -/
def parseInteger (p : Nat) (s : List Char) : Out Error SResource :=
  if '.' ∈ s then .err (.expectedInteger p s)
  else
    match parseI64 s with
    | some z => .ok (.number z)
    | none => .err (.integerOverflow p s)

/-- `TryFromJson for Resource`, `TypedString::try_from_json_object_at`. `layouts/src/abs/syntax/resource.rs` L27-63,
L105-118. -/
def parseResource : Parser SResource
  | _, .boolean b => .ok (.boolean b)
  | p, .number n => parseInteger p n
  | _, .string s => .ok (.string s)
  | p, .object o => runObj cm o p <|
    (requireEntry cm parseString o "value" p).bind fun value =>
    (requireEntry cm (parseIri lib) o "type" p).bind fun ty =>
    .pure (.typed value ty)
  | p, j => .err (.unexpected p [.boolean, .number, .string, .object] (kind j))

/-- `TryFromJson for RegExp`. `layouts/src/abs/regexp.rs` L9-20. -/
def parseRegExp : Parser RegExp := fun p j =>
  (parseString p j).bind fun s => (RegExp.parse (s.toList.map RegExp.charNumber)).mapErr fun _ => .invalidRegex p

/-- `TryFromJson for Value`. `layouts/src/value/mod.rs` L339-372. -/
def parseConst : Parser Value := fun _ j => j.toValue.mapErr nofun

/-- `LayoutHeader::try_from_json_object_at`. `layouts/src/abs/syntax/layout/mod.rs` L413-436. -/
def parseHeader (o : JsonObject) (p : Nat) : ObjParser LayoutHeader :=
  (getEntry cm (parseIri lib) o "base" p).bind fun base =>
  (getEntry cm (parseMap cm strLe (anyKey id) (parseIri lib)) o "prefixes" p).bind fun prefixes =>
  (getEntry cm (parseIri lib) o "id" p).bind fun id =>
  (getEntry cm (parseOneOrMany cm parseString) o "input" p).bind fun input =>
  (getEntry cm (parseOneOrMany cm parseString) o "intro" p).bind fun intro =>
  (getEntry cm (parseDataset cm lib) o "dataset" p).bind fun dataset =>
  (getEntry cm (parseMap cm lib.leIri (parseIriString lib) (parseResource cm lib)) o "extra" p).bind fun extra =>
  .pure {
    base := base
    prefixes := prefixes.getD []
    id := id
    input := input.getD (.one "self")
    intro := intro.getD (.many [])
    dataset := dataset.getD []
    extra := extra.getD [] }

/-! ## Layouts -/

variable (rec : Nat → JsonObject → Out Error SLayout)

/-- `TryFromJson for LayoutRef`. `layouts/src/abs/syntax/layout/mod.rs` L287-320. -/
def parseRef : Parser SLayoutRef
  | p, .string s => (parseIriString lib p s).bind fun i => .ok (.ref i)
  | p, .object o => (rec p o).bind fun l => .ok (.layout l)
  | p, j => .err (.unexpected p [.string, .object] (kind j))

/-- `TryFromJsonObject for ValueFormat` and `VariantFormat`. `layouts/src/abs/syntax/mod.rs` L510-531,
`layouts/src/abs/syntax/layout/sum.rs` L230-250. -/
def parseFormatObject (dflt : String) (p : Nat) (o : JsonObject) : Out Error SFormat :=
  runObj cm o p <|
    (requireEntry cm (parseRef lib rec) o "layout" p).bind fun layout =>
    (getEntry cm (parseOneOrMany cm (parsePattern cm lib)) o "input" p).bind fun input =>
    (getEntry cm (parseOption (parseOption (parsePattern cm lib))) o "graph" p).bind fun graph =>
    .pure (.format layout (input.getD (.one (.var dflt))) (graph.getD none))

/-- `TryFromJson for ValueFormatOrLayout` and `VariantFormatOrLayout`. `layouts/src/abs/syntax/mod.rs` L452-477,
`layouts/src/abs/syntax/layout/sum.rs` L158-184. -/
def parseFormat (dflt : String) : Parser SFormat
  | p, .string s => (parseIriString lib p s).bind fun i => .ok (.layout (.ref i))
  | p, .object o =>
    if "type" ∈ o.map Prod.fst then (rec p o).bind fun l => .ok (.layout (.layout l))
    else parseFormatObject cm lib rec dflt p o
  | p, j => .err (.unexpected p [.string, .object] (kind j))

/-- `TryFromJson for Field`. `layouts/src/abs/syntax/layout/product.rs` L153-189. -/
def parseField : Parser SField
  | p, .object o => runObj cm o p <|
    (getEntry cm (parseOneOrMany cm parseString) o "intro" p).bind fun intro =>
    (requireEntry cm (parseFormat cm lib rec "value") o "value" p).bind fun value =>
    (getEntry cm (parseDataset cm lib) o "dataset" p).bind fun dataset =>
    (getEntry cm (parsePattern cm lib) o "property" p).bind fun property =>
    (getEntry cm parseBool o "required" p).bind fun required =>
    .pure (.mk (intro.getD (.one "value")) value (dataset.getD []) property (required.getD false))
  | p, j => .err (.unexpected p [.object] (kind j))

/-- `TryFromJson for Variant`. `layouts/src/abs/syntax/layout/sum.rs` L86-118. -/
def parseVariant : Parser SVariant
  | p, .object o => runObj cm o p <|
    (getEntry cm (parseOneOrMany cm parseString) o "intro" p).bind fun intro =>
    (requireEntry cm (parseFormat cm lib rec "self") o "value" p).bind fun value =>
    (getEntry cm (parseDataset cm lib) o "dataset" p).bind fun dataset =>
    .pure (.mk (intro.getD (.many [])) value (dataset.getD []))
  | p, j => .err (.unexpected p [.object] (kind j))

/-- `TryFromJson for ListItem`. `layouts/src/abs/syntax/layout/list.rs` L420-453. -/
def parseItem : Parser SItem
  | p, .object o => runObj cm o p <|
    (getEntry cm (parseOneOrMany cm parseString) o "intro" p).bind fun intro =>
    (requireEntry cm (parseFormat cm lib rec "value") o "value" p).bind fun value =>
    (getEntry cm (parseDataset cm lib) o "dataset" p).bind fun dataset =>
    (getEntry cm (parsePattern cm lib) o "property" p).bind fun property =>
    .pure (.mk (intro.getD (.one "value")) value (dataset.getD []) property)
  | p, j => .err (.unexpected p [.object] (kind j))

/-- `TryFromJsonObject for ListNode`. `layouts/src/abs/syntax/layout/list.rs` L280-302. -/
def parseNodeObject (p : Nat) (o : JsonObject) : Out Error SNode :=
  runObj cm o p <|
    (getEntry cm parseString o "head" p).bind fun head =>
    (getEntry cm parseString o "rest" p).bind fun rest =>
    (getEntry cm (parseOneOrMany cm parseString) o "intro" p).bind fun intro =>
    (requireEntry cm (parseFormat cm lib rec "value") o "value" p).bind fun value =>
    (getEntry cm (parseDataset cm lib) o "dataset" p).bind fun dataset =>
    .pure (.node (head.getD "head") (rest.getD "rest") (intro.getD (.one "value")) value dataset)

/-- `TryFromJson for ListNodeOrLayout`. `layouts/src/abs/syntax/layout/list.rs` L155-183. -/
def parseNode : Parser SNode
  | p, .string s => (parseIriString lib p s).bind fun i => .ok (.layout (.ref i))
  | p, .object o =>
    if "type" ∈ o.map Prod.fst then (rec p o).bind fun l => .ok (.layout (.layout l))
    else parseNodeObject cm lib rec p o
  | p, j => .err (.unexpected p [.string, .object] (kind j))

/-- `TryFromJsonObject for UnitLayout`. `layouts/src/abs/syntax/layout/literal.rs` L200-227. -/
def parseUnit (o : JsonObject) (p : Nat) : ObjParser SLayout :=
  (checkType cm o "unit" p).bind fun _ =>
  (parseHeader cm lib o p).bind fun h =>
  (getEntry cm parseConst o "const" p).bind fun k =>
  .pure (.unit h (k.getD (.literal .unit)))

/-- `TryFromJsonObject for BooleanLayout`. `layouts/src/abs/syntax/layout/literal.rs` L310-338. -/
def parseBooleanLayout (o : JsonObject) (p : Nat) : ObjParser SLayout :=
  (checkType cm o "boolean" p).bind fun _ =>
  (parseHeader cm lib o p).bind fun h =>
  (getEntry cm (parsePattern cm lib) o "resource" p).bind fun r =>
  (getEntry cm (parseIri lib) o "datatype" p).bind fun dt =>
  .pure (.boolean h r dt)

/-- `TryFromJsonObject for NumberLayout`. `layouts/src/abs/syntax/layout/literal.rs` L379-407. -/
def parseNumber (o : JsonObject) (p : Nat) : ObjParser SLayout :=
  (checkType cm o "number" p).bind fun _ =>
  (parseHeader cm lib o p).bind fun h =>
  (getEntry cm (parsePattern cm lib) o "resource" p).bind fun r =>
  (requireEntry cm (parseIri lib) o "datatype" p).bind fun dt =>
  .pure (.number h r dt)

/-- `TryFromJsonObject for ByteStringLayout`. `layouts/src/abs/syntax/layout/literal.rs` L448-476. -/
def parseByteString (o : JsonObject) (p : Nat) : ObjParser SLayout :=
  (checkType cm o "bytes" p).bind fun _ =>
  (parseHeader cm lib o p).bind fun h =>
  (getEntry cm (parsePattern cm lib) o "resource" p).bind fun r =>
  (requireEntry cm (parseIri lib) o "datatype" p).bind fun dt =>
  .pure (.byteString h r dt)

/-- `TryFromJsonObject for TextStringLayout`. `layouts/src/abs/syntax/layout/literal.rs` L496-526. -/
def parseTextString (o : JsonObject) (p : Nat) : ObjParser SLayout :=
  (checkType cm o "string" p).bind fun _ =>
  (parseHeader cm lib o p).bind fun h =>
  (getEntry cm parseRegExp o "pattern" p).bind fun e =>
  (getEntry cm (parsePattern cm lib) o "resource" p).bind fun r =>
  (getEntry cm (parseIri lib) o "datatype" p).bind fun dt =>
  .pure (.textString h e r dt)

/-- `TryFromJsonObject for IdLayout`. `layouts/src/abs/syntax/layout/literal.rs` L572-600. -/
def parseIdLayout (o : JsonObject) (p : Nat) : ObjParser SLayout :=
  (checkType cm o "id" p).bind fun _ =>
  (parseHeader cm lib o p).bind fun h =>
  (getEntry cm parseRegExp o "pattern" p).bind fun e =>
  (getEntry cm (parsePattern cm lib) o "resource" p).bind fun r =>
  .pure (.id h e r)

/-- `TryFromJsonObject for ProductLayout`. `layouts/src/abs/syntax/layout/product.rs` L45-76. -/
def parseRecord (o : JsonObject) (p : Nat) : ObjParser SLayout :=
  (checkType cm o "record" p).bind fun _ =>
  (getEntry cm (parseMap cm Value.le (anyKey Value.text) (parseField cm lib rec)) o "fields" p).bind fun fields =>
  (parseHeader cm lib o p).bind fun h =>
  .pure (.product h (fields.getD []))

/-- `TryFromJsonObject for SumLayout`. `layouts/src/abs/syntax/layout/sum.rs` L42-72. -/
def parseSum (o : JsonObject) (p : Nat) : ObjParser SLayout :=
  (checkType cm o "sum" p).bind fun _ =>
  (parseHeader cm lib o p).bind fun h =>
  (getEntry cm (parseMap cm strLe (anyKey id) (parseVariant cm lib rec)) o "variants" p).bind fun variants =>
  .pure (.sum h (variants.getD []))

/-- `TryFromJsonObject for OrderedListLayout`. `layouts/src/abs/syntax/layout/list.rs` L113-146. -/
def parseList (o : JsonObject) (p : Nat) : ObjParser SLayout :=
  (checkType cm o "list" p).bind fun _ =>
  (parseHeader cm lib o p).bind fun h =>
  (requireEntry cm (parseNode cm lib rec) o "node" p).bind fun node =>
  (getEntry cm (parsePattern cm lib) o "head" p).bind fun head =>
  (getEntry cm (parsePattern cm lib) o "tail" p).bind fun tail =>
  .pure (.ordered h node (head.getD (.var "self")) (tail.getD (.iri rdfNil)))

/-- `TryFromJsonObject for UnorderedListLayout`. `layouts/src/abs/syntax/layout/list.rs` L374-403. -/
def parseSet (o : JsonObject) (p : Nat) : ObjParser SLayout :=
  (checkType cm o "set" p).bind fun _ =>
  (parseHeader cm lib o p).bind fun h =>
  (requireEntry cm (parseItem cm lib rec) o "item" p).bind fun item =>
  .pure (.unordered h item)

/-- `TryFromJsonObject for SizedListLayout`. `layouts/src/abs/syntax/layout/list.rs` L538-568. -/
def parseTuple (o : JsonObject) (p : Nat) : ObjParser SLayout :=
  (checkType cm o "tuple" p).bind fun _ =>
  (parseHeader cm lib o p).bind fun h =>
  (getEntry cm (parseVec cm (parseItem cm lib rec)) o "items" p).bind fun items =>
  .pure (.sized h (items.getD []))

/-- `TryFromJsonObject for UnionLayout`. `layouts/src/abs/syntax/layout/union.rs` L22-50. -/
def parseUnion (o : JsonObject) (p : Nat) : ObjParser SLayout :=
  (checkType cm o "union" p).bind fun _ =>
  (parseHeader cm lib o p).bind fun h =>
  .pure (.union h)

/-- `TryFromJsonObject for IntersectionLayout`. `layouts/src/abs/syntax/layout/intersection.rs` L22-50. -/
def parseIntersection (o : JsonObject) (p : Nat) : ObjParser SLayout :=
  (checkType cm o "intersection" p).bind fun _ =>
  (parseHeader cm lib o p).bind fun h =>
  .pure (.intersection h)

/-- The types that are expected. `layouts/src/abs/syntax/layout/mod.rs` L209-223. -/
def layoutTypes : List String :=
  ["id", "unit", "boolean", "number", "bytes", "string", "record", "sum", "list", "set", "tuple", "union", "intersection"]

/-- The parser for a kind of layouts; `q` is the position of the type. `layouts/src/abs/syntax/layout/mod.rs` L182-226,
`literal.rs` L46-69, L131-160, `list.rs` L45-66. -/
def kindParser (q : Nat) (ty : String) (p : Nat) (o : JsonObject) : Out Error SLayout :=
  if ty = "id" then runObj cm o p (parseIdLayout cm lib o p)
  else if ty = "unit" then runObj cm o p (parseUnit cm lib o p)
  else if ty = "boolean" then runObj cm o p (parseBooleanLayout cm lib o p)
  else if ty = "number" then runObj cm o p (parseNumber cm lib o p)
  else if ty = "bytes" then runObj cm o p (parseByteString cm lib o p)
  else if ty = "string" then runObj cm o p (parseTextString cm lib o p)
  else if ty = "record" then runObj cm o p (parseRecord cm lib rec o p)
  else if ty = "sum" then runObj cm o p (parseSum cm lib rec o p)
  else if ty = "list" then runObj cm o p (parseList cm lib rec o p)
  else if ty = "set" then runObj cm o p (parseSet cm lib rec o p)
  else if ty = "tuple" then runObj cm o p (parseTuple cm lib rec o p)
  else if ty = "union" then runObj cm o p (parseUnion cm lib o p)
  else if ty = "intersection" then runObj cm o p (parseIntersection cm lib o p)
  else .err (.invalidType q layoutTypes ty)

/-- `TryFromJsonObject for Layout`. `layouts/src/abs/syntax/layout/mod.rs` L173-228. -/
def parseObjectWith (p : Nat) (o : JsonObject) : Out Error SLayout :=
  (requireType cm o p).bind fun ty => kindParser cm lib rec ty.2.1 ty.2.2 p o

end

/-- `TryFromJsonObject for Layout`, with at most `n` levels of nested layouts. -/
def parseLayoutObject (cm : CodeMap) (lib : ParseLib) : Nat → Nat → JsonObject → Out Error SLayout
  | 0, _, _ => .fuel
  | n + 1, p, o => parseObjectWith cm lib (parseLayoutObject cm lib n) p o

/-- `TryFromJson for Layout`. `layouts/src/abs/syntax/layout/mod.rs` L149-171. -/
def parseLayoutAt (cm : CodeMap) (lib : ParseLib) : Parser SLayout
  | _, .boolean b => .ok (.bool b)
  | p, .object o => parseLayoutObject cm lib (Json.depthEntries o + 1) p o
  | p, j => .err (.unexpected p [.boolean, .object] (kind j))

/-- `try_from_json`: the document is at position 0. `src/main.rs` L368-370. -/
def parseLayout (cm : CodeMap) (lib : ParseLib) (j : Json) : Out Error SLayout := parseLayoutAt cm lib 0 j

/-! ## Diagnostics -/

/-- How the kinds of JSON values are displayed: `Display for Kind` and `KindSet` of the library. -/
structure KindNames where
  kind : Kind → String
  kinds : List Kind → String

/-- `Display for Error`, from the `error` attributes of the variants; `{0}` is the first field. `layouts/src/abs/syntax/mod.rs`
L20-73. What is displayed of the error of a regular expression is its first field too. -/
def Error.message (names : KindNames) : Error → String
  | .unexpected _ expected found => "expected " ++ names.kinds expected ++ ", found " ++ names.kind found
  | .missingRequiredEntry _ key => "missing required entry `" ++ key ++ "`"
  | .duplicateEntry _ key _ => "duplicate entry `" ++ key ++ "`"
  | .unexpectedEntry _ key => "unexpected entry `" ++ key ++ "`"
  | .missingType _ => "missing `type` entry"
  | .invalidType _ _ _ => "invalid type value"
  | .invalidRegex offset => "invalid regular expression: " ++ toString offset
  | .invalidPattern offset _ => "invalid IRI or blank node identifier `" ++ toString offset ++ "`"
  | .invalidLangTag offset _ => "invalid language tag `" ++ toString offset ++ "`"
  | .invalidCompactIri offset _ => "invalid compact IRI `" ++ toString offset ++ "`"
  | .missingQuadPattern _ => "quad must have at least 3 patterns (subject, predicate, object)"
  | .tooManyQuadPatterns _ => "quad must have at most 4 patterns (subject, predicate, object, graph)"
  | .expectedInteger offset _ => "expected integer number, found " ++ toString offset
  | .integerOverflow offset _ => "integer number is too large: " ++ toString offset

/-- The list of possible types, after the first `i`. `layouts/src/abs/syntax/mod.rs` L177-188. -/
def enumerateTypes : Nat → List String → String
  | _, [] => ""
  | i, ty :: tys =>
    (if i > 0 then (if tys = [] then " and " else ", ") else "") ++ "`" ++ ty ++ "`" ++ enumerateTypes (i + 1) tys

/-- `Display for ErrorHint`; an `ExpectedType::One` is a list of one type here. `layouts/src/abs/syntax/mod.rs` L168-197. -/
def ErrorHint.message : ErrorHint → String
  | .expectedType [ty] => "only possible value is `" ++ ty ++ "`"
  | .expectedType tys => "possible values are " ++ enumerateTypes 0 tys
  | .foundType ty => "found type `" ++ ty ++ "`"
  | .duplicateEntry _ => "also defined here"

/-- `codespan_reporting::diagnostic::Diagnostic`: the labels with positions in the document, and the notes. -/
structure Diagnostic where
  primary : Nat × String
  secondary : List (Nat × String)
  notes : List String
  deriving DecidableEq, Repr

/-- The labels and the notes of the hints: `code_map.get(i).unwrap()`. `src/main.rs` L318-329. -/
def hintLabels (cm : CodeMap) : List ErrorHint → Out Empty (List (Nat × String) × List String)
  | [] => .ok ([], [])
  | h :: hs =>
    match h.position with
    | some i =>
      match cm[i]? with
      | some _ => (hintLabels cm hs).bind fun l => .ok ((i, h.message) :: l.1, l.2)
      | none => .panic
    | none => (hintLabels cm hs).bind fun l => .ok (l.1, h.message :: l.2)

/-- The diagnostic of an error. `Error::into_diagnostic`, `src/main.rs` L313-335. -/
def diagnostic (names : KindNames) (cm : CodeMap) (e : Error) : Out Empty Diagnostic :=
  match cm[e.position]? with
  | some _ => (hintLabels cm e.hints).bind fun l => .ok ⟨(e.position, e.message names), l.1, l.2⟩
  | none => .panic

end Pos

end Verif
