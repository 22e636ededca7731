import Verif.RepoTestsDef

/-!
# The other tests and examples of the repository

The unit tests, the example `combine`, the commands of the README, and the declarations of the tests of the derive macros.
-/

namespace Verif.RepoTests

/-! ## Numbers: `layouts/src/value/mod.rs` L683-701 -/

example : ([1, 1 / 2, 1 / 3, 1 / 4, 1 / 5, 1 / 6, 1 / 7, 1 / 8, 1 / 9] : List Rat).map (fun q => (Number.decimalRepresentation q).map String.ofList) =
    [some "1", some "0.5", none, some "0.25", some "0.2", none, none, some "0.125", none] := by decide +kernel

/-! ## Regular expressions: `layouts/src/abs/regexp.rs` L621-646 -/

/-- Parses, and formats. -/
def reprint (s : String) : Option String :=
  match RegExp.parse (s.toList.map RegExp.charNumber) with
  | .ok e => some (String.ofList (e.display.map RegExp.numberChar))
  | _ => none

example : ["a*", "a\\*", "[cab]", "[^cab]", "(abc)|de", "(a|b)?", "[A-Za-z0-89]", "[a|b]"].map reprint =
    ["a*", "a\\*", "[a-c]", "[^a-c]", "abc|de", "(a|b)?", "[0-9A-Za-z]", "[ab\\|]"].map some := by decide +kernel

/-! ## CBOR tags: `layouts/src/value/cbor/serde_cbor.rs` L191-243 -/

def taggedLayout : Json :=
  .object [("prefixes", .object [("cbor", .string "https://schema.treeldr.org/cbor#")]),
    ("type", .string "record"),
    ("fields", .object [("name", .object [("value", .object [("type", .string "string"),
          ("extra", .object [("cbor:tag", .number "42".toList)])]),
        ("property", .string "https://schema.org/name")])])]

/-- What is read from the dataset, in CBOR. -/
def taggedTest : Option (List (String × Nat × String)) :=
  match (Serde.layoutOfValue lib .number taggedLayout).map (SLayout.buildTop ctx · ⟨[], 0⟩) with
  | some (.ok r, b) =>
    match buildAll false 1000 b.layouts with
    | .ok ls =>
      match Hydrate.hydrate (HyCtx.ofTerms (LayoutMap.registry ls) xsd (TypedValue.le code)
          [⟨.blank "subject", .iri "https://schema.org/name", .literal ⟨"Bob L'éponge", .any (xsdNs "string")⟩, none⟩]) 30 none r
          [.blank "subject"] with
      | .ok v =>
        match v.toTaggedCbor (F := Unit) (fun _ => ()) id
          (getLayoutTag (fun r => (ls.lookup r).map Prod.snd) (fun i => some (.iri i)) Term.literals) with
        | .ok (.map m) => m.mapM fun e =>
          match e with
          | (.text k, .tag t (.text s)) => some (k, t, s)
          | _ => none
        | _ => none
      | _ => none
    | _ => none
  | _ => none

example : taggedTest = some [("name", 42, "Bob L'éponge")] := by decide +kernel

/-! ## `layouts/examples/combine.rs` -/

def nestedJson : Json := .object [("nested", .object [("egg", .number "1".toList)])]

def unnestedJson : Json := .object [("unnested", .object [("bird", .boolean true)])]

def nestedLayout : Json :=
  .object [("id", .string "https://example.org#nestedResult"),
    ("type", .string "record"),
    ("fields", .object [("nested", .object [("value", .object [("id", .string "https://example.org#nested"),
          ("type", .string "record"),
          ("fields", .object [("egg", .object [("value", .object [("type", .string "number"),
                ("id", .string "https://example.org#egg"),
                ("datatype", .string "http://www.w3.org/2001/XMLSchema#nonNegativeInteger")]),
              ("property", .string "https://example.org#egg")])])]),
        ("property", .string "https://example.org#nested")])])]

def unnestedLayout : Json :=
  .object [("id", .string "https://example.org#unnestedResult"),
    ("type", .string "record"),
    ("fields", .object [("unnested", .object [("value", .object [("id", .string "https://example.org#unnested"),
          ("type", .string "record"),
          ("fields", .object [("bird", .object [("value", .object [("type", .string "boolean"),
                ("id", .string "https://example.org#bird")]),
              ("property", .string "https://example.org#bird")])])]),
        ("property", .string "https://example.org#unnested")])])]

def finalLayout : Json :=
  .object [("id", .string "https://example.org#anOutputLayout"),
    ("type", .string "record"),
    ("fields", .object [("nested", .object [("value", .string "https://example.org#nested"),
        ("property", .string "https://example.org#nested")]),
      ("bird", .object [("intro", .array [.string "unnested", .string "bird"]),
        ("value", .object [("layout", .string "https://example.org#bird"),
          ("input", .string "_:bird")]),
        ("dataset", .array [.array [.string "_:self", .string "https://example.org#unnested", .string "_:unnested"], .array [.string "_:unnested", .string "https://example.org#bird", .string "_:bird"]])])])]

/-- The three layouts are added to one builder. -/
def combined : Option (Registry Term × Term × Term × Term) :=
  match Serde.layoutOfValue lib .number nestedLayout, Serde.layoutOfValue lib .number unnestedLayout,
      Serde.layoutOfValue lib .number finalLayout with
  | some l₁, some l₂, some l₃ =>
    match l₁.buildTop ctx ⟨[], 0⟩ with
    | (.ok r₁, b) =>
      match l₂.buildTop ctx b with
      | (.ok r₂, b) =>
        match l₃.buildTop ctx b with
        | (.ok r₃, b) =>
          match buildAll false 1000 b.layouts with
          | .ok ls => some (LayoutMap.registry ls, r₁, r₂, r₃)
          | _ => none
        | _ => none
      | _ => none
    | _ => none
  | _, _, _ => none

/-- The two documents are written with one generator, and put together; the third layout reads the whole. -/
def combine : Option Value :=
  match combined with
  | some (reg, r₁, r₂, r₃) =>
    match dehydrated reg r₁ nestedJson none 0, dehydrated reg r₂ unnestedJson none 1 with
    | .ok (ds₁, _), .ok (ds₂, _) =>
      match hydrated reg r₃ (ds₁ ++ ds₂) (.blank "input0") with
      | .ok v => some v
      | _ => none
    | _, _ => none
  | none => none

example : combine = some (.map [(.text "bird", .literal (.boolean true)),
    (.text "nested", .map [(.text "egg", .literal (.number 1))])]) := by decide +kernel

/-! ## The commands of `README.md` L62-96, with `layouts/examples/record.json` -/

def recordLayout : Json :=
  .object [("id", .string "https://example.org/#RecordLayout"),
    ("type", .string "record"),
    ("prefixes", .object [("tldr", .string "https://treeldr.org/prelude#")]),
    ("fields", .object [("id", .object [("intro", .array []),
        ("value", .object [("layout", .string "tldr:id"),
          ("input", .array [.string "_:self"])])]),
      ("name", .object [("value", .string "tldr:string"),
        ("property", .string "https://schema.org/name")])])]

/-- The environment of the commands. -/
def env : CommandEnv where
  load := load
  prelude := preludeRegistry Term.iri
  xsd := xsd
  isIri s := s.toList.contains ':'
  le := TypedValue.le code
  options := ⟨none, fun i => .blank ("input" ++ toString i), fun i => .blank (toString i), id⟩
  depth := 30

def bob : List (Quad Term) :=
  [⟨.iri "http://example.org/#bob", .iri "https://schema.org/name", .literal ⟨"Bob", .any (xsdNs "string")⟩, none⟩]

def bobJson : Json := .object [("id", .string "http://example.org/#bob"), ("name", .string "Bob")]

def dehydrateBob : Option (List (Quad Term)) :=
  match dehydrateCommand env ⟨[.json recordLayout], [], false⟩ none (some bobJson) with
  | .ok ds => some ds
  | _ => none

def hydrateBob : Option (List (String × String)) :=
  match hydrateCommand env ⟨[.json recordLayout], [], false⟩ none [.iri "http://example.org/#bob"] (some bob) with
  | .ok (.object m) => m.mapM fun e =>
    match e with
    | (k, .string s) => some (k, s)
    | _ => none
  | _ => none

example : dehydrateBob = some bob := by decide +kernel

example : hydrateBob = some [("id", "http://example.org/#bob"), ("name", "Bob")] := by decide +kernel

/-! ## The examples of the documentation: `layouts/src/lib.rs`, `layouts/src/distill/de/mod.rs` -/

def docLayout (intro : List (String × Json)) : Json :=
  .object [("type", .string "record"), ("fields", .object
    [("id", .object (intro ++ [("value", .object [("layout", .object [("type", .string "id")]), ("input", .string "_:self")])])),
     ("name", .object [("value", .object [("type", .string "string")]), ("property", .string "https://schema.org/name")])])]

def smith (subject : String) : List (Quad Term) :=
  [⟨.iri subject, .iri "https://schema.org/name", .literal ⟨"John Smith", .any (xsdNs "string")⟩, none⟩]

def smithJson (subject : String) : Json := .object [("id", .string subject), ("name", .string "John Smith")]

-- `layouts/src/lib.rs` L12-75
example : hydrateTest (docLayout []) (smith "https://example.org/#john.smith") (.iri "https://example.org/#john.smith")
    (smithJson "https://example.org/#john.smith") = true := by decide +kernel

-- `layouts/src/distill/de/mod.rs` L191-256
example : dehydrateTest (docLayout [("intro", .array [])]) (smith "https://example.org/JohnSmith") (.iri "https://example.org/JohnSmith")
    (smithJson "https://example.org/JohnSmith") = true := by decide +kernel

def preludeLayout : Json :=
  .object [("type", .string "record"), ("prefixes", .object [("tldr", .string "https://treeldr.org/prelude#")]),
    ("fields", .object [("name", .object [("value", .string "tldr:string"), ("property", .string "https://example.org/#name")])])]

/-- What is written with and without the layouts of the prelude. -/
def preludeTest (included : Bool) : Option (List (Quad Term)) :=
  match (Serde.layoutOfValue lib .number preludeLayout).map (SLayout.buildTop ctx · ⟨[], 0⟩) with
  | some (.ok r, b) =>
    match buildAll false 1000 b.layouts with
    | .ok ls =>
      let reg := LayoutMap.registry ls
      match dehydrated (if included then reg.including (preludeRegistry .iri) else reg) r (.object [("name", .string "John Smith")]) none 0 with
      | .ok (ds, _) => some ds
      | _ => none
    | _ => none
  | _ => none

-- `layouts/src/lib.rs` L134-159
example : preludeTest true =
    some [⟨.blank "input0", .iri "https://example.org/#name", .literal ⟨"John Smith", .any (xsdNs "string")⟩, none⟩] := by decide +kernel

example : preludeTest false = none := by decide +kernel

-- `layouts/src/abs/syntax/layout/mod.rs`: the documentation gives `{ "type": "number" }` as a layout; it is one only with a datatype
example : (parseLayout lib (.object [("type", .string "number")])).isOk = false ∧
    (parseLayout lib (.object [("type", .string "number"), ("datatype", .string "ex:integer")])).isOk = true := by decide +kernel

/-! ## The derive macros: `generators/rust/treeldr-rs/tests/`

These tests check that code is generated. (That it compiles is not modelled.) -/

open Rust

/-- `#[tldr(…)]` -/
def tldr (ts : List Tok) : RAttr := ⟨"tldr", some ts⟩

/-- A type without parameters. -/
def ty (s : String) : RType := .path [] s []

/-- `#[tldr(prefix(p = i))]` -/
def prefixAttr (p i : String) : RAttr := tldr [.ident "prefix", .group [.str p, .punct '=', .str i]]

/-- `id.rs`, `list.rs`, `literal.rs`, `record.rs`, `sum.rs`. -/
def declarations : List RItem :=
  [⟨"Id", [tldr [.ident "id"]], .struct (.unnamed [([], .path ["rdf_types"] "Id" [])])⟩,
   ⟨"UnorderedList", [tldr [.ident "set"]], .struct (.unnamed [([], .path [] "Vec" [ty "String"])])⟩,
   ⟨"UnorderedList", [tldr [.ident "list"]], .struct (.unnamed [([], .path [] "Vec" [ty "String"])])⟩,
   ⟨"SizedList", [], .struct (.unnamed [([], ty "String"), ([], ty "String"), ([], ty "String")])⟩,
   ⟨"Unit", [], .struct .unit⟩,
   ⟨"Boolean", [tldr [.ident "boolean"]], .struct (.unnamed [([], ty "bool")])⟩,
   ⟨"I32", [prefixAttr "xsd" "http://www.w3.org/2001/XMLSchema", tldr [.ident "number", .punct ',', .ident "datatype", .group [.str "xsd:int"]]],
     .struct (.unnamed [([], ty "i32")])⟩,
   ⟨"TestString", [prefixAttr "xsd" "http://www.w3.org/2001/XMLSchema", tldr [.ident "number", .punct ',', .ident "datatype",
     .group [.str "xsd:string"]]], .struct (.unnamed [([], ty "String")])⟩,
   ⟨"Record", [prefixAttr "ex" "http://example.org/#"], .struct (.named [("foo", [tldr [.str "ex:foo"]], ty "String"),
     ("optional", [tldr [.str "ex:bar"]], .path [] "Option" [ty "String"])])⟩,
   ⟨"Sum", [prefixAttr "ex" "http://example.org/#"], .enum [("Foo", [], .unnamed [([], ty "String")]), ("Bar", [], .unnamed [([], ty "String")])]⟩]

/-- Whether code is generated. -/
def generates (de : Bool) (item : RItem) : Bool :=
  match deriveCode lib.toIriLib ctx false 1000 de item with
  | .ok _ => true
  | _ => false

example : declarations.all (fun d => generates true d && generates false d) = true := by decide +kernel

end Verif.RepoTests
