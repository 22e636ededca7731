import Verif.RepoTestsDef

/-!
# The test vectors of the repository

See `Verif/RepoTestsDef.lean`. The data are those of `layouts/tests/distill/`.
-/

namespace Verif.RepoTests

/-- `layouts/tests/distill/e01-layout.json`. -/
def e01Layout : Json :=
  .object [("type", .string "record"),
    ("input", .array [.string "self"]),
    ("fields", .object [("name", .object [("value", .object [("type", .string "string")]),
        ("property", .string "https://schema.org/name"),
        ("required", .boolean true)]),
      ("email", .object [("value", .object [("type", .string "string")]),
        ("property", .string "https://schema.org/email"),
        ("required", .boolean true)])])]

/-- `layouts/tests/distill/e01-in.nq`. -/
def e01Dataset : List (Quad Term) :=
  [⟨.blank "john_smith", .iri "https://schema.org/name", .literal ⟨"John Smith", .any "http://www.w3.org/2001/XMLSchema#string"⟩, none⟩]

/-- `layouts/tests/distill/e01-out.json`. -/
def e01Tree : Json :=
  .object [("name", .string "John Smith")]

example : hydrateFails e01Layout e01Dataset (.blank "john_smith") = true := by decide +kernel

example : dehydrateFails e01Layout e01Tree = true := by decide +kernel

/-- `layouts/tests/distill/t01-layout.json`. -/
def t01Layout : Json :=
  .object [("type", .string "record"),
    ("input", .array [.string "self"]),
    ("fields", .object [("name", .object [("intro", .array [.string "value"]),
        ("value", .object [("layout", .object [("input", .array [.string "self"]),
            ("type", .string "string"),
            ("resource", .string "_:self")]),
          ("input", .array [.string "_:value"])]),
        ("dataset", .array [.array [.string "_:self", .string "https://schema.org/name", .string "_:value"]])])])]

/-- `layouts/tests/distill/t01-in.nq`. -/
def t01Dataset : List (Quad Term) :=
  [⟨.blank "john_smith", .iri "https://schema.org/name", .literal ⟨"John Smith", .any "http://www.w3.org/2001/XMLSchema#string"⟩, none⟩]

/-- `layouts/tests/distill/t01-out.json`. -/
def t01Tree : Json :=
  .object [("name", .string "John Smith")]

example : hydrateTest t01Layout t01Dataset (.blank "john_smith") t01Tree = true := by decide +kernel

example : dehydrateTest t01Layout t01Dataset (.blank "john_smith") t01Tree = true := by decide +kernel

/-- `layouts/tests/distill/t02-layout.json`. -/
def t02Layout : Json :=
  .object [("type", .string "record"),
    ("fields", .object [("name", .object [("value", .object [("type", .string "string")]),
        ("property", .string "https://schema.org/name")])])]

/-- `layouts/tests/distill/t02-in.nq`. -/
def t02Dataset : List (Quad Term) :=
  [⟨.blank "john_smith", .iri "https://schema.org/name", .literal ⟨"John Smith", .any "http://www.w3.org/2001/XMLSchema#string"⟩, none⟩]

/-- `layouts/tests/distill/t02-out.json`. -/
def t02Tree : Json :=
  .object [("name", .string "John Smith")]

example : hydrateTest t02Layout t02Dataset (.blank "john_smith") t02Tree = true := by decide +kernel

example : dehydrateTest t02Layout t02Dataset (.blank "john_smith") t02Tree = true := by decide +kernel

/-- `layouts/tests/distill/t03-layout.json`. -/
def t03Layout : Json :=
  .object [("prefixes", .object [("xsd", .string "http://www.w3.org/2001/XMLSchema#"),
      ("schema", .string "https://schema.org/"),
      ("ex", .string "https://example.org/#")]),
    ("type", .string "record"),
    ("input", .array [.string "receipt"]),
    ("fields", .object [("date", .object [("intro", .array [.string "date"]),
        ("value", .object [("input", .array [.string "_:date"]),
          ("layout", .object [("type", .string "string"),
            ("input", .array [.string "value"]),
            ("resource", .string "_:value"),
            ("datatype", .string "xsd:dateTime")])]),
        ("dataset", .array [.array [.string "_:receipt", .string "ex:date", .string "_:date"]])]),
      ("bill", .object [("intro", .array [.string "bill"]),
        ("value", .object [("input", .array [.string "_:bill"]),
          ("layout", .object [("type", .string "record"),
            ("input", .array [.string "bill"]),
            ("fields", .object [("milk1L", .object [("intro", .array [.string "milk1L"]),
                ("value", .object [("input", .array [.string "_:milk1L"]),
                  ("layout", .object [("id", .string "ex:ItemByUnit"),
                    ("type", .string "record"),
                    ("input", .array [.string "item"]),
                    ("fields", .object [("unitPrice", .object [("intro", .array [.string "unitPrice"]),
                        ("value", .object [("input", .array [.string "_:unitPrice"]),
                          ("layout", .object [("type", .string "number"),
                            ("input", .array [.string "value"]),
                            ("datatype", .string "xsd:decimal"),
                            ("resource", .string "_:value")])]),
                        ("dataset", .array [.array [.string "_:item", .string "ex:unitPrice", .string "_:unitPrice"]])]),
                      ("units", .object [("intro", .array [.string "units"]),
                        ("value", .object [("input", .array [.string "_:units"]),
                          ("layout", .object [("type", .string "number"),
                            ("input", .array [.string "value"]),
                            ("datatype", .string "xsd:nonNegativeInteger"),
                            ("resource", .string "_:value")])]),
                        ("dataset", .array [.array [.string "_:item", .string "ex:units", .string "_:units"]])])])])]),
                ("dataset", .array [.array [.string "_:bill", .string "ex:milk1L", .string "_:milk1L"]])]),
              ("beef", .object [("intro", .array [.string "beef"]),
                ("value", .object [("input", .array [.string "_:beef"]),
                  ("layout", .object [("id", .string "ex:ItemByVolume"),
                    ("type", .string "record"),
                    ("input", .array [.string "item"]),
                    ("fields", .object [("volumePrice", .object [("intro", .array [.string "volumePrice"]),
                        ("value", .object [("input", .array [.string "_:volumePrice"]),
                          ("layout", .object [("type", .string "number"),
                            ("input", .array [.string "value"]),
                            ("datatype", .string "xsd:decimal"),
                            ("resource", .string "_:value")])]),
                        ("dataset", .array [.array [.string "_:item", .string "ex:volumePrice", .string "_:volumePrice"]])]),
                      ("volume", .object [("intro", .array [.string "volume"]),
                        ("value", .object [("input", .array [.string "_:volume"]),
                          ("layout", .object [("type", .string "number"),
                            ("input", .array [.string "value"]),
                            ("datatype", .string "xsd:decimal"),
                            ("resource", .string "_:value")])]),
                        ("dataset", .array [.array [.string "_:item", .string "ex:volume", .string "_:volume"]])])])])]),
                ("dataset", .array [.array [.string "_:bill", .string "ex:beef", .string "_:beef"]])])])])]),
        ("dataset", .array [.array [.string "_:receipt", .string "ex:bill", .string "_:bill"]])]),
      ("pointOfSale", .object [("intro", .array [.string "pointOfSale"]),
        ("value", .object [("input", .array [.string "_:pointOfSale"]),
          ("layout", .object [("id", .string "ex:PointOfSale"),
            ("type", .string "record"),
            ("input", .array [.string "pointOfSale"]),
            ("fields", .object [("address", .object [("intro", .array [.string "address"]),
                ("value", .object [("input", .array [.string "_:address"]),
                  ("layout", .object [("type", .string "string"),
                    ("input", .array [.string "value"]),
                    ("resource", .string "_:value"),
                    ("datatype", .string "https://schema.org/Text")])]),
                ("dataset", .array [.array [.string "_:pointOfSale", .string "schema:address", .string "_:address"]])]),
              ("till", .object [("intro", .array [.string "till"]),
                ("value", .object [("input", .array [.string "_:till"]),
                  ("layout", .object [("type", .string "number"),
                    ("input", .array [.string "value"]),
                    ("datatype", .string "xsd:nonNegativeInteger"),
                    ("resource", .string "_:value")])]),
                ("dataset", .array [.array [.string "_:pointOfSale", .string "ex:till", .string "_:till"]])])])])]),
        ("dataset", .array [.array [.string "_:receipt", .string "ex:pointOfSale", .string "_:pointOfSale"]])])])]

/-- `layouts/tests/distill/t03-in.nq`. -/
def t03Dataset : List (Quad Term) :=
  [⟨.blank "receipt", .iri "https://example.org/#bill", .blank "0", none⟩,
   ⟨.blank "receipt", .iri "https://example.org/#pointOfSale", .blank "3", none⟩,
   ⟨.blank "receipt", .iri "https://example.org/#date", .literal ⟨"2024-01-01T00:00:00Z", .any "http://www.w3.org/2001/XMLSchema#dateTime"⟩, none⟩,
   ⟨.blank "0", .iri "https://example.org/#milk1L", .blank "1", none⟩,
   ⟨.blank "0", .iri "https://example.org/#beef", .blank "2", none⟩,
   ⟨.blank "1", .iri "https://example.org/#unitPrice", .literal ⟨"1.49", .any "http://www.w3.org/2001/XMLSchema#decimal"⟩, none⟩,
   ⟨.blank "1", .iri "https://example.org/#units", .literal ⟨"2", .any "http://www.w3.org/2001/XMLSchema#nonNegativeInteger"⟩, none⟩,
   ⟨.blank "2", .iri "https://example.org/#volumePrice", .literal ⟨"10.99", .any "http://www.w3.org/2001/XMLSchema#decimal"⟩, none⟩,
   ⟨.blank "2", .iri "https://example.org/#volume", .literal ⟨"0.8", .any "http://www.w3.org/2001/XMLSchema#decimal"⟩, none⟩,
   ⟨.blank "3", .iri "https://schema.org/address", .literal ⟨"Champ-de-Mars, Paris, France", .any "https://schema.org/Text"⟩, none⟩,
   ⟨.blank "3", .iri "https://example.org/#till", .literal ⟨"2", .any "http://www.w3.org/2001/XMLSchema#nonNegativeInteger"⟩, none⟩]

/-- `layouts/tests/distill/t03-out.json`. -/
def t03Tree : Json :=
  .object [("date", .string "2024-01-01T00:00:00Z"),
    ("bill", .object [("milk1L", .object [("unitPrice", .number "1.49".toList),
        ("units", .number "2".toList)]),
      ("beef", .object [("volumePrice", .number "10.99".toList),
        ("volume", .number "0.8".toList)])]),
    ("pointOfSale", .object [("address", .string "Champ-de-Mars, Paris, France"),
      ("till", .number "2".toList)])]

example : hydrateTest t03Layout t03Dataset (.blank "receipt") t03Tree = true := by decide +kernel

example : dehydrateTest t03Layout t03Dataset (.blank "receipt") t03Tree = true := by decide +kernel

/-- `layouts/tests/distill/t04-layout.json`. -/
def t04Layout : Json :=
  .object [("prefixes", .object [("xsd", .string "http://www.w3.org/2001/XMLSchema#"),
      ("schema", .string "https://schema.org/"),
      ("ex", .string "https://example.org/#")]),
    ("type", .string "record"),
    ("fields", .object [("date", .object [("value", .object [("type", .string "string"),
          ("datatype", .string "xsd:dateTime")]),
        ("property", .string "ex:date")]),
      ("bill", .object [("value", .object [("type", .string "record"),
          ("fields", .object [("milk1L", .object [("value", .object [("id", .string "ex:ItemByUnit"),
                ("type", .string "record"),
                ("fields", .object [("unitPrice", .object [("value", .object [("type", .string "number"),
                      ("datatype", .string "xsd:decimal")]),
                    ("property", .string "ex:unitPrice")]),
                  ("units", .object [("value", .object [("type", .string "number"),
                      ("datatype", .string "xsd:nonNegativeInteger")]),
                    ("property", .string "ex:units")])])]),
              ("property", .string "ex:milk1L")]),
            ("beef", .object [("value", .object [("id", .string "ex:ItemByVolume"),
                ("type", .string "record"),
                ("fields", .object [("volumePrice", .object [("value", .object [("type", .string "number"),
                      ("datatype", .string "xsd:decimal")]),
                    ("property", .string "ex:volumePrice")]),
                  ("volume", .object [("value", .object [("type", .string "number"),
                      ("datatype", .string "xsd:decimal")]),
                    ("property", .string "ex:volume")])])]),
              ("property", .string "ex:beef")])])]),
        ("property", .string "ex:bill")]),
      ("pointOfSale", .object [("value", .object [("id", .string "ex:PointOfSale"),
          ("type", .string "record"),
          ("fields", .object [("address", .object [("value", .object [("type", .string "string"),
                ("datatype", .string "https://schema.org/Text")]),
              ("property", .string "schema:address")]),
            ("till", .object [("value", .object [("type", .string "number"),
                ("datatype", .string "xsd:nonNegativeInteger")]),
              ("property", .string "ex:till")])])]),
        ("property", .string "ex:pointOfSale")])])]

/-- `layouts/tests/distill/t04-in.nq`. -/
def t04Dataset : List (Quad Term) :=
  [⟨.blank "receipt", .iri "https://example.org/#bill", .blank "0", none⟩,
   ⟨.blank "receipt", .iri "https://example.org/#pointOfSale", .blank "3", none⟩,
   ⟨.blank "receipt", .iri "https://example.org/#date", .literal ⟨"2024-01-01T00:00:00Z", .any "http://www.w3.org/2001/XMLSchema#dateTime"⟩, none⟩,
   ⟨.blank "0", .iri "https://example.org/#milk1L", .blank "1", none⟩,
   ⟨.blank "0", .iri "https://example.org/#beef", .blank "2", none⟩,
   ⟨.blank "1", .iri "https://example.org/#unitPrice", .literal ⟨"1.49", .any "http://www.w3.org/2001/XMLSchema#decimal"⟩, none⟩,
   ⟨.blank "1", .iri "https://example.org/#units", .literal ⟨"2", .any "http://www.w3.org/2001/XMLSchema#nonNegativeInteger"⟩, none⟩,
   ⟨.blank "2", .iri "https://example.org/#volumePrice", .literal ⟨"10.99", .any "http://www.w3.org/2001/XMLSchema#decimal"⟩, none⟩,
   ⟨.blank "2", .iri "https://example.org/#volume", .literal ⟨"0.8", .any "http://www.w3.org/2001/XMLSchema#decimal"⟩, none⟩,
   ⟨.blank "3", .iri "https://schema.org/address", .literal ⟨"Champ-de-Mars, Paris, France", .any "https://schema.org/Text"⟩, none⟩,
   ⟨.blank "3", .iri "https://example.org/#till", .literal ⟨"2", .any "http://www.w3.org/2001/XMLSchema#nonNegativeInteger"⟩, none⟩]

/-- `layouts/tests/distill/t04-out.json`. -/
def t04Tree : Json :=
  .object [("date", .string "2024-01-01T00:00:00Z"),
    ("bill", .object [("milk1L", .object [("unitPrice", .number "1.49".toList),
        ("units", .number "2".toList)]),
      ("beef", .object [("volumePrice", .number "10.99".toList),
        ("volume", .number "0.8".toList)])]),
    ("pointOfSale", .object [("address", .string "Champ-de-Mars, Paris, France"),
      ("till", .number "2".toList)])]

example : hydrateTest t04Layout t04Dataset (.blank "receipt") t04Tree = true := by decide +kernel

example : dehydrateTest t04Layout t04Dataset (.blank "receipt") t04Tree = true := by decide +kernel

/-- `layouts/tests/distill/t05-layout.json`. -/
def t05Layout : Json :=
  .object [("type", .string "list"),
    ("input", .string "head"),
    ("node", .object [("intro", .string "item"),
      ("value", .object [("layout", .object [("type", .string "string"),
          ("input", .string "value"),
          ("resource", .string "_:value")]),
        ("input", .array [.string "_:item"])]),
      ("head", .string "head"),
      ("rest", .string "rest"),
      ("dataset", .array [.array [.string "_:head", .string "http://www.w3.org/1999/02/22-rdf-syntax-ns#first", .string "_:item"], .array [.string "_:head", .string "http://www.w3.org/1999/02/22-rdf-syntax-ns#rest", .string "_:rest"]])]),
    ("head", .string "_:head"),
    ("tail", .string "http://www.w3.org/1999/02/22-rdf-syntax-ns#nil")]

/-- `layouts/tests/distill/t05-in.nq`. -/
def t05Dataset : List (Quad Term) :=
  [⟨.blank "list", .iri "http://www.w3.org/1999/02/22-rdf-syntax-ns#first", .literal ⟨"foo", .any "http://www.w3.org/2001/XMLSchema#string"⟩, none⟩,
   ⟨.blank "list", .iri "http://www.w3.org/1999/02/22-rdf-syntax-ns#rest", .blank "0", none⟩,
   ⟨.blank "0", .iri "http://www.w3.org/1999/02/22-rdf-syntax-ns#first", .literal ⟨"bar", .any "http://www.w3.org/2001/XMLSchema#string"⟩, none⟩,
   ⟨.blank "0", .iri "http://www.w3.org/1999/02/22-rdf-syntax-ns#rest", .blank "1", none⟩,
   ⟨.blank "1", .iri "http://www.w3.org/1999/02/22-rdf-syntax-ns#first", .literal ⟨"baz", .any "http://www.w3.org/2001/XMLSchema#string"⟩, none⟩,
   ⟨.blank "1", .iri "http://www.w3.org/1999/02/22-rdf-syntax-ns#rest", .iri "http://www.w3.org/1999/02/22-rdf-syntax-ns#nil", none⟩]

/-- `layouts/tests/distill/t05-out.json`. -/
def t05Tree : Json :=
  .array [.string "foo", .string "bar", .string "baz"]

example : hydrateTest t05Layout t05Dataset (.blank "list") t05Tree = true := by decide +kernel

example : dehydrateTest t05Layout t05Dataset (.blank "list") t05Tree = true := by decide +kernel

/-- `layouts/tests/distill/t06-layout.json`. -/
def t06Layout : Json :=
  .object [("type", .string "list"),
    ("node", .object [("type", .string "string")])]

/-- `layouts/tests/distill/t06-in.nq`. -/
def t06Dataset : List (Quad Term) :=
  [⟨.blank "list", .iri "http://www.w3.org/1999/02/22-rdf-syntax-ns#first", .literal ⟨"foo", .any "http://www.w3.org/2001/XMLSchema#string"⟩, none⟩,
   ⟨.blank "list", .iri "http://www.w3.org/1999/02/22-rdf-syntax-ns#rest", .blank "0", none⟩,
   ⟨.blank "0", .iri "http://www.w3.org/1999/02/22-rdf-syntax-ns#first", .literal ⟨"bar", .any "http://www.w3.org/2001/XMLSchema#string"⟩, none⟩,
   ⟨.blank "0", .iri "http://www.w3.org/1999/02/22-rdf-syntax-ns#rest", .blank "1", none⟩,
   ⟨.blank "1", .iri "http://www.w3.org/1999/02/22-rdf-syntax-ns#first", .literal ⟨"baz", .any "http://www.w3.org/2001/XMLSchema#string"⟩, none⟩,
   ⟨.blank "1", .iri "http://www.w3.org/1999/02/22-rdf-syntax-ns#rest", .iri "http://www.w3.org/1999/02/22-rdf-syntax-ns#nil", none⟩]

/-- `layouts/tests/distill/t06-out.json`. -/
def t06Tree : Json :=
  .array [.string "foo", .string "bar", .string "baz"]

example : hydrateTest t06Layout t06Dataset (.blank "list") t06Tree = true := by decide +kernel

example : dehydrateTest t06Layout t06Dataset (.blank "list") t06Tree = true := by decide +kernel

/-- `layouts/tests/distill/t07-layout.json`. -/
def t07Layout : Json :=
  .object [("type", .string "set"),
    ("input", .string "subject"),
    ("item", .object [("intro", .string "item"),
      ("value", .object [("layout", .object [("type", .string "string"),
          ("input", .string "value"),
          ("resource", .string "_:value")]),
        ("input", .array [.string "_:item"])]),
      ("dataset", .array [.array [.string "_:subject", .string "http://example.org/prop", .string "_:item"]])])]

/-- `layouts/tests/distill/t07-in.nq`. -/
def t07Dataset : List (Quad Term) :=
  [⟨.blank "subject", .iri "http://example.org/prop", .literal ⟨"foo", .any "http://www.w3.org/2001/XMLSchema#string"⟩, none⟩,
   ⟨.blank "subject", .iri "http://example.org/prop", .literal ⟨"bar", .any "http://www.w3.org/2001/XMLSchema#string"⟩, none⟩,
   ⟨.blank "subject", .iri "http://example.org/prop", .literal ⟨"baz", .any "http://www.w3.org/2001/XMLSchema#string"⟩, none⟩]

/-- `layouts/tests/distill/t07-out.json`. -/
def t07Tree : Json :=
  .array [.string "bar", .string "baz", .string "foo"]

example : hydrateTest t07Layout t07Dataset (.blank "subject") t07Tree = true := by decide +kernel

example : dehydrateTest t07Layout t07Dataset (.blank "subject") t07Tree = true := by decide +kernel

/-- `layouts/tests/distill/t08-layout.json`. -/
def t08Layout : Json :=
  .object [("type", .string "set"),
    ("item", .object [("value", .object [("type", .string "string")]),
      ("property", .string "http://example.org/prop")])]

/-- `layouts/tests/distill/t08-in.nq`. -/
def t08Dataset : List (Quad Term) :=
  [⟨.blank "subject", .iri "http://example.org/prop", .literal ⟨"foo", .any "http://www.w3.org/2001/XMLSchema#string"⟩, none⟩,
   ⟨.blank "subject", .iri "http://example.org/prop", .literal ⟨"bar", .any "http://www.w3.org/2001/XMLSchema#string"⟩, none⟩,
   ⟨.blank "subject", .iri "http://example.org/prop", .literal ⟨"baz", .any "http://www.w3.org/2001/XMLSchema#string"⟩, none⟩]

/-- `layouts/tests/distill/t08-out.json`. -/
def t08Tree : Json :=
  .array [.string "bar", .string "baz", .string "foo"]

example : hydrateTest t08Layout t08Dataset (.blank "subject") t08Tree = true := by decide +kernel

example : dehydrateTest t08Layout t08Dataset (.blank "subject") t08Tree = true := by decide +kernel

/-- `layouts/tests/distill/t09-layout.json`. -/
def t09Layout : Json :=
  .object [("type", .string "tuple"),
    ("input", .string "subject"),
    ("items", .array [.object [("intro", .string "item"),
        ("value", .object [("layout", .object [("type", .string "boolean"),
            ("input", .string "value"),
            ("resource", .string "_:value"),
            ("datatype", .string "http://www.w3.org/2001/XMLSchema#boolean")]),
          ("input", .array [.string "_:item"])]),
        ("dataset", .array [.array [.string "_:subject", .string "http://example.org/prop1", .string "_:item"]])], .object [("intro", .string "item"),
        ("value", .object [("layout", .object [("type", .string "number"),
            ("input", .string "value"),
            ("resource", .string "_:value"),
            ("datatype", .string "http://www.w3.org/2001/XMLSchema#integer")]),
          ("input", .array [.string "_:item"])]),
        ("dataset", .array [.array [.string "_:subject", .string "http://example.org/prop2", .string "_:item"]])], .object [("intro", .string "item"),
        ("value", .object [("layout", .object [("type", .string "string"),
            ("input", .string "value"),
            ("resource", .string "_:value"),
            ("datatype", .string "http://www.w3.org/2001/XMLSchema#string")]),
          ("input", .array [.string "_:item"])]),
        ("dataset", .array [.array [.string "_:subject", .string "http://example.org/prop3", .string "_:item"]])]])]

/-- `layouts/tests/distill/t09-in.nq`. -/
def t09Dataset : List (Quad Term) :=
  [⟨.blank "subject", .iri "http://example.org/prop1", .literal ⟨"true", .any "http://www.w3.org/2001/XMLSchema#boolean"⟩, none⟩,
   ⟨.blank "subject", .iri "http://example.org/prop2", .literal ⟨"12", .any "http://www.w3.org/2001/XMLSchema#integer"⟩, none⟩,
   ⟨.blank "subject", .iri "http://example.org/prop3", .literal ⟨"string", .any "http://www.w3.org/2001/XMLSchema#string"⟩, none⟩]

/-- `layouts/tests/distill/t09-out.json`. -/
def t09Tree : Json :=
  .array [.boolean true, .number "12".toList, .string "string"]

example : hydrateTest t09Layout t09Dataset (.blank "subject") t09Tree = true := by decide +kernel

example : dehydrateTest t09Layout t09Dataset (.blank "subject") t09Tree = true := by decide +kernel

/-- `layouts/tests/distill/t10-layout.json`. -/
def t10Layout : Json :=
  .object [("type", .string "tuple"),
    ("items", .array [.object [("value", .object [("type", .string "boolean")]),
        ("property", .string "http://example.org/prop1")], .object [("value", .object [("type", .string "number"),
          ("datatype", .string "http://www.w3.org/2001/XMLSchema#integer")]),
        ("property", .string "http://example.org/prop2")], .object [("value", .object [("type", .string "string")]),
        ("property", .string "http://example.org/prop3")]])]

/-- `layouts/tests/distill/t10-in.nq`. -/
def t10Dataset : List (Quad Term) :=
  [⟨.blank "subject", .iri "http://example.org/prop1", .literal ⟨"true", .any "http://www.w3.org/2001/XMLSchema#boolean"⟩, none⟩,
   ⟨.blank "subject", .iri "http://example.org/prop2", .literal ⟨"12", .any "http://www.w3.org/2001/XMLSchema#integer"⟩, none⟩,
   ⟨.blank "subject", .iri "http://example.org/prop3", .literal ⟨"string", .any "http://www.w3.org/2001/XMLSchema#string"⟩, none⟩]

/-- `layouts/tests/distill/t10-out.json`. -/
def t10Tree : Json :=
  .array [.boolean true, .number "12".toList, .string "string"]

example : hydrateTest t10Layout t10Dataset (.blank "subject") t10Tree = true := by decide +kernel

example : dehydrateTest t10Layout t10Dataset (.blank "subject") t10Tree = true := by decide +kernel

/-- `layouts/tests/distill/t11-layout.json`. -/
def t11Layout : Json :=
  .object [("type", .string "record"),
    ("fields", .object [("id", .object [("intro", .array []),
        ("value", .object [("layout", .object [("type", .string "id")]),
          ("input", .string "_:self")])]),
      ("name", .object [("value", .object [("type", .string "string")]),
        ("property", .string "https://schema.org/name")])])]

/-- `layouts/tests/distill/t11-in.nq`. -/
def t11Dataset : List (Quad Term) :=
  [⟨.iri "https://example.org/JohnSmith", .iri "https://schema.org/name", .literal ⟨"John Smith", .any "http://www.w3.org/2001/XMLSchema#string"⟩, none⟩]

/-- `layouts/tests/distill/t11-out.json`. -/
def t11Tree : Json :=
  .object [("id", .string "https://example.org/JohnSmith"),
    ("name", .string "John Smith")]

example : hydrateTest t11Layout t11Dataset (.iri "https://example.org/JohnSmith") t11Tree = true := by decide +kernel

example : dehydrateTest t11Layout t11Dataset (.iri "https://example.org/JohnSmith") t11Tree = true := by decide +kernel

/-- `layouts/tests/distill/t12-layout.json`. -/
def t12Layout : Json :=
  .object [("type", .string "set"),
    ("item", .object [("value", .object [("type", .string "sum"),
        ("variants", .object [("integer", .object [("value", .object [("type", .string "number"),
              ("datatype", .string "http://www.w3.org/2001/XMLSchema#integer")])]),
          ("boolean", .object [("value", .object [("type", .string "boolean")])]),
          ("string", .object [("value", .object [("type", .string "string")])])])]),
      ("property", .string "http://example.org/prop")])]

/-- `layouts/tests/distill/t12-in.nq`. -/
def t12Dataset : List (Quad Term) :=
  [⟨.blank "subject", .iri "http://example.org/prop", .literal ⟨"true", .any "http://www.w3.org/2001/XMLSchema#boolean"⟩, none⟩,
   ⟨.blank "subject", .iri "http://example.org/prop", .literal ⟨"12", .any "http://www.w3.org/2001/XMLSchema#integer"⟩, none⟩,
   ⟨.blank "subject", .iri "http://example.org/prop", .literal ⟨"string", .any "http://www.w3.org/2001/XMLSchema#string"⟩, none⟩]

/-- `layouts/tests/distill/t12-out.json`. -/
def t12Tree : Json :=
  .array [.boolean true, .number "12".toList, .string "string"]

example : hydrateTest t12Layout t12Dataset (.blank "subject") t12Tree = true := by decide +kernel

example : dehydrateTest t12Layout t12Dataset (.blank "subject") t12Tree = true := by decide +kernel

/-- `layouts/tests/distill/t13-layout.json`. -/
def t13Layout : Json :=
  .object [("type", .string "unit"),
    ("const", .string "Hello World!"),
    ("dataset", .array [.array [.string "_:self", .string "http://example.org/prop", .string "http://example.org/HelloWorld"]])]

/-- `layouts/tests/distill/t13-in.nq`. -/
def t13Dataset : List (Quad Term) :=
  [⟨.blank "subject", .iri "http://example.org/prop", .iri "http://example.org/HelloWorld", none⟩]

/-- `layouts/tests/distill/t13-out.json`. -/
def t13Tree : Json :=
  .string "Hello World!"

example : hydrateTest t13Layout t13Dataset (.blank "subject") t13Tree = true := by decide +kernel

example : dehydrateTest t13Layout t13Dataset (.blank "subject") t13Tree = true := by decide +kernel

/-- `layouts/tests/distill/t14-layout.json`. -/
def t14Layout : Json :=
  .object [("type", .string "record"),
    ("fields", .object [("foo", .object [("value", .object [("id", .string "https://example.org/#FieldLayout"),
          ("type", .string "boolean")]),
        ("property", .string "https://example.org/#foo")]),
      ("bar", .object [("value", .string "https://example.org/#FieldLayout"),
        ("property", .string "https://example.org/#bar")])])]

/-- `layouts/tests/distill/t14-in.nq`. -/
def t14Dataset : List (Quad Term) :=
  [⟨.blank "subject", .iri "https://example.org/#foo", .literal ⟨"true", .any "http://www.w3.org/2001/XMLSchema#boolean"⟩, none⟩,
   ⟨.blank "subject", .iri "https://example.org/#bar", .literal ⟨"false", .any "http://www.w3.org/2001/XMLSchema#boolean"⟩, none⟩]

/-- `layouts/tests/distill/t14-out.json`. -/
def t14Tree : Json :=
  .object [("foo", .boolean true),
    ("bar", .boolean false)]

example : hydrateTest t14Layout t14Dataset (.blank "subject") t14Tree = true := by decide +kernel

example : dehydrateTest t14Layout t14Dataset (.blank "subject") t14Tree = true := by decide +kernel

/-- `layouts/tests/distill/t15-layout.json`. -/
def t15Layout : Json :=
  .object [("type", .string "unit"),
    ("dataset", .array [.array [.string "_:self", .string "https://example.org/#foo", .object [("value", .string "Foo"),
          ("type", .string "https://example.org/#Type")]]])]

/-- `layouts/tests/distill/t15-in.nq`. -/
def t15Dataset : List (Quad Term) :=
  [⟨.blank "subject", .iri "https://example.org/#foo", .literal ⟨"Foo", .any "https://example.org/#Type"⟩, none⟩]

/-- `layouts/tests/distill/t15-out.json`. -/
def t15Tree : Json :=
  .null

example : hydrateTest t15Layout t15Dataset (.blank "subject") t15Tree = true := by decide +kernel

example : dehydrateTest t15Layout t15Dataset (.blank "subject") t15Tree = true := by decide +kernel

/-- `layouts/tests/distill/t16-layout.json`. -/
def t16Layout : Json :=
  .object [("type", .string "record"),
    ("fields", .object [("name", .object [("property", .string "https://schema.org/name"),
        ("value", .object [("type", .string "string")])]),
      ("email", .object [("property", .string "https://schema.org/email"),
        ("value", .object [("type", .string "string")])]),
      ("achievement", .object [("intro", .array []),
        ("value", .object [("input", .array [.string "_:self"]),
          ("layout", .object [("type", .string "sum"),
            ("variants", .object [("projectExecution", .object [("intro", .array []),
                ("value", .object [("input", .array [.string "_:self"]),
                  ("layout", .object [("type", .string "unit"),
                    ("const", .string "projectExecution"),
                    ("dataset", .array [.array [.string "_:self", .string "https://purl.imsglobal.org/spec/vc/ob/vocab.html#achievement", .string "http://example.com/#projectExecution"], .array [.string "http://example.com/#projectExecution", .string "http://www.w3.org/1999/02/22-rdf-syntax-ns#type", .string "https://purl.imsglobal.org/spec/vc/ob/vocab.html#Achievement"], .array [.string "http://example.com/#projectExecution", .string "https://schema.org/name", .object [("value", .string "Project execution"),
                          ("language", .string "en")]], .array [.string "http://example.com/#projectExecution", .string "https://purl.imsglobal.org/spec/vc/ob/vocab.html#Criteria", .string "http://example.com/#projectExecutionCriteria"], .array [.string "http://example.com/#projectExecutionCriteria", .string "https://purl.imsglobal.org/spec/vc/ob/vocab.html#narrative", .object [("value", .string "Contribute to solution design and implementation."),
                          ("language", .string "en")]]])])])])])])])])])]

/-- `layouts/tests/distill/t16-in.nq`. -/
def t16Dataset : List (Quad Term) :=
  [⟨.blank "subject", .iri "https://schema.org/name", .literal ⟨"John Smith", .any "http://www.w3.org/2001/XMLSchema#string"⟩, none⟩,
   ⟨.blank "subject", .iri "https://schema.org/email", .literal ⟨"john.smith@example.com", .any "http://www.w3.org/2001/XMLSchema#string"⟩, none⟩,
   ⟨.blank "subject", .iri "https://purl.imsglobal.org/spec/vc/ob/vocab.html#achievement", .iri "http://example.com/#projectExecution", none⟩,
   ⟨.iri "http://example.com/#projectExecution", .iri "http://www.w3.org/1999/02/22-rdf-syntax-ns#type", .iri "https://purl.imsglobal.org/spec/vc/ob/vocab.html#Achievement", none⟩,
   ⟨.iri "http://example.com/#projectExecution", .iri "https://schema.org/name", .literal ⟨"Project execution", .langString "en"⟩, none⟩,
   ⟨.iri "http://example.com/#projectExecution", .iri "https://purl.imsglobal.org/spec/vc/ob/vocab.html#Criteria", .iri "http://example.com/#projectExecutionCriteria", none⟩,
   ⟨.iri "http://example.com/#projectExecutionCriteria", .iri "https://purl.imsglobal.org/spec/vc/ob/vocab.html#narrative", .literal ⟨"Contribute to solution design and implementation.", .langString "en"⟩, none⟩]

/-- `layouts/tests/distill/t16-out.json`. -/
def t16Tree : Json :=
  .object [("name", .string "John Smith"),
    ("email", .string "john.smith@example.com"),
    ("achievement", .string "projectExecution")]

example : dehydrateTest t16Layout t16Dataset (.blank "subject") t16Tree = true := by decide +kernel

/-- `layouts/tests/distill/t17-layout.json`. -/
def t17Layout : Json :=
  .object [("type", .string "set"),
    ("item", .object [("value", .object [("type", .string "sum"),
        ("variants", .object [("integer", .object [("value", .object [("type", .string "number"),
              ("datatype", .string "http://www.w3.org/2001/XMLSchema#integer")])]),
          ("boolean", .object [("value", .object [("type", .string "boolean")])]),
          ("string", .object [("value", .object [("type", .string "string")])])])]),
      ("property", .string "http://example.org/prop")])]

/-- `layouts/tests/distill/t17-in.nq`. -/
def t17Dataset : List (Quad Term) :=
  []

/-- `layouts/tests/distill/t17-out.json`. -/
def t17Tree : Json :=
  .array []

example : hydrateTest t17Layout t17Dataset (.blank "subject") t17Tree = true := by decide +kernel

example : dehydrateTest t17Layout t17Dataset (.blank "subject") t17Tree = true := by decide +kernel

/-- `layouts/tests/distill/t18-layout.json`. -/
def t18Layout : Json :=
  .object [("type", .string "record"),
    ("fields", .object [("evidence", .object [("intro", .array []),
        ("value", .object [("input", .array [.string "_:self"]),
          ("layout", .object [("type", .string "set"),
            ("input", .array [.string "self"]),
            ("intro", .array []),
            ("item", .object [("intro", .array [.string "value"]),
              ("property", .string "https://www.w3.org/2018/credentials#evidence"),
              ("value", .object [("input", .array [.string "_:value"]),
                ("layout", .object [("type", .string "record"),
                  ("fields", .object [("id", .object [("intro", .array []),
                      ("value", .object [("input", .string "_:self"),
                        ("layout", .object [("type", .string "string")])])]),
                    ("type", .object [("intro", .array []),
                      ("value", .object [("input", .array [.string "_:self"]),
                        ("layout", .object [("type", .string "unit"),
                          ("const", .array [.string "Evidence"])])])])])])])])])])])])]

/-- `layouts/tests/distill/t18-in.nq`. -/
def t18Dataset : List (Quad Term) :=
  []

/-- `layouts/tests/distill/t18-out.json`. -/
def t18Tree : Json :=
  .object [("evidence", .array [])]

example : hydrateTest t18Layout t18Dataset (.blank "subject") t18Tree = true := by decide +kernel

example : dehydrateTest t18Layout t18Dataset (.blank "subject") t18Tree = true := by decide +kernel

end Verif.RepoTests
