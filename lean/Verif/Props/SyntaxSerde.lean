import Verif.SyntaxSerdeLemmas
import Verif.Props.SyntaxParse

/-!
# C66: the two readers of layout definitions

The tool `treeldr` reads layout files with one reader (`TryFromJson`: `parseLayout`), the macros and `tldr-rs` read them with
another (`serde`: `Serde.layout`). They should agree on every document.
-/

set_option linter.unusedSectionVars false
set_option linter.unusedSimpArgs false

namespace Verif.Props

variable {lib : ParseLib}

/-- A document, the items of its arrays, the members of its objects, and so on. -/
inductive Within : Json → Json → Prop
  | self (j : Json) : Within j j
  | item {d j : Json} {l : List Json} (hj : j ∈ l) (h : Within d j) : Within d (.array l)
  | member {d : Json} {e : String × Json} {o : JsonObject} (he : e ∈ o) (h : Within d e.2) : Within d (.object o)

/-- A literal with a language tag. -/
def TaggedLiteral (d : Json) : Prop :=
  ∃ o v t, d = .object o ∧ o.lookup "value" = some (.string v) ∧ o.lookup "language" = some (.string t)

/-- The text of a number is an integer of 64 bits: signed, or digits only and below 2^64. -/
def IsInt64 (s : List Char) : Prop :=
  (∃ z, I64Doc s z) ∨ (s ≠ [] ∧ (∀ c ∈ s, c.isDigit = true) ∧ Nat.ofDigitChars 10 s 0 < 2 ^ 64)

mutual
theorem plain_of : ∀ j : Json, (∀ d, Within d j → (∀ s, d = .number s → IsInt64 s) ∧ ¬ TaggedLiteral d) → j.agreed = true
  | .null, _ => by simp [Json.agreed]
  | .boolean _, _ => by simp [Json.agreed]
  | .string _, _ => by simp [Json.agreed]
  | .number s, h => by
    rcases (h _ (.self _)).1 s rfl with ⟨z, hz⟩ | ⟨h1, h2, h3⟩
    · simp [Json.agreed, parseI64_ok.2 hz]
    · have : parseUnsigned64 s = some (Nat.ofDigitChars 10 s 0) := if_pos ⟨h1, List.all_eq_true.2 h2, h3⟩
      simp [Json.agreed, this]
  | .array l, h => by
    simp only [Json.agreed]
    exact plainList_of l fun j hj d hd => h d (.item hj hd)
  | .object o, h => by
    simp only [Json.agreed, Bool.and_eq_true]
    refine ⟨?_, plainEntries_of o fun e he d hd => h d (.member he hd)⟩
    split
    next v t hv ht => exact absurd ⟨o, v, t, rfl, hv, ht⟩ (h _ (.self _)).2
    next => rfl

theorem plainList_of : ∀ l : List Json, (∀ j ∈ l, ∀ d, Within d j → (∀ s, d = .number s → IsInt64 s) ∧ ¬ TaggedLiteral d) →
    Json.agreedList l = true
  | [], _ => by simp [Json.agreedList]
  | j :: l, h => by
    simp only [Json.agreedList, Bool.and_eq_true]
    exact ⟨plain_of j (h j (by simp)), plainList_of l fun j hj => h j (by simp [hj])⟩

theorem plainEntries_of : ∀ l : List (String × Json),
    (∀ e ∈ l, ∀ d, Within d e.2 → (∀ s, d = .number s → IsInt64 s) ∧ ¬ TaggedLiteral d) → Json.agreedEntries l = true
  | [], _ => by simp [Json.agreedEntries]
  | (k, j) :: l, h => by
    simp only [Json.agreedEntries, Bool.and_eq_true]
    exact ⟨plain_of j (h (k, j) (by simp)), plainEntries_of l fun j hj => h j (by simp [hj])⟩
end

mutual
theorem noNumber_of : ∀ j : Json, (∀ d, Within d j → ∀ s, d ≠ .number s) → j.noNumber = true
  | .null, _ => by simp [Json.noNumber]
  | .boolean _, _ => by simp [Json.noNumber]
  | .string _, _ => by simp [Json.noNumber]
  | .number s, h => absurd rfl (h _ (.self _) s)
  | .array l, h => by
    simp only [Json.noNumber]
    exact noNumberList_of l fun j hj d hd => h d (.item hj hd)
  | .object o, h => by
    simp only [Json.noNumber]
    exact noNumberEntries_of o fun e he d hd => h d (.member he hd)

theorem noNumberList_of : ∀ l : List Json, (∀ j ∈ l, ∀ d, Within d j → ∀ s, d ≠ .number s) → Json.noNumberList l = true
  | [], _ => by simp [Json.noNumberList]
  | j :: l, h => by
    simp only [Json.noNumberList, Bool.and_eq_true]
    exact ⟨noNumber_of j (h j (by simp)), noNumberList_of l fun j hj => h j (by simp [hj])⟩

theorem noNumberEntries_of : ∀ l : List (String × Json),
    (∀ e ∈ l, ∀ d, Within d e.2 → ∀ s, d ≠ .number s) → Json.noNumberEntries l = true
  | [], _ => by simp [Json.noNumberEntries]
  | (k, j) :: l, h => by
    simp only [Json.noNumberEntries, Bool.and_eq_true]
    exact ⟨noNumber_of j (h (k, j) (by simp)), noNumberEntries_of l fun j hj => h j (by simp [hj])⟩
end

/-- **C66**, as far as it holds. The macros read what `treeldr` reads from every document that `treeldr` accepts, unless it has
a number or a literal with a language tag. -/
theorem C66_partial (j : Json) (l : SLayout) (h : parseLayout lib j = .ok l)
    (hn : ∀ d, Within d j → (∀ s, d ≠ .number s) ∧ ¬ TaggedLiteral d) : Serde.layout lib j = some l :=
  Serde.layout_of_doc (plain_of j fun d hd => ⟨fun s hs => absurd hs ((hn d hd).1 s), (hn d hd).2⟩)
    (noNumber_of j fun d hd => (hn d hd).1) (parseLayout_ok.1 h)

/-- The same for applications that deserialize a `serde_json::Value` rather than a text: they also read integers of 64 bits as
`treeldr` does. -/
theorem C66_value_partial (other : List Char → Json) (j : Json) (l : SLayout) (h : parseLayout lib j = .ok l)
    (hn : ∀ d, Within d j → (∀ s, d = .number s → IsInt64 s) ∧ ¬ TaggedLiteral d) : Serde.layoutOfValue lib other j = some l :=
  Serde.layoutOfValue_of_doc (plain_of j hn) (parseLayout_ok.1 h)

/-- The documents on which the readers agree are at least those for which a simple check succeeds. -/
theorem C66_check (j : Json) (l : SLayout) (h : parseLayout lib j = .ok l) (hn : j.agreed = true)
    (hN : j.noNumber = true) : Serde.layout lib j = some l :=
  Serde.layout_of_doc hn hN (parseLayout_ok.1 h)

/-- A record is read by both. -/
example : Serde.layout SpExample.lib (.object SpExample.doc) = some SpExample.layout :=
  C66_check (lib := SpExample.lib) (.object SpExample.doc) SpExample.layout SpExample.parse_doc (by decide +kernel)
    (by decide +kernel)

/-- The hypotheses of `C66_partial`. -/
example : ∀ d, Within d (.object [("type", .string "id")]) → (∀ s, d ≠ .number s) ∧ ¬ TaggedLiteral d := by
  intro d hd
  cases hd with
  | self => exact ⟨by simp, by rintro ⟨o, v, t, h, hv, -⟩; injection h with h; subst h; simp [List.lookup] at hv⟩
  | member he h =>
    simp only [List.mem_cons, List.not_mem_nil, or_false] at he
    subst he
    cases h
    exact ⟨by simp, by rintro ⟨o, v, t, h, -⟩; cases h⟩

namespace Witness

/-- `{ "type": "boolean", "resource": { "value": "a", "language": "en" } }`. -/
def tagged : Json := .object [("type", .string "boolean"), ("resource", .object [("value", .string "a"), ("language", .string "en")])]

/-- **C66** is false of language tags, which the macros drop: the literal becomes an `xsd:string`. -/
theorem C66_language :
    parseLayout SpExample.lib tagged = .ok (.boolean {} (some (.literal "a" (.language "en"))) none) ∧
    Serde.layout SpExample.lib tagged = some (.boolean {} (some (.literal "a" (.iri xsdString))) none) :=
  ⟨by rfl, by rfl⟩

/-- `{ "type": "unit", "const": 12 }`. -/
def constant : Json := .object [("type", .string "unit"), ("const", .number ['1', '2'])]

/-- The constant read by `treeldr` is the number 12; the macros read a record with one field. -/
theorem C66_number :
    (match parseLayout SpExample.lib constant with
      | .ok (.unit _ (.literal (.number _))) => true
      | _ => false) = true ∧
    Serde.layout SpExample.lib constant = some (.unit {} (.map [(Value.text "$serde_json::private::Number", Value.text "12")])) :=
  ⟨by decide +kernel, by rfl⟩

/-- `{ "type": "union", "extra": { "ex:version": 1 } }`. -/
def extra : Json := .object [("type", .string "union"), ("extra", .object [("ex:version", .number ['1'])])]

/-- Extra properties whose value is a number are accepted by `treeldr` and rejected by the macros. -/
theorem C66_extra : (parseLayout SpExample.lib extra).isOk = true ∧ Serde.layout SpExample.lib extra = none :=
  ⟨by decide +kernel, by rfl⟩

/-- The same documents, deserialized from a `serde_json::Value`: integers are read. -/
theorem C66_value_numbers (other : List Char → Json) :
    Serde.layoutOfValue SpExample.lib other constant = (match parseLayout SpExample.lib constant with
      | .ok l => some l
      | _ => none) ∧
    Serde.layoutOfValue SpExample.lib other extra = some (.union { extra := [("ex:version", .number 1)] }) := by
  refine ⟨by rfl, Serde.layoutOfValue_of_doc (by decide +kernel) (parseLayout_ok.1 ?_)⟩
  rfl

/-- The hypotheses of `C66_value_partial`, with a number. -/
example : ∀ d, Within d extra → (∀ s, d = .number s → IsInt64 s) ∧ ¬ TaggedLiteral d := by
  intro d hd
  cases hd with
  | self => exact ⟨by simp [extra], by rintro ⟨o, v, t, h, hv, -⟩; injection h with h; subst h; simp [List.lookup] at hv⟩
  | member he h =>
    simp only [List.mem_cons, List.not_mem_nil, or_false] at he
    rcases he with rfl | rfl
    · cases h
      exact ⟨by simp, by rintro ⟨o, v, t, h, -⟩; cases h⟩
    · cases h with
      | self => exact ⟨by simp, by rintro ⟨o, v, t, h, hv, -⟩; injection h with h; subst h; simp [List.lookup] at hv⟩
      | member he h =>
        simp only [List.mem_cons, List.not_mem_nil, or_false] at he
        subst he
        cases h
        refine ⟨fun s hs => ?_, by rintro ⟨o, v, t, h, -⟩; cases h⟩
        injection hs with hs
        subst hs
        exact .inl ⟨1, parseI64_ok.1 (by decide +kernel)⟩

/-- `{ "type": "unit", "const": [n] }`. -/
def listed (s : List Char) : Json := .object [("type", .string "unit"), ("const", .array [.number s])]

/-- The largest integer without sign is read by `treeldr` and from a `serde_json::Value`, to the same number. -/
theorem C66_value_unsigned (other : List Char → Json) :
    ∃ l, parseLayout SpExample.lib (listed "18446744073709551615".toList) = .ok l ∧
      Serde.layoutOfValue SpExample.lib other (listed "18446744073709551615".toList) = some l := by
  refine ⟨_, rfl, Serde.layoutOfValue_of_doc (by decide +kernel) (parseLayout_ok.1 rfl)⟩

/-- Other numbers are read as what `serde` buffers for them, also in arrays: if that is a text, so is the constant. -/
theorem C66_value_other (t : String) :
    Serde.layoutOfValue SpExample.lib (fun _ => .string t) (listed "18446744073709551616".toList) =
      some (.unit {} (.list [Value.text t])) ∧
    Serde.layoutOfValue SpExample.lib (fun _ => .string t) (listed "1.5".toList) = some (.unit {} (.list [Value.text t])) :=
  ⟨by rfl, by rfl⟩

/-- A language tag is dropped there too. -/
theorem C66_value_language (other : List Char → Json) :
    Serde.layoutOfValue SpExample.lib other tagged = some (.boolean {} (some (.literal "a" (.iri xsdString))) none) := by rfl

/-- `{ "type": "id", "resource": null }`. -/
def nothing : Json := .object [("type", .string "id"), ("resource", .null)]

/-- `{ "type": "list", "node": ["h", "r", "v", "ex:L"] }`: the fields of the node in the order of their declaration. -/
def positional : Json :=
  .object [("type", .string "list"), ("node", .array [.string "h", .string "r", .string "v", .string "ex:L"])]

/-- `{ "type": "tuple", "items": [{ "value": true }] }`: a nested Boolean. -/
def nested : Json := .object [("type", .string "tuple"), ("items", .array [.object [("value", .boolean true)]])]

/-- `{ "type": "boolean", "resource": { "value": "a", "lang": "en" } }`: a misspelled member. -/
def misspelled : Json := .object [("type", .string "boolean"), ("resource", .object [("value", .string "a"), ("lang", .string "en")])]

/-- `{ "type": "union", "extra": { "ex:version": ["1", "ex:Version"] } }`: the literal and its type, in an array. -/
def typedArray : Json :=
  .object [("type", .string "union"), ("extra", .object [("ex:version", .array [.string "1", .string "ex:Version"])])]

/-- Documents that the macros accept and `treeldr` rejects. -/
theorem C66_only_macros :
    (parseLayout SpExample.lib nothing).isOk = false ∧ Serde.layout SpExample.lib nothing = some (.id {} none none) ∧
    (parseLayout SpExample.lib positional).isOk = false ∧ Serde.layout SpExample.lib positional =
      some (.ordered {} (.node "h" "r" (.one "v") (.layout (.ref "ex:L")) none) (.var "self") (.iri rdfNil)) ∧
    (parseLayout SpExample.lib nested).isOk = false ∧ Serde.layout SpExample.lib nested =
      some (.sized {} [.mk (.one "value") (.layout (.layout (.bool true))) [] none]) ∧
    (parseLayout SpExample.lib misspelled).isOk = false ∧ Serde.layout SpExample.lib misspelled =
      some (.boolean {} (some (.literal "a" (.iri xsdString))) none) ∧
    (parseLayout SpExample.lib typedArray).isOk = false ∧ Serde.layout SpExample.lib typedArray =
      some (.union { extra := [("ex:version", .typed "1" "ex:Version")] }) := by
  refine ⟨?_, ?_, ?_, ?_, ?_, ?_, ?_, ?_, ?_, ?_⟩ <;> rfl

/-- Sequences may have as many items as the structure has members, and no more. -/
example : Serde.fields ["a", "b"] (.array [.null, .null]) ≠ none ∧ Serde.fields ["a", "b"] (.array [.null, .null, .null]) = none :=
  ⟨by simp [Serde.fields], rfl⟩

end Witness

end Verif.Props
