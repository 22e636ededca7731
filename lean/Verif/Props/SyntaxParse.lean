import Verif.SyntaxParseTotal
import Verif.Props.Syntax

/-!
# Properties of the parser of layout definitions
-/

set_option linter.unusedSectionVars false
set_option linter.unusedSimpArgs false

namespace Verif

namespace SpExample

/-- The library functions of `SyExample`; IRI references contain no space. -/
def lib : ParseLib where
  toIriLib := { SyExample.lib with isIriRef := fun s => !s.toList.contains ' ',
                                     isBlankId := fun s => s.toList.take 2 == ['_', ':'] }
  leIri a b := strLe a b

/-- A record with an identifier, a prefix, and a nested list of numbers:
`{ "type": "record", "id": "ex:Point", "prefixes": { "ex": "https://example.org/" }, "fields": { "coordinates": {
"property": "ex:coordinates", "required": true, "value": { "type": "list", "node": { "type": "number", "datatype":
"xs:integer" } } } } }`. -/
def doc : JsonObject :=
  [("type", .string "record"), ("id", .string "ex:Point"),
   ("prefixes", .object [("ex", .string "https://example.org/")]),
   ("fields", .object [("coordinates", .object
      [("property", .string "ex:coordinates"), ("required", .boolean true),
       ("value", .object [("type", .string "list"),
          ("node", .object [("type", .string "number"), ("datatype", .string "xs:integer")])])])])]

/-- What it stands for. -/
def layout : SLayout :=
  .product { id := some "ex:Point", prefixes := [("ex", "https://example.org/")] }
    [(Value.text "coordinates",
      .mk (.one "value")
        (.layout (.layout (.ordered {} (.layout (.layout (.number {} none "xs:integer"))) (.var "self") (.iri rdfNil))))
        [] (some (.iri "ex:coordinates")) true)]

theorem parse_doc : parseLayout lib (.object doc) = .ok layout := by rfl

end SpExample

namespace Props

variable {lib : ParseLib}

/-- The members defined for each kind of layout: those that all layouts have, and those of the kind. -/
def definedMembers (ty : String) : List String :=
  ["type", "base", "prefixes", "id", "input", "intro", "dataset", "extra"] ++
    (([("id", ["pattern", "resource"]), ("unit", ["const"]), ("boolean", ["resource", "datatype"]),
      ("number", ["resource", "datatype"]), ("bytes", ["resource", "datatype"]),
      ("string", ["pattern", "resource", "datatype"]), ("record", ["fields"]), ("sum", ["variants"]),
      ("list", ["node", "head", "tail"]), ("set", ["item"]), ("tuple", ["items"]), ("union", []),
      ("intersection", [])] : List (String × List String)).lookup ty).getD []

/-- **C27**. The parser accepts exactly the documents of the grammar `LayoutDoc`, for which it returns the definition that
the grammar gives; in the grammar each object has the members of its kind and no other, at most once each, in any order. -/
theorem C27_grammar (j : Json) (l : SLayout) : parseLayout lib j = .ok l ↔ LayoutDoc lib j l := parseLayout_ok

/-- **C27**. An object that is accepted has one `type`, no two members of the same name, and only members that this type of
layout defines. -/
theorem C27_members (o : JsonObject) (l : SLayout) (h : parseLayout lib (.object o) = .ok l) :
    ∃ ty, ("type", Json.string ty) ∈ o ∧ (o.map Prod.fst).Nodup ∧ ∀ e ∈ o, e.1 ∈ definedMembers ty := by
  have hl := parseLayout_ok.1 h
  cases hl with
  | object hl =>
    have key : ∀ {ty ms hd}, KindDoc lib o ty ms hd → ms ++ headerMembers ⊆ definedMembers ty →
        ∃ ty, ("type", Json.string ty) ∈ o ∧ (o.map Prod.fst).Nodup ∧ ∀ e ∈ o, e.1 ∈ definedMembers ty :=
      fun hk hs => ⟨_, mem_of_lookup_obj hk.type, hk.members.1, fun e he => hs (hk.members.2 e he)⟩
    cases hl with
    | unit hk => exact key hk (by decide)
    | boolean hk => exact key hk (by decide)
    | number hk => exact key hk (by decide)
    | byteString hk => exact key hk (by decide)
    | textString hk => exact key hk (by decide)
    | id hk => exact key hk (by decide)
    | record hk => exact key hk (by decide)
    | sum hk => exact key hk (by decide)
    | list hk => exact key hk (by decide)
    | set hk => exact key hk (by decide)
    | tuple hk => exact key hk (by decide)
    | union hk => exact key hk (by decide)
    | intersection hk => exact key hk (by decide)

/-- **C27**. An object with a member that its type does not define is rejected. -/
theorem C27_unknown (o : JsonObject) (ty k : String) (v : Json) (ht : ("type", Json.string ty) ∈ o) (hk : (k, v) ∈ o)
    (hu : k ∉ definedMembers ty) (l : SLayout) : parseLayout lib (.object o) ≠ .ok l := by
  intro h
  obtain ⟨ty', ht', hn, hm⟩ := C27_members o l h
  have e := List.inj_on_of_nodup_map hn ht ht' rfl
  simp only [Prod.mk.injEq, Json.string.injEq, true_and] at e
  subst e
  exact hu (hm _ hk)

/-- **C27**. An object with two members of the same name is rejected. -/
theorem C27_duplicate (a b c : JsonObject) (k : String) (v w : Json) (l : SLayout) :
    parseLayout lib (.object (a ++ (k, v) :: b ++ (k, w) :: c)) ≠ .ok l := by
  intro h
  obtain ⟨ty, -, hn, -⟩ := C27_members _ l h
  simp [List.nodup_append, List.nodup_cons] at hn

/-- A document stands for at most one definition. -/
theorem C27_unique (j : Json) (l l' : SLayout) (h : LayoutDoc lib j l) (h' : LayoutDoc lib j l') : l = l' := by
  have := (parseLayout_ok.2 h).symm.trans (parseLayout_ok.2 h')
  injection this

example : LayoutDoc SpExample.lib (.object SpExample.doc) SpExample.layout := parseLayout_ok.1 SpExample.parse_doc

-- an unknown member, deep inside the document, and a duplicate
example : parseLayout SpExample.lib (.object [("type", .string "set"), ("item", .object [("value", .object
    [("type", .string "number"), ("datatype", .string "xs:integer"), ("fields", .null)])])]) =
      .err (.unexpectedEntry "fields") := by rfl

example : parseLayout SpExample.lib (.object [("type", .string "union"), ("id", .string "ex:a"), ("id", .string "ex:b")]) =
    .err (.duplicateEntry "id") := by rfl

/-- Maps are not concerned: of two fields of the same name, the first one is lost without an error. -/
theorem C27_duplicate_field_accepted :
    parseLayout SpExample.lib (.object [("type", .string "record"), ("fields", .object
      [("a", .object [("value", .string "ex:A")]), ("a", .object [("value", .string "ex:B")])])]) =
    parseLayout SpExample.lib (.object [("type", .string "record"), ("fields", .object
      [("a", .object [("value", .string "ex:B")])])]) ∧
    (parseLayout SpExample.lib (.object [("type", .string "record"), ("fields", .object
      [("a", .object [("value", .string "ex:B")])])])).isOk = true := by
  constructor <;> rfl

/-- The example `{ "type": "number" }` of the documentation is not a layout: `datatype` is required. -/
theorem C27_documented_number_rejected :
    parseLayout lib (.object [("type", .string "number")]) = .err (.missingRequiredEntry "datatype") := by rfl

/-- **C54**. Parsing ends on every document. -/
theorem C54_terminates (j : Json) : parseLayout lib j ≠ .fuel := by
  have h := fine_layout (p := True) (lib := lib) j (.inl trivial)
  intro e
  rw [e] at h
  exact h

/-- **C54** (partial). On a document all the numbers of which are decimal numerals, parsing does not panic. What is missing:
the numbers of constants with an exponent make it panic (`C54_exponent_panics`). -/
theorem C54_partial (j : Json) (hj : j.plain = true) :
    (∃ l, parseLayout lib j = .ok l) ∨ ∃ e, parseLayout lib j = .err e := by
  have h := fine_layout (p := False) (lib := lib) j (.inr hj)
  cases hp : parseLayout lib j with
  | ok l => exact .inl ⟨l, rfl⟩
  | err e => exact .inr ⟨e, rfl⟩
  | panic => rw [hp] at h; exact h.elim
  | fuel => rw [hp] at h; exact h.elim

example : (Json.object SpExample.doc).plain = true := by decide +kernel

/-- **C54** fails: a valid JSON number with an exponent in a constant makes the parser panic. -/
theorem C54_exponent_panics : Number.isJson "1e3".toList = true ∧
    parseLayout lib (.object [("type", .string "unit"), ("const", .number "1e3".toList)]) = .panic := by
  constructor
  · decide +kernel
  · rfl

/-- **C55**. Parsing a regular expression ends and does not panic, whatever the string. -/
theorem C55 (s : List Nat) : (∃ e, RegExp.parse s = .ok e) ∨ ∃ e, RegExp.parse s = .err e := RegExp.parse_total s

example : (match RegExp.parse ("a(b|[^c-".toList.map Char.toNat) with
    | .err .incompleteCharacterSet => true
    | _ => false) = true := by decide +kernel

end Props

end Verif
