import Verif.SyntaxSerdePrint
import Verif.Props.SyntaxPrint

/-!
# C78: what `serde` writes is what it reads

Layout definitions implement `Serialize` (`SLayout.print`) and `Deserialize` (`Serde.layout`).
-/

set_option linter.unusedSectionVars false
set_option linter.unusedSimpArgs false

namespace Verif.Props

variable {lib : ParseLib} {P : PrintLib}

/-- **C78**, partial: a definition is deserialized from its serialization, when it satisfies `SLayout.Stable`. Beyond the invariants
of the types of the source, these conditions are that no literal has a language tag, that no extra property is a number, that no
graph is the default graph, that no list of one name is the default, that the keys of records are text, that regular expressions are
canonical (C31), and that constants, which have no number, are themselves read back. The theorems below show that the first five conditions, and the one
on numbers in constants, cannot be omitted. -/
theorem C78_partial (l : SLayout) (h : l.Stable P lib) : Serde.layout lib (l.print P) = some l := Serde.layout_of_print h

/-- In particular, definitions that rely on the default resource, which `treeldr` cannot read back (C56). -/
theorem C78_default_resource (h : LayoutHeader) (hh : h.Stable lib) (dt : CompactIri) (hd : lib.isIriRef dt = true) :
    Serde.layout lib ((SLayout.number h none dt).print P) = some (.number h none dt) :=
  C78_partial _ ⟨hh, (by intro q hq; cases hq), hd⟩

namespace SsExample

open SpExample (printLib lib')

/-- A record with an identifier, a prefix, an extra property, an optional field with a nested list of numbers, and a field
whose value is a sum of a constant and a reference. -/
def printed : SLayout :=
  .product { id := some "ex:Point", prefixes := [("ex", "https://example.org/")], intro := .one "a",
             dataset := [⟨.var "self", .iri "ex:p", .literal "x" (.iri xsdString), some (.var "a")⟩],
             extra := [("ex:q", .string "-12")] }
    [(Value.text "coordinates",
      .mk (.many ["value", "other"])
        (.layout (.layout (.ordered {} (.layout (.layout (.number {} none "xs:integer")))
          (.var "self") (.iri rdfNil))))
        [] (some (.iri "ex:coordinates")) true),
     (Value.text "kind",
      .mk (.one "value")
        (.format (.layout (.sum {} [("a", .mk (.many []) (.layout (.layout (.unit {} (Value.text "a")))) []),
           ("b", .mk (.one "x") (.layout (.layout (.bool true))) [])])) (.many [.var "value", .var "a"]) (some (some (.iri "ex:g"))))
        [] none false)]

theorem printed_stable : printed.Stable printLib lib' := by
  have r : ∀ s, lib'.isIriRef s = !s.toList.contains ' ' := fun _ => rfl
  have b : ∀ s, lib'.isBlankId s = (s.toList.take 2 == ['_', ':']) := fun _ => rfl
  have e : LayoutHeader.Stable lib' {} := ⟨by simp, by simp, by simp, rfl, by simp, by simp [datasetStable], by simp, rfl⟩
  refine ⟨⟨by simp, by simp [r], by simp [r], by rfl, by decide, ?_, by simp [r, SResource.Stable], by rfl⟩, by rfl,
    ⟨by rfl, ⟨by decide, ⟨e, ⟨e, ?_, ?_⟩, ?_, ?_⟩, by simp [datasetStable], ?_⟩,
      by rfl, ⟨by decide, ⟨⟨e, by rfl, ⟨⟨e, fun _ => ⟨by rfl, by rfl⟩⟩, by simp [datasetStable]⟩,
        ⟨trivial, by simp [datasetStable]⟩, trivial⟩, by simp, ?_, by simp, ?_⟩, by simp [datasetStable], by simp [optStable]⟩,
      trivial⟩⟩
  all_goals simp [datasetStable, optStable, SPattern.Stable, OneOrMany.asSlice, r, b, rdfNil, xsdString]

example : Serde.layout lib' (printed.print printLib) = some printed := C78_partial _ printed_stable

/-- A set of values of the given format. -/
def setOf (f : SFormat) : SLayout := .unordered {} (.mk (.one "value") f [] none)

/-- **C78** fails: language tags are lost. -/
theorem C78_language_lost :
    Serde.layout lib' ((SLayout.id {} none (some (.literal "a" (.language "en")))).print printLib) =
      some (.id {} none (some (.literal "a" (.iri xsdString)))) := by rfl

/-- The buffered form of a number is not a resource. -/
theorem number_rejected (s : List Char) : Serde.layout lib' (.object [("type", .string "union"), ("extra", .object [("ex:version", .number s)])]) =
      none := by
  have hr : Serde.resource lib' (.object [(numberToken, .string (String.ofList s))]) = none := rfl
  have hu : Serde.unionLayout lib' (.object [("type", .string "union"),
      ("extra", .object [("ex:version", .object [(numberToken, .string (String.ofList s))])])]) = none := by
    simp only [Serde.unionLayout, Serde.kind]
    rw [Serde.mapFields_of ⟨by simp, by simp [headerMembers]⟩]
    have hm : Serde.map lib'.leIri (Serde.iriString lib') (Serde.resource lib')
        (.object [("ex:version", .object [(numberToken, .string (String.ofList s))])]) = none := by
      simp [Serde.map, hr]
    have hh : Serde.header lib' (fun k => List.lookup k [("type", Json.string "union"),
      ("extra", .object [("ex:version", .object [(numberToken, .string (String.ofList s))])])]) = none := by
      simp only [Serde.header]
      simp [List.lookup, Serde.optional, Serde.withDefault, hm]
    simp only [Option.bind_some, hh]
    simp
  have other : ∀ ty ms body, "union" ≠ ty → Serde.kind lib' ty ms body (.object [("type", .string "union"),
      ("extra", .object [("ex:version", .object [(numberToken, .string (String.ofList s))])])]) = none := fun ty ms body h =>
    Serde.kind_other (ty := "union") rfl h ms body
  simp only [Serde.layout, Json.buffer, Json.bufferEntries, Serde.layoutN, Serde.untagged, Serde.readers,
    List.findSome?_cons, List.findSome?_nil, hu, Serde.unitLayout, Serde.booleanLayout, Serde.numberLayout,
    Serde.byteStringLayout, Serde.textStringLayout, Serde.idLayout, Serde.productLayout, Serde.sumLayout,
    Serde.orderedLayout, Serde.unorderedLayout, Serde.sizedLayout, Serde.boolLayout, Serde.intersectionLayout]
  rw [other _ _ _ (by decide), other _ _ _ (by decide), other _ _ _ (by decide), other _ _ _ (by decide),
    other _ _ _ (by decide), other _ _ _ (by decide), other _ _ _ (by decide), other _ _ _ (by decide),
    other _ _ _ (by decide), other _ _ _ (by decide), other _ _ _ (by decide), other _ _ _ (by decide)]
  rfl

/-- **C78** fails: extra properties that are numbers are rejected. -/
theorem C78_number_rejected (n : Int) :
    Serde.layout lib' ((SLayout.union { extra := [("ex:version", .number n)] }).print printLib) = none := by
  simp only [SLayout.print, printKind, LayoutHeader.print, List.map_cons, List.map_nil, SResource.print]
  exact number_rejected _

/-- **C78** fails: a value explicitly in the default graph is read back as a value in the current graph. -/
theorem C78_default_graph_lost :
    Serde.layout lib' ((setOf (.format (.ref "ex:A") (.one (.var "value")) (some none))).print printLib) =
      some (setOf (.format (.ref "ex:A") (.one (.var "value")) none)) := by rfl

/-- **C78** fails: a list of one name that is the default is read back as the name alone. -/
theorem C78_list_of_default_lost :
    Serde.layout lib' ((SLayout.union { input := .many ["self"] }).print printLib) = some (.union { input := .one "self" }) := by rfl

/-- **C78** fails: the keys of a record become text. -/
theorem C78_key_lost (f : SField) (hf : f.Stable printLib lib') (k : Value) (hk : printLib.key k = "") (l : SLayout)
    (h : Serde.layout lib' ((SLayout.product {} [(k, f)]).print printLib) = some l) : l = .product {} [(Value.text "", f)] := by
  have e : LayoutHeader.Stable lib' {} := ⟨by simp, by simp, by simp, rfl, by simp, by simp [datasetStable], by simp, rfl⟩
  have same : (SLayout.product {} [(k, f)]).print printLib = (SLayout.product {} [(Value.text "", f)]).print printLib := by
    simp only [SLayout.print, printFields, hk]
    rfl
  have hs : (SLayout.product {} [(Value.text "", f)]).Stable printLib lib' := ⟨e, rfl, rfl, hf, trivial⟩
  rw [same, C78_partial _ hs] at h
  exact (Option.some.inj h).symm

/-- **C78** fails: a constant that is serialized as a JSON number is read back as a record. -/
theorem C78_number_lost (v : Value) (s : List Char) :
    Serde.layout lib' ((SLayout.unit {} v).print { printLib with const := fun _ => .number s }) =
      some (.unit {} (if v = .literal .unit then v else .map [(Value.text "$serde_json::private::Number", Value.text (String.ofList s))])) := by
  by_cases hv : v = .literal .unit
  · subst hv
    rfl
  · have : (v == .literal .unit) = false := beq_eq_false_iff_ne.2 hv
    simp only [SLayout.print, this, if_neg hv]
    rfl

end SsExample

end Verif.Props
