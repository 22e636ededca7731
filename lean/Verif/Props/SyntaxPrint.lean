import Verif.SyntaxPrintLemmas
import Verif.SyntaxReorder
import Verif.Props.SyntaxParse
import Verif.Props.Data
import Verif.Props.RegExp

/-!
# Properties of the serialization of layout definitions
-/

set_option linter.unusedSectionVars false
set_option linter.unusedSimpArgs false

namespace Verif

namespace SpExample

/-- Text keys are themselves; text constants are themselves. -/
def printLib : PrintLib where
  key
    | .literal (.textString s) => s
    | _ => ""
  const
    | .literal (.textString s) => .string s
    | _ => .null

/-- A record with an identifier, a prefix, an extra property, an optional field with a nested list of numbers, and a field
whose value is a sum of a constant and a reference. -/
def printed : SLayout :=
  .product { id := some "ex:Point", prefixes := [("ex", "https://example.org/")], intro := .one "a",
             dataset := [⟨.var "self", .iri "ex:p", .literal "x" (.language "en"), some (.var "a")⟩],
             extra := [("ex:q", .number (-12))] }
    [(Value.text "coordinates",
      .mk (.many ["value", "other"])
        (.layout (.layout (.ordered {} (.layout (.layout (.number {} (some (.var "self")) "xs:integer")))
          (.var "self") (.iri rdfNil))))
        [] (some (.iri "ex:coordinates")) true),
     (Value.text "kind",
      .mk (.one "value")
        (.format (.layout (.sum {} [("a", .mk (.many []) (.layout (.layout (.unit {} (Value.text "a")))) []),
           ("b", .mk (.one "x") (.layout (.ref "ex:Other")) [])])) (.many [.var "value", .var "a"]) (some (some (.iri "ex:g"))))
        [] none false)]

/-- The library functions of `lib`; all language tags are valid. -/
def lib' : ParseLib := { lib with isLangTag := fun _ => true }

end SpExample

namespace Props

variable {lib : ParseLib} {P : PrintLib}

/-- **C56**, partial: a layout definition is parsed back from its serialization, when it satisfies `SLayout.Faithful`. Beyond
the invariants of the types of the source, these conditions are that every literal layout has an explicit resource, that no
literal pattern has the type `xsd:string`, that no nested layout is a boolean, that no graph is the default graph, that no
list of one name is the default, that the keys of records are text, that regular expressions are canonical (C31) and that constants
are themselves read back (`C56_constants`). The theorems below show that the first five cannot be omitted. -/
theorem C56_partial (l : SLayout) (h : l.Faithful P lib) : parseLayout lib (l.print P) = .ok l :=
  parseLayout_ok.2 (print_doc l h)

/-- **C56**, constants. If the serializer writes the JSON form of a constant, it is read back. Every tree without byte strings, with
text keys, and whose numbers are decimal and greater than `-1`, has a JSON form (C35). -/
theorem C56_constants (k : Value) (hk : k.WF) (h : k.toJson = .ok (P.const k)) : parseConst (P.const k) = .ok k :=
  parseConst_ok.2 (C35_roundtrip k hk _ h)

example : (Value.text "a").WF ∧ (Value.text "a").toJson = .ok (SpExample.printLib.const (Value.text "a")) := ⟨.literal _, rfl⟩

/-- **C56**, patterns. A regular expression that is not canonical is still read back with the same language if it is printable: its
text has no `Any`, no empty set or union, no repetition other than `?`, `*` and `+`, and no sequence of one repetition or union. -/
theorem C56_patterns (e : RegExp) (hw : e.WF) (hp : e.Printable) :
    ∃ e', parseRegExp e.print = .ok e' ∧ ∀ w, e'.Matches w ↔ e.Matches w := by
  obtain ⟨e', h1, h2⟩ := C31_parse_display_partial e hw hp
  exact ⟨e', parseRegExp_ok.2 ⟨_, rfl, by rw [RegExp.display_chars hw]; exact h1⟩, h2⟩

/-- The pattern `[^x]`, whose characters include those beyond the surrogates. -/
example : (RegExp.set [⟨0, 119⟩, ⟨121, lastChar⟩]).WF ∧ (RegExp.set [⟨0, 119⟩, ⟨121, lastChar⟩]).Printable ∧
    (RegExp.set [⟨0, 119⟩, ⟨121, lastChar⟩]).Canonical ∧ (RegExp.set [⟨0, 119⟩, ⟨121, lastChar⟩]).print = .string "[^x]" := by
  refine ⟨⟨?_, ?_⟩, ?_, ?_, congrArg Json.string (by decide +kernel)⟩
  · simp [RangeSet.WF, lastChar]
  · simp [RangeSet.Valid, lastChar]
  · simp [RegExp.Printable]
  · simp [RegExp.Canonical]

open SpExample in
example : printed.Faithful printLib lib' := by
  have r : ∀ s, lib'.isIriRef s = !s.toList.contains ' ' := fun _ => rfl
  have b : ∀ s, lib'.isBlankId s = (s.toList.take 2 == ['_', ':']) := fun _ => rfl
  have t : ∀ s, lib'.isLangTag s = true := fun _ => rfl
  have e : LayoutHeader.Faithful lib' {} := ⟨by simp, by simp, by simp, rfl, by simp, by simp [datasetFaithful], by simp, rfl⟩
  refine ⟨⟨by simp, by simp [r], by simp [r], by rfl, by decide, ?_, by simp [r, SResource.Faithful], by rfl⟩, by rfl,
    ⟨by rfl, ⟨by decide, ⟨by simp, e, ⟨by simp, e, ⟨_, rfl, ?_⟩, ?_⟩, ?_, ?_⟩, by simp [datasetFaithful], ?_⟩,
      by rfl, ⟨by decide, ⟨⟨by simp, e, by rfl, ⟨⟨by simp, e, fun _ => rfl⟩, by simp [datasetFaithful]⟩,
        ⟨?_, by simp [datasetFaithful]⟩, trivial⟩, by simp, ?_, by simp, ?_⟩, by simp [datasetFaithful], by simp [optFaithful]⟩,
      trivial⟩⟩
  all_goals simp [datasetFaithful, optFaithful, SPattern.Faithful, SFormat.Faithful, SLayoutRef.Faithful, OneOrMany.asSlice,
    r, b, t, rdfNil]

open SpExample in
example : parseLayout lib' (printed.print printLib) = .ok printed := by rfl

/-- **C56** fails: a boolean, number, byte string, text string or identifier layout that relies on the default resource is
serialized with a `resource` that is `null`, and no such document is accepted. -/
theorem C56_default_resource_rejected (l : SLayout)
    (h : (∃ h dt, l = .boolean h none dt) ∨ (∃ h dt, l = .number h none dt) ∨ (∃ h dt, l = .byteString h none dt) ∨
      (∃ h e dt, l = .textString h e none dt) ∨ (∃ h e, l = .id h e none)) (l' : SLayout) :
    parseLayout lib (l.print P) ≠ .ok l' := by
  have key : ∃ o ty, l.print P = .object o ∧ o.lookup "resource" = some .null ∧ o.lookup "type" = some (.string ty) ∧
      ty ∈ ["boolean", "number", "bytes", "string", "id"] := by
    have gen : ∀ (ty : String) (hd : LayoutHeader) (ms : List (String × Option Json)),
        ("type" :: (["base", "prefixes", "id", "input", "intro", "dataset", "extra"] ++ ms.map Prod.fst)).Nodup →
        ("resource", some .null) ∈ ms → ty ∈ ["boolean", "number", "bytes", "string", "id"] →
        ∃ o t, printKind ty hd ms = .object o ∧ o.lookup "resource" = some .null ∧ o.lookup "type" = some (.string t) ∧
        t ∈ ["boolean", "number", "bytes", "string", "id"] := by
      intro ty hd ms hn hr ht
      have hn' : ((("type", some (.string ty)) :: (hd.print ++ ms)).map Prod.fst).Nodup := by
        simp only [List.map_cons, List.map_append, header_keys]; exact hn
      exact ⟨_, ty, rfl, present_lookup hn' (by simp [hr]), present_lookup hn' (by simp), ht⟩
    rcases h with ⟨h, dt, rfl⟩ | ⟨h, dt, rfl⟩ | ⟨h, dt, rfl⟩ | ⟨h, e, dt, rfl⟩ | ⟨h, e, rfl⟩ <;>
      exact gen _ h _ (by simp) (by simp [printOption]) (by simp)
  obtain ⟨o, ty, ho, hr, ht, hm⟩ := key
  intro hp
  rw [ho] at hp
  have hno : ∀ {r}, ¬ OptDoc (PatternDoc lib) (o.lookup "resource") r := by
    intro r hd
    rw [hr] at hd
    cases r with
    | none => exact hd
    | some p => cases hd
  have hty : ∀ {t ms hd}, KindDoc lib o t ms hd → t = ty := fun hk => by
    have := hk.type
    rw [ht] at this
    injection this with this; injection this with this; exact this.symm
  cases parseLayout_ok.1 hp with
  | object hl =>
    cases hl with
    | boolean _ hr => exact hno hr
    | number _ hr => exact hno hr
    | byteString _ hr => exact hno hr
    | textString _ _ hr => exact hno hr
    | id _ _ hr => exact hno hr
    | unit hk => rw [← hty hk] at hm; revert hm; decide
    | record hk => rw [← hty hk] at hm; revert hm; decide
    | sum hk => rw [← hty hk] at hm; revert hm; decide
    | list hk => rw [← hty hk] at hm; revert hm; decide
    | set hk => rw [← hty hk] at hm; revert hm; decide
    | tuple hk => rw [← hty hk] at hm; revert hm; decide
    | union hk => rw [← hty hk] at hm; revert hm; decide
    | intersection hk => rw [← hty hk] at hm; revert hm; decide

example : ∃ h dt, (SLayout.number {} none "xs:integer") = .number h none dt := ⟨_, _, rfl⟩

/-- A set whose items have the format `f`. -/
def setOf (f : SFormat) : SLayout := .unordered {} (.mk (.one "value") f [] none)

open SpExample in
/-- **C56** fails: a value explicitly in the default graph is read back as a value in the current graph. -/
theorem C56_default_graph_lost :
    parseLayout lib' ((setOf (.format (.ref "ex:A") (.one (.var "value")) (some none))).print printLib) =
      .ok (setOf (.format (.ref "ex:A") (.one (.var "value")) none)) := by rfl

open SpExample in
/-- **C56** fails: the serialization of a nested boolean layout is rejected. -/
theorem C56_nested_boolean_rejected (b : Bool) (l : SLayout) :
    parseLayout lib' ((setOf (.layout (.layout (.bool b)))).print printLib) ≠ .ok l := by
  intro h
  cases b <;> exact Bool.false_ne_true (congrArg (fun o => match o with | Out.ok _ => true | _ => false) h)

open SpExample in
/-- **C56** fails: the serialization of a text literal of type `xsd:string` is rejected. -/
theorem C56_string_literal_rejected (l : SLayout) :
    parseLayout lib' ((setOf (.format (.ref "ex:A") (.one (.literal "a" (.iri xsdString))) none)).print printLib) ≠ .ok l :=
  fun h => Bool.false_ne_true (congrArg (fun o => match o with | Out.ok _ => true | _ => false) h)

open SpExample in
/-- **C56** fails: a list of one name that is the default is read back as the name alone. -/
theorem C56_list_of_default_lost :
    parseLayout lib' ((SLayout.union { input := .many ["self"] }).print printLib) = .ok (.union { input := .one "self" }) := by rfl

/-- **C57**. Documents that differ by the order of the members of their objects, at any depth, stand for the same definition:
one is accepted if and only if the other one is, with the same result. -/
theorem C57 (ht : TotalOrder lib.leIri) (j j' : Json) (h : j.Reordered j') (l : SLayout) :
    parseLayout lib j = .ok l ↔ parseLayout lib j' = .ok l := by
  simp only [parseLayout_ok]
  exact ⟨fun hd => stable_layout ht h hd, fun hd => stable_layout ht h.symm hd⟩

open SpExample in
/-- The members of `doc` in the opposite order, with those of the field in the opposite order. -/
example : (Json.object doc).Reordered (.object
    [("fields", .object [("coordinates", .object
        [("value", .object [("type", .string "list"),
          ("node", .object [("type", .string "number"), ("datatype", .string "xs:integer")])]),
         ("required", .boolean true), ("property", .string "ex:coordinates")])]),
     ("prefixes", .object [("ex", .string "https://example.org/")]),
     ("id", .string "ex:Point"), ("type", .string "record")]) := by
  refine .object (by simp [doc]) (.cons (.refl _) (.cons (.refl _) (.cons (.refl _) (.cons
    (.object (by simp) (.cons (.object (by simp) (.refl _) (List.reverse_perm _).symm) .nil) (.refl _)) .nil)))) ?_
  exact (List.reverse_perm _).symm

open SpExample in
example : TotalOrder SpExample.lib.leIri := strLe_totalOrder

end Props
end Verif
