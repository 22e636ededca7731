import Verif.RustDocLemmas
import Verif.Props.RustEmit

/-!
# C74: Rust types and JSON documents
-/

set_option linter.unusedSectionVars false
set_option linter.unusedSimpArgs false

namespace Verif.Props

open Verif.Rust (MacroLib Decl RType RItem QuadDecl)

/-- **C74**, except for identifiers. The layout that the macros read from a Rust type with attributes is the one that `treeldr` reads
from the corresponding document, and both reject the same texts. The types that it refers to are the declared ones, in order. -/
theorem C74_types_partial (lib : ParseLib) (hl : MacroLib lib.toIriLib) (hr : ∀ s, lib.isIri s = true → lib.isIriRef s = true)
    (d : Decl) (l : SLayout) (types : List RType) :
    Rust.parseItem lib.toIriLib d.item = .ok (l, types) ↔ parseLayout lib d.json = .ok l ∧ types = d.body.types := by
  rw [Rust.item_read d _ rfl l types, parseLayout_ok, Rust.json_read hl hr d _ l]
  constructor
  · rintro ⟨a, h1, h2, h3⟩
    exact ⟨⟨a, h1, h2⟩, h3⟩
  · rintro ⟨⟨a, h1, h2⟩, h3⟩
    exact ⟨a, h1, h2, h3⟩

namespace RustDocExample

/-- A library for parsing. -/
def lib : ParseLib := { EmitExample.lib with leIri := strLe }

/-- ```
#[tldr(record, prefix("ex" = "http://example.org/"), intro("a"), dataset(("_:self", "ex:address", "_:a")))]
struct Person {
  #[tldr("ex:name")] name: String,
  #[tldr("ex:city", input("_:a", "_:value"), graph(_))] city: Option<City>
}
``` -/
def person : Decl where
  name := "Person"
  header :=
    { prefixes := some [("ex", "http://example.org/")], intro := some ["a"], dataset := some [⟨"_:self", "ex:address", "_:a", none⟩] }
  body := .record [{ name := "name", property := some "ex:name", ty := .path [] "String" [] },
    { name := "city", property := some "ex:city", value := { input := some ["_:a", "_:value"], graph := some none },
      ty := .path [] "Option" [.path [] "City" []] }]

/-- A number without a datatype. -/
def wrong : Decl where
  name := "Wrong"
  body := .number none none (.struct .unit)

def accepted : Out Rust.MacroError (SLayout × List RType) → Bool
  | .ok _ => true
  | _ => false

/-- The hypotheses hold of a library; both forms of the first declaration are accepted, and both of the second one are rejected. -/
example : MacroLib lib.toIriLib ∧ (∀ s, lib.isIri s = true → lib.isIriRef s = true) ∧
    accepted (Rust.parseItem lib.toIriLib person.item) = true ∧ (∃ l, parseLayout lib person.json = .ok l) ∧
    person.body.types.length = 2 ∧ accepted (Rust.parseItem lib.toIriLib wrong.item) = false ∧ ¬ ∃ l, parseLayout lib wrong.json = .ok l := by
  have h1 : MacroLib lib.toIriLib := EmitExample.lib_macro
  have h2 : ∀ s, lib.isIri s = true → lib.isIriRef s = true := fun _ _ => rfl
  have h3 : accepted (Rust.parseItem lib.toIriLib person.item) = true := by decide +kernel
  have h4 : accepted (Rust.parseItem lib.toIriLib wrong.item) = false := by decide +kernel
  refine ⟨h1, h2, h3, ?_, rfl, h4, ?_⟩
  · cases hp : Rust.parseItem lib.toIriLib person.item with
    | ok r => exact ⟨r.1, ((C74_types_partial lib h1 h2 person r.1 r.2).1 hp).1⟩
    | err e => rw [hp] at h3; cases h3
    | panic => rw [hp] at h3; cases h3
    | fuel => rw [hp] at h3; cases h3
  · rintro ⟨l, hl⟩
    rw [(C74_types_partial lib h1 h2 wrong l _).2 ⟨hl, rfl⟩] at h4
    cases h4

/-- A unit layout. -/
def nothing : Decl where
  name := "Nothing"
  body := .unit (.struct .unit)

end RustDocExample

/-- **C74** is violated by identifiers: a document can set the identifier of the layout, but the attribute `id("…")` is rejected on
every type, since `id` alone is a kind of layout. -/
theorem C74_id : (∀ (lib : IriLib) (iri : String) (item : RItem),
      Rust.parseItem lib { item with attrs := ⟨"tldr", some [.ident "id", .group [.str iri]]⟩ :: item.attrs } = .err .unexpectedToken) ∧
    (∀ (lib : IriLib) (iri : String) (kind : String) (item : RItem), Rust.Kind.ofIdent kind ≠ none → ∃ e,
      Rust.parseItem lib { item with attrs := ⟨"tldr", some [.ident kind, .punct ',', .ident "id", .group [.str iri]]⟩ :: item.attrs } =
        .err e) ∧
    ∃ (lib : ParseLib) (o : JsonObject) (l : SLayout) (iri : String), MacroLib lib.toIriLib ∧ RustDocExample.nothing.json = .object o ∧
      parseLayout lib (.object (("id", .string iri) :: o)) = .ok l ∧ (l.header.bind (·.id)) = some iri := by
  refine ⟨fun lib iri item => rfl, fun lib iri kind item hk => ?_, RustDocExample.lib, _, .unit { id := some "http://example.org/nothing" } .unit, "http://example.org/nothing", EmitExample.lib_macro, rfl, ?_, ?_⟩
  · obtain ⟨k, hk⟩ := Option.ne_none_iff_exists'.1 hk
    by_cases he : k = .id
    · exact ⟨.unexpectedToken, by
        simp [Rust.parseItem, Rust.parseAttrs, Rust.attrLoop, Rust.typeStep, hk, show Rust.Kind.ofIdent "id" = some .id from rfl, Rust.replace, he]⟩
    · exact ⟨.conflictingValue, by
        simp [Rust.parseItem, Rust.parseAttrs, Rust.attrLoop, Rust.typeStep, hk, show Rust.Kind.ofIdent "id" = some .id from rfl, Rust.replace, he]⟩
  · rfl
  · rfl

end Verif.Props
