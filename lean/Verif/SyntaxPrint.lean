import Verif.SyntaxDoc
import Verif.RegExpCanonical

/-!
# Serialization of layout definitions

Models the derived implementations of `Serialize` in `layouts/src/abs/syntax/**`, as functions to JSON documents.

Parameters: what the serializer does with the keys of a record that are not text (`PrintLib.key`), and the serialization of
constants (`PrintLib.const`; see `Value.serialize`).
-/

set_option linter.unusedSectionVars false

namespace Verif

/-- What is left to the serializer. -/
structure PrintLib where
  /-- a key of a map -/
  key : Value → String
  /-- a constant -/
  const : Value → Json

/-- A serialized structure: the members that are not skipped. -/
def present (l : List (String × Option Json)) : JsonObject := l.filterMap fun e => e.2.map fun j => (e.1, j)

/-- `skip_serializing_if`. -/
def skipIf (c : Bool) (j : Json) : Option Json := if c then none else some j

/-- `Serialize for OneOrMany<T>`, untagged. `layouts/src/abs/syntax/mod.rs` L379-384. -/
def OneOrMany.print {α : Type} (p : α → Json) : OneOrMany α → Json
  | .one a => p a
  | .many l => .array (l.map p)

/-- `Serialize for LiteralValue`: the type is flattened, and skipped when it is `xsd:string`.
`layouts/src/abs/syntax/pattern/literal.rs` L9-16, L55-61, L92-104, L113-118. -/
def SLitType.print : SLitType → List (String × Option Json)
  | .iri i => [("type", skipIf (i == xsdString) (.string i))]
  | .language tag => [("language", some (.string tag))]

/-- `Serialize for Pattern`. `layouts/src/abs/syntax/pattern/mod.rs` L102-113. -/
def SPattern.print : SPattern → Json
  | .var x => .string ("_:" ++ x)
  | .iri i => .string i
  | .literal v ty => .object (present (("value", some (.string v)) :: ty.print))

/-- `Serialize for Quad`: the graph is skipped when there is none. `layouts/src/abs/syntax/dataset.rs` L50-56. -/
def SQuad.print (q : Quad SPattern) : Json :=
  .array ([q.s.print, q.p.print, q.o.print] ++ (q.g.map SPattern.print).toList)

/-- `Serialize for Dataset`. `layouts/src/abs/syntax/dataset.rs` L6-8. -/
def printDataset (d : List (Quad SPattern)) : Json := .array (d.map SQuad.print)

/-- `Serialize for Resource`. `layouts/src/abs/syntax/resource.rs` L11-25, L94-103. -/
def SResource.print : SResource → Json
  | .boolean b => .boolean b
  | .number n => .number n.repr.toList
  | .string s => .string s
  | .typed v ty => .object [("value", .string v), ("type", .string ty)]

/-- `Serialize for RegExp`. `layouts/src/abs/regexp.rs` L586-593. -/
def RegExp.print (e : RegExp) : Json := .string (String.ofList (e.display.map RegExp.numberChar))

/-- `LayoutInput::is_default`, `ValueIntro::is_default`: one name, which is `x`.
`layouts/src/abs/syntax/layout/mod.rs` L359-362, `layouts/src/abs/syntax/mod.rs` L553-556. -/
def OneOrMany.isName (x : String) (i : OneOrMany String) : Bool := i.asSlice == [x]

/-- `ValueInput::is_default`, `VariantInput::is_default`. `layouts/src/abs/syntax/layout/mod.rs` L524-527,
`layouts/src/abs/syntax/layout/sum.rs` L290-293. -/
def OneOrMany.isVar (x : String) (i : OneOrMany SPattern) : Bool := i.asSlice == [SPattern.var x]

/-- `Serialize for LayoutHeader`, flattened. `layouts/src/abs/syntax/layout/mod.rs` L389-412. -/
def LayoutHeader.print (h : LayoutHeader) : List (String × Option Json) :=
  [("base", h.base.map .string),
   ("prefixes", skipIf h.prefixes.isEmpty (.object (h.prefixes.map fun e => (e.1, .string e.2)))),
   ("id", h.id.map .string),
   ("input", skipIf (h.input.isName "self") (h.input.print .string)),
   ("intro", skipIf h.intro.isEmpty (h.intro.print .string)),
   ("dataset", skipIf h.dataset.isEmpty (printDataset h.dataset)),
   ("extra", skipIf h.extra.isEmpty (.object (h.extra.map fun e => (e.1, e.2.print))))]

/-- `Serialize for Option<T>`, when it is not skipped: `None` is `null`. -/
def printOption (p : Option SPattern) : Json := (p.map SPattern.print).getD .null

/-- A layout: `type`, the header, and the members of the kind. -/
def printKind (ty : String) (h : LayoutHeader) (members : List (String × Option Json)) : Json :=
  .object (present (("type", some (.string ty)) :: (h.print ++ members)))

variable (P : PrintLib)

mutual
/-- `Serialize for Layout`, untagged. `layouts/src/abs/syntax/layout/mod.rs` L44-110; the kinds:
`literal.rs` L187-198, L247-260, L340-352, L409-421, L478-494, L559-572; `product.rs` L19-30; `sum.rs` L16-27; `list.rs` L89-111,
L362-372, L525-536; `union.rs` L12-20; `intersection.rs`. -/
def SLayout.print : SLayout → Json
  | .unit h k => printKind "unit" h [("const", skipIf (k == .literal .unit) (P.const k))]
  | .boolean h r dt => printKind "boolean" h [("resource", some (printOption r)), ("datatype", dt.map .string)]
  | .number h r dt => printKind "number" h [("resource", some (printOption r)), ("datatype", some (.string dt))]
  | .byteString h r dt => printKind "bytes" h [("resource", some (printOption r)), ("datatype", some (.string dt))]
  | .textString h e r dt => printKind "string" h
      [("pattern", e.map RegExp.print), ("resource", some (printOption r)), ("datatype", dt.map .string)]
  | .id h e r => printKind "id" h [("pattern", e.map RegExp.print), ("resource", some (printOption r))]
  | .product h fs => printKind "record" h [("fields", skipIf fs.isEmpty (.object (printFields fs)))]
  | .sum h vs => printKind "sum" h [("variants", skipIf vs.isEmpty (.object (printVariants vs)))]
  | .ordered h n hd tl => printKind "list" h
      [("node", some n.print), ("head", skipIf (hd == .var "self") hd.print), ("tail", skipIf (tl == .iri rdfNil) tl.print)]
  | .unordered h i => printKind "set" h [("item", some i.print)]
  | .sized h is => printKind "tuple" h [("items", skipIf is.isEmpty (.array (printItems is)))]
  | .bool b => .boolean b
  | .union h => printKind "union" h []
  | .intersection h => printKind "intersection" h []

/-- `Serialize for LayoutRef`, untagged. `layouts/src/abs/syntax/layout/mod.rs` L266-271. -/
def SLayoutRef.print : SLayoutRef → Json
  | .ref i => .string i
  | .layout l => l.print

/-- `Serialize for ValueFormatOrLayout` and `VariantFormatOrLayout`, untagged, with the formats; `dflt` is the default input.
`layouts/src/abs/syntax/mod.rs` L445-450, L498-508; `layouts/src/abs/syntax/layout/sum.rs` L151-156, L204-214. -/
def SFormat.print (dflt : String) : SFormat → Json
  | .format r input graph => .object (present
      [("layout", some r.print), ("input", skipIf (input.isVar dflt) (input.print SPattern.print)),
       ("graph", graph.map printOption)])
  | .layout r => r.print

/-- `Serialize for Field`. `layouts/src/abs/syntax/layout/product.rs` L135-151. -/
def SField.print : SField → Json
  | .mk intro v ds p req => .object (present
      [("intro", skipIf (intro.isName "value") (intro.print .string)), ("value", some (v.print "value")),
       ("dataset", skipIf ds.isEmpty (printDataset ds)), ("property", p.map SPattern.print),
       ("required", skipIf (!req) (.boolean req))])

/-- The entries of `fields`. -/
def printFields : List (Value × SField) → JsonObject
  | [] => []
  | (k, f) :: fs => (P.key k, f.print) :: printFields fs

/-- `Serialize for Variant`. `layouts/src/abs/syntax/layout/sum.rs` L74-84. -/
def SVariant.print : SVariant → Json
  | .mk intro v ds => .object (present
      [("intro", skipIf intro.isEmpty (intro.print .string)), ("value", some (v.print "self")),
       ("dataset", skipIf ds.isEmpty (printDataset ds))])

/-- The entries of `variants`. -/
def printVariants : List (String × SVariant) → JsonObject
  | [] => []
  | (k, v) :: vs => (k, v.print) :: printVariants vs

/-- `Serialize for ListItem`. `layouts/src/abs/syntax/layout/list.rs` L405-418. -/
def SItem.print : SItem → Json
  | .mk intro v ds p => .object (present
      [("intro", skipIf (intro.isName "value") (intro.print .string)), ("value", some (v.print "value")),
       ("dataset", skipIf ds.isEmpty (printDataset ds)), ("property", p.map SPattern.print)])

/-- The elements of `items`. -/
def printItems : List SItem → List Json
  | [] => []
  | i :: is => i.print :: printItems is

/-- `Serialize for ListNodeOrLayout`, untagged, with `ListNode`. `layouts/src/abs/syntax/layout/list.rs` L148-153, L238-260. -/
def SNode.print : SNode → Json
  | .node head rest intro v ds => .object (present
      [("head", skipIf (head == "head") (.string head)), ("rest", skipIf (rest == "rest") (.string rest)),
       ("intro", skipIf (intro.isName "value") (intro.print .string)), ("value", some (v.print "value")),
       ("dataset", ds.map printDataset)])
  | .layout r => r.print
end

/-! ## The definitions that are printed faithfully

Conditions marked "invariant" hold of every value of the corresponding Rust type; the other ones are restrictions. -/

variable (lib : ParseLib)

/-- Patterns: names and IRIs are valid (invariant); no literal has the type `xsd:string`. -/
def SPattern.Faithful : SPattern → Prop
  | .var x => lib.isBlankId ("_:" ++ x) = true
  | .iri i => lib.isIriRef i = true ∧ lib.isBlankId i = false
  | .literal _ (.iri i) => lib.isIriRef i = true ∧ i ≠ xsdString
  | .literal _ (.language tag) => lib.isLangTag tag = true

/-- `SPattern.Faithful`, for an optional pattern. -/
def optFaithful (p : Option SPattern) : Prop := ∀ q, p = some q → q.Faithful lib

/-- `SPattern.Faithful`, for each component of each quad. -/
def datasetFaithful (d : List (Quad SPattern)) : Prop :=
  ∀ q ∈ d, q.s.Faithful lib ∧ q.p.Faithful lib ∧ q.o.Faithful lib ∧ optFaithful lib q.g

/-- Resources: IRIs are valid and numbers fit in 64 bits (invariant). -/
def SResource.Faithful : SResource → Prop
  | .number n => -2 ^ 63 ≤ n ∧ n < 2 ^ 63
  | .typed _ ty => lib.isIriRef ty = true
  | _ => True

/-- Headers: IRIs are valid and maps are in order (invariant); the input is not an array of one `self`. -/
structure LayoutHeader.Faithful (h : LayoutHeader) : Prop where
  base : ∀ i, h.base = some i → lib.isIriRef i = true
  id : ∀ i, h.id = some i → lib.isIriRef i = true
  prefixes : ∀ e ∈ h.prefixes, lib.isIriRef e.2 = true
  prefixOrder : bmapCollect strLe h.prefixes = h.prefixes
  input : h.input ≠ .many ["self"]
  dataset : datasetFaithful lib h.dataset
  extra : ∀ e ∈ h.extra, lib.isIriRef e.1 = true ∧ e.2.Faithful lib
  extraOrder : bmapCollect lib.leIri h.extra = h.extra

/-- Regular expressions are well formed (invariant) and canonical (`RegExp.Canonical`). -/
def regExpFaithful (e : Option RegExp) : Prop := ∀ r, e = some r → r.WF ∧ r.Canonical

/-- A resource: it is present and faithful. -/
def resourceFaithful (r : Option SPattern) : Prop := ∃ p, r = some p ∧ p.Faithful lib

/-- A datatype is a valid IRI (invariant). -/
def datatypeFaithful (dt : Option CompactIri) : Prop := ∀ i, dt = some i → lib.isIriRef i = true

mutual
/-- Layouts: the restrictions are that the resource of a literal layout is given, keys of records are text, regular expressions are
canonical and constants are read back. -/
def SLayout.Faithful : SLayout → Prop
  | .unit h k => h.Faithful lib ∧ (k ≠ .literal .unit → ConstDoc (P.const k) k)
  | .boolean h r dt => h.Faithful lib ∧ resourceFaithful lib r ∧ datatypeFaithful lib dt
  | .number h r dt => h.Faithful lib ∧ resourceFaithful lib r ∧ lib.isIriRef dt = true
  | .byteString h r dt => h.Faithful lib ∧ resourceFaithful lib r ∧ lib.isIriRef dt = true
  | .textString h e r dt => h.Faithful lib ∧ regExpFaithful e ∧ resourceFaithful lib r ∧ datatypeFaithful lib dt
  | .id h e r => h.Faithful lib ∧ regExpFaithful e ∧ resourceFaithful lib r
  | .product h fs => h.Faithful lib ∧ bmapCollect Value.le fs = fs ∧ fieldsFaithful fs
  | .sum h vs => h.Faithful lib ∧ bmapCollect strLe vs = vs ∧ variantsFaithful vs
  | .ordered h n hd tl => h.Faithful lib ∧ n.Faithful ∧ hd.Faithful lib ∧ tl.Faithful lib
  | .unordered h i => h.Faithful lib ∧ i.Faithful
  | .sized h is => h.Faithful lib ∧ itemsFaithful is
  | .bool _ => True
  | .union h => h.Faithful lib
  | .intersection h => h.Faithful lib

/-- References: a nested layout is not a boolean. -/
def SLayoutRef.Faithful : SLayoutRef → Prop
  | .ref i => lib.isIriRef i = true
  | .layout l => (∀ b, l ≠ .bool b) ∧ l.Faithful

/-- Formats: the input is not an array of one default variable, the graph is not the default graph. -/
def SFormat.Faithful (dflt : String) : SFormat → Prop
  | .format r input graph => r.Faithful ∧ input ≠ .many [.var dflt] ∧ (∀ p ∈ input.asSlice, p.Faithful lib) ∧
      graph ≠ some none ∧ (∀ g, graph = some (some g) → g.Faithful lib)
  | .layout r => r.Faithful

/-- Fields. -/
def SField.Faithful : SField → Prop
  | .mk intro v ds p _ => intro ≠ .many ["value"] ∧ v.Faithful "value" ∧ datasetFaithful lib ds ∧ optFaithful lib p

/-- The fields of a record: their keys are text. -/
def fieldsFaithful : List (Value × SField) → Prop
  | [] => True
  | (k, f) :: fs => k = Value.text (P.key k) ∧ f.Faithful ∧ fieldsFaithful fs

/-- Variants. -/
def SVariant.Faithful : SVariant → Prop
  | .mk _ v ds => v.Faithful "self" ∧ datasetFaithful lib ds

/-- The variants of a sum. -/
def variantsFaithful : List (String × SVariant) → Prop
  | [] => True
  | (_, v) :: vs => v.Faithful ∧ variantsFaithful vs

/-- Items. -/
def SItem.Faithful : SItem → Prop
  | .mk intro v ds p => intro ≠ .many ["value"] ∧ v.Faithful "value" ∧ datasetFaithful lib ds ∧ optFaithful lib p

/-- The items of a tuple. -/
def itemsFaithful : List SItem → Prop
  | [] => True
  | i :: is => i.Faithful ∧ itemsFaithful is

/-- Nodes. -/
def SNode.Faithful : SNode → Prop
  | .node _ _ intro v ds => intro ≠ .many ["value"] ∧ v.Faithful "value" ∧ (∀ d, ds = some d → datasetFaithful lib d)
  | .layout r => r.Faithful
end

end Verif
