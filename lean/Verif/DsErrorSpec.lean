import Verif.DeriveSpec
import Verif.ErrorSpec

/-!
# What the errors of derived deserialization say

`DsCause c p e`: what the error `e` says is true where the type of the place `p` is read. `Place` is that of `Verif/PanicSpec.lean`.
`DsPart`: a part of the value of a type: a field, a variant, an item. From the model these definitions use the context `DsCtx`
(layouts, types of the runtime, interpretation, dataset).
-/

namespace Verif

variable {R : Type} [DecidableEq R]

/-- The parts of a value. -/
inductive PartKind where
  | field (key : Value) (required : Bool)
  | variant
  | element
  | node
  | item

/-- The patterns mention the resource. -/
def Mentions (pats : List (QuadPat R)) (r : R) : Prop :=
  ∃ q ∈ pats, q.s = .res r ∨ q.p = .res r ∨ q.o = .res r ∨ q.g = some (.res r)

namespace Place

/-- The type of the place is derived, and its layout is `l`. -/
def Derived (c : DsCtx R) (p : Place R) (l : Layout R) : Prop := c.prim p.layout = none ∧ c.reg p.layout = some l

/-- `σ` is the only match of the own patterns of the layout `l`. -/
def OnlyMatch (c : DsCtx R) (p : Place R) (l : Layout R) (σ : Subst R) : Prop :=
  UniqueMatch c.ds (p.inputs.map some ++ List.replicate l.own.1 none) (inGraph p.graph l.own.2) σ

end Place

/-- A part of the value at the place is looked for with the patterns `pats`, from `σ₀`, and read with the format. -/
inductive DsPart (c : DsCtx R) (p : Place R) : PartKind → Subst R → List (QuadPat R) → ValueFormat R → Prop
  | field {l σ key field} : p.Derived c (.product l) → p.OnlyMatch c (.product l) σ → (key, field) ∈ l.fields →
      DsPart c p (.field key field.required) (σ ++ List.replicate field.intro none) field.dataset field.value
  | variant {l σ x} : p.Derived c (.sum l) → p.OnlyMatch c (.sum l) σ → x ∈ l.variants →
      DsPart c p .variant (σ ++ List.replicate x.intro none) x.dataset x.value
  | element {l σ} : p.Derived c (.unordered l) → p.OnlyMatch c (.unordered l) σ →
      DsPart c p .element (σ ++ List.replicate l.item.intro none) l.item.dataset l.item.value
  | node {l σ head tail node} : p.Derived c (.ordered l) → p.OnlyMatch c (.ordered l) σ → l.head.Denotes σ.get head →
      l.tail.Denotes σ.get tail → ListReaches c.ds p.graph l.node σ tail head node →
      DsPart c p .node (σ ++ [some node, none] ++ List.replicate l.node.intro none) l.node.dataset l.node.value
  | item {l σ i} : p.Derived c (.sized l) → p.OnlyMatch c (.sized l) σ → i ∈ l.items →
      DsPart c p .item (σ ++ List.replicate i.intro none) i.dataset i.value

/-- The place `q` is where a part of the value at the place `p` is read. -/
def Place.DsReads (c : DsCtx R) (p q : Place R) : Prop :=
  ∃ kind σ₀ pats fmt τ, DsPart c p kind σ₀ pats fmt ∧ IsMatch c.ds σ₀ (inGraph p.graph pats) τ ∧ p.Sub fmt τ q

/-- The patterns that denote what a layout describes: the resource of a literal or of an identifier, the first and the last node
of a list. -/
def Layout.described : Layout R → List (Pattern R)
  | .boolean l => [l.resource]
  | .number l => [l.resource]
  | .byteString l => [l.resource]
  | .textString l => [l.resource]
  | .id l => [l.resource]
  | .ordered l => [l.head, l.tail]
  | _ => []

/-- The resource, mentioned in the layout, is looked up at the place. -/
inductive DsUses (c : DsCtx R) (p : Place R) (r : R) : Prop
  | own {l} : p.Derived c l → Mentions l.own.2 r → DsUses c p r
  | described {l σ} : p.Derived c l → p.OnlyMatch c l σ → .res r ∈ l.described → DsUses c p r
  | part {kind σ₀ pats fmt} : DsPart c p kind σ₀ pats fmt → Mentions pats r → DsUses c p r
  | input {kind σ₀ pats fmt τ} : DsPart c p kind σ₀ pats fmt → IsMatch c.ds σ₀ (inGraph p.graph pats) τ → .res r ∈ fmt.input →
      DsUses c p r
  | graph {kind σ₀ pats fmt τ} : DsPart c p kind σ₀ pats fmt → IsMatch c.ds σ₀ (inGraph p.graph pats) τ →
      fmt.graph = some (some (.res r)) → DsUses c p r

/-- The literals of the resource `r` are to be read as values of the derived literal type of the place. -/
def Place.ReadsLiteral (c : DsCtx R) (p : Place R) (d : DataLayout R) (r : R) : Prop :=
  ∃ l σ, p.Derived c l ∧ l.literalLayout = some d ∧ p.OnlyMatch c l σ ∧ d.resource.Denotes σ.get r

/-- The literal has the datatype, and is a value of the type of the layout `ref`. -/
def DsCtx.Readable (c : DsCtx R) (ref : R) (datatype : R) (lit : RdfLit) : Prop :=
  (match lit.type with
    | .any i => i
    | .langString _ => "http://www.w3.org/1999/02/22-rdf-syntax-ns#langString") = c.datatypeIri datatype ∧
  (c.fromLiteral ref lit.value).isSome = true

instance (c : DsCtx R) (ref datatype : R) (lit : RdfLit) : Decidable (c.Readable ref datatype lit) :=
  inferInstanceAs (Decidable (_ ∧ _))

/-- The text is an integer within the bounds. -/
def DsCtx.IntWithin (c : DsCtx R) (lo hi : Int) (s : String) : Prop := ∃ z, c.parseInt s = some z ∧ lo ≤ z ∧ z ≤ hi

/-- What the error says is true at the place `p`. -/
inductive DsCause (c : DsCtx R) (p : Place R) : DsError → Prop
  /-- a resource mentioned in the layout is unknown -/
  | unknown {r} : DsUses c p r → c.known r = false → DsCause c p .missingData
  /-- the patterns of the layout have no match -/
  | missing {l} : p.Derived c l → NoMatch c.ds (p.inputs.map some ++ List.replicate l.own.1 none) (inGraph p.graph l.own.2) →
      DsCause c p .missingData
  /-- they have several matches -/
  | ambiguous {l} : p.Derived c l → SeveralMatches c.ds (p.inputs.map some ++ List.replicate l.own.1 none) (inGraph p.graph l.own.2) →
      DsCause c p .dataAmbiguity
  /-- a field that is not optional has no match -/
  | noField {key σ₀ pats fmt} : DsPart c p (.field key true) σ₀ pats fmt → NoMatch c.ds σ₀ (inGraph p.graph pats) →
      DsCause c p (.missingField key)
  /-- a node of a list or an item of a tuple has no match -/
  | noNode {σ₀ pats fmt} : DsPart c p .node σ₀ pats fmt → NoMatch c.ds σ₀ (inGraph p.graph pats) → DsCause c p .missingData
  | noItem {σ₀ pats fmt} : DsPart c p .item σ₀ pats fmt → NoMatch c.ds σ₀ (inGraph p.graph pats) → DsCause c p .missingData
  /-- a part, other than the elements of a set, has several matches -/
  | several {kind σ₀ pats fmt} : DsPart c p kind σ₀ pats fmt → kind ≠ .element → SeveralMatches c.ds σ₀ (inGraph p.graph pats) →
      DsCause c p .dataAmbiguity
  /-- no variant has a match -/
  | noVariant {l σ} : p.Derived c (.sum l) → p.OnlyMatch c (.sum l) σ →
      (∀ x ∈ l.variants, NoMatch c.ds (σ ++ List.replicate x.intro none) (inGraph p.graph x.dataset)) → DsCause c p .missingData
  /-- two variants have a match -/
  | variants {l σ} {i j : Nat} {x y : Variant R} {τ τ'} : p.Derived c (.sum l) → p.OnlyMatch c (.sum l) σ → i ≠ j →
      l.variants[i]? = some x → l.variants[j]? = some y → IsMatch c.ds (σ ++ List.replicate x.intro none) (inGraph p.graph x.dataset) τ →
      IsMatch c.ds (σ ++ List.replicate y.intro none) (inGraph p.graph y.dataset) τ' → DsCause c p .dataAmbiguity
  /-- the resource has no IRI -/
  | noId {l σ r} : p.Derived c (.id l) → p.OnlyMatch c (.id l) σ → l.resource.Denotes σ.get r → c.irisOf r = [] →
      DsCause c p .missingId
  /-- the resource has several IRIs -/
  | ids {l σ r} : p.Derived c (.id l) → p.OnlyMatch c (.id l) σ → l.resource.Denotes σ.get r → 2 ≤ (c.irisOf r).length →
      DsCause c p .ambiguousId
  /-- the resource has no literal -/
  | noLiteral {d r} : p.ReadsLiteral c d r → c.literalsOf r = [] → DsCause c p .expectedLiteral
  /-- it has literals, none of which is a value of the type -/
  | mismatch {d r} : p.ReadsLiteral c d r → c.literalsOf r ≠ [] → (∀ lit ∈ c.literalsOf r, ¬ c.Readable p.layout d.datatype lit) →
      DsCause c p .literalTypeMismatch
  /-- several are values of the type -/
  | literals {d r} : p.ReadsLiteral c d r → 2 ≤ ((c.literalsOf r).filter fun lit => c.Readable p.layout d.datatype lit).length →
      DsCause c p .ambiguousLiteralValue
  /-- the type is `Id`, and the resource has no identifier -/
  | primNoId {r rest} : c.prim p.layout = some .id → p.inputs = r :: rest → c.irisOf r = [] → c.blankIdsOf r = [] →
      DsCause c p .missingId
  /-- it has several IRIs, or no IRI and several blank node identifiers -/
  | primIds {r rest} : c.prim p.layout = some .id → p.inputs = r :: rest →
      2 ≤ (c.irisOf r).length ∨ c.irisOf r = [] ∧ 2 ≤ (c.blankIdsOf r).length → DsCause c p .ambiguousId
  /-- the type is `String`, and the resource has no string -/
  | primNoString {r rest} : c.prim p.layout = some .string → p.inputs = r :: rest →
      (∀ lit ∈ c.literalsOf r, lit.type ≠ .any xsdString) → DsCause c p .missingData
  /-- the type is one of integers, and the resource has no literal -/
  | primNoLiteral {dt lo hi r rest} : c.prim p.layout = some (.int dt lo hi) → p.inputs = r :: rest → c.literalsOf r = [] →
      DsCause c p .expectedLiteral
  /-- it has literals, none of the datatype -/
  | primMismatch {dt lo hi r rest} : c.prim p.layout = some (.int dt lo hi) → p.inputs = r :: rest → c.literalsOf r ≠ [] →
      (∀ lit ∈ c.literalsOf r, lit.type ≠ .any dt) → DsCause c p .literalTypeMismatch
  /-- one of the datatype is not an integer within the bounds -/
  | primInvalid {dt lo hi r rest lit} : c.prim p.layout = some (.int dt lo hi) → p.inputs = r :: rest → lit ∈ c.literalsOf r →
      lit.type = .any dt → ¬ c.IntWithin lo hi lit.value → DsCause c p .invalidLiteralValue
  /-- several are of the datatype -/
  | primLiterals {dt lo hi r rest} : c.prim p.layout = some (.int dt lo hi) → p.inputs = r :: rest →
      2 ≤ ((c.literalsOf r).filter fun lit => lit.type == .any dt).length → DsCause c p .ambiguousLiteralValue

end Verif
