import Verif.HydrateSpec

/-!
# Causes of panics

`Place`: what hydration reads at some point: a layout, from some resources, in a graph. `Place.Component`: a place read for a field of
a record or an item of a list. `Place.Reads`: the same, and the variants of a sum. `PanicCause`: what makes hydration panic at a place.

From the model these definitions use the context `HyCtx` (layouts, interpretation, dataset); matches and meanings are those of
`Verif/MatchingSpec.lean` and `Verif/HydrateSpec.lean`.
-/

namespace Verif

variable {R : Type _} [DecidableEq R]

/-- A layout, the resources it describes, and the current graph. -/
structure Place (R : Type _) where
  graph : Option R
  layout : R
  inputs : List R

namespace Place

/-- The layout of the place is `l`, and it has as many inputs as it expects. -/
def Has (c : HyCtx R) (p : Place R) (l : Layout R) : Prop :=
  c.reg p.layout = some l ∧ ∀ k, l.inputCount = some k → p.inputs.length = k

/-- `σ` is the only match of the patterns of the layout, which introduces `intro` variables. -/
def Match (c : HyCtx R) (p : Place R) (intro : Nat) (dataset : List (QuadPat R)) (σ : Subst R) : Prop :=
  UniqueMatch c.ds (p.inputs.map some ++ List.replicate intro none) (inGraph p.graph dataset) σ

/-- The place `q` is where the value of format `fmt` is read, once the patterns are matched by `σ`. -/
def Sub (p : Place R) (fmt : ValueFormat R) (σ : Subst R) (q : Place R) : Prop :=
  List.Forall₂ (fun p r => p.Denotes σ.get r) fmt.input q.inputs ∧ GraphDenotes p.graph fmt.graph σ q.graph ∧ q.layout = fmt.layout

/-- The value read at the place is `v`, for every sufficient bound on the nesting of layouts. -/
def Means (c : HyCtx R) (p : Place R) (v : TypedValue R) : Prop := ∃ N, ∀ n, N ≤ n → Meaning c n p.graph p.layout p.inputs v

/-- There is no value at the place, whatever the bound on the nesting of layouts, if it is sufficient. -/
def Meaningless (c : HyCtx R) (p : Place R) : Prop := ∃ N, ∀ n, N ≤ n → ∀ v, ¬ Meaning c n p.graph p.layout p.inputs v

end Place

/-- `σ'` matches the patterns of a node of the list that begins with the node `head`. `σ` matches the patterns of the list. -/
inductive ListNode (ds : List (Quad R)) (g : Option R) (node : ItemLayout R) (σ : Subst R) (tail : R) : R → Subst R → Prop
  | here {head σ'} : head ≠ tail →
      UniqueMatch ds (σ ++ [some head, none] ++ List.replicate node.intro none) (inGraph g node.dataset) σ' →
      ListNode ds g node σ tail head σ'
  | after {head σ' next τ} : head ≠ tail →
      UniqueMatch ds (σ ++ [some head, none] ++ List.replicate node.intro none) (inGraph g node.dataset) σ' →
      σ'.get (σ.length + 1) = some next → ListNode ds g node σ tail next τ → ListNode ds g node σ tail head τ

/-- A value of format `fmt` is read for a field or an item, once the patterns are matched by `σ`. -/
inductive ComponentFormat (c : HyCtx R) (p : Place R) : ValueFormat R → Subst R → Prop
  | field {l σ e σ'} : p.Has c (.product l) → p.Match c l.intro l.dataset σ → e ∈ l.fields →
      UniqueMatch c.ds (σ ++ List.replicate e.2.intro none) (inGraph p.graph e.2.dataset) σ' → ComponentFormat c p e.2.value σ'
  | item {l σ σ'} : p.Has c (.unordered l) → p.Match c l.intro l.dataset σ →
      IsMatch c.ds (σ ++ List.replicate l.item.intro none) (inGraph p.graph l.item.dataset) σ' → ComponentFormat c p l.item.value σ'
  | node {l σ head tail σ'} : p.Has c (.ordered l) → p.Match c l.intro l.dataset σ → l.head.Denotes σ.get head →
      l.tail.Denotes σ.get tail → ListNode c.ds p.graph l.node σ tail head σ' → ComponentFormat c p l.node.value σ'
  | element {l σ i σ'} : p.Has c (.sized l) → p.Match c l.intro l.dataset σ → i ∈ l.items →
      UniqueMatch c.ds (σ ++ List.replicate i.intro none) (inGraph p.graph i.dataset) σ' → ComponentFormat c p i.value σ'

/-- A value of format `fmt` is read for a variant, once the patterns are matched by `σ`. -/
inductive VariantFormat (c : HyCtx R) (p : Place R) : ValueFormat R → Subst R → Prop
  | variant {l σ x σ'} : p.Has c (.sum l) → p.Match c l.intro l.dataset σ → x ∈ l.variants →
      UniqueMatch c.ds (σ ++ List.replicate x.intro none) (inGraph p.graph x.dataset) σ' → VariantFormat c p x.value σ'

namespace Place

/-- The place `q` is read for a field or an item of what is at the place `p`. -/
def Component (c : HyCtx R) (p q : Place R) : Prop := ∃ fmt σ, ComponentFormat c p fmt σ ∧ p.Sub fmt σ q

/-- The place `q` is read for a field, an item or a variant of what is at the place `p`. -/
def Reads (c : HyCtx R) (p q : Place R) : Prop := ∃ fmt σ, (ComponentFormat c p fmt σ ∨ VariantFormat c p fmt σ) ∧ p.Sub fmt σ q

end Place

/-- The literal layouts. -/
def Layout.literalLayout {R : Type _} : Layout R → Option (DataLayout R)
  | .boolean l => some l
  | .number l => some l
  | .byteString l => some l
  | .textString l => some l.toDataLayout
  | _ => none

/-- The literal layout `l` of the place `p` describes the resource `r`. -/
def LiteralAt (c : HyCtx R) (p : Place R) (l : DataLayout R) (r : R) : Prop :=
  ∃ σ, p.Match c l.intro l.dataset σ ∧ l.resource.Denotes σ.get r

/-- The literal is of the type of the literal layout. -/
def OfType (c : HyCtx R) (l : DataLayout R) (lit : RdfLit) (i : String) : Prop := lit.type = .any i ∧ i ∈ c.irisOf l.datatype

/-- The variant `x` of a sum has a value, if the patterns of the sum are matched by `σ`. -/
def VariantMeans (c : HyCtx R) (p : Place R) (σ : Subst R) (x : Variant R) : Prop :=
  ∃ σ' q v, UniqueMatch c.ds (σ ++ List.replicate x.intro none) (inGraph p.graph x.dataset) σ' ∧ p.Sub x.value σ' q ∧ q.Means c v

/-- The variant `x` of a sum has no value, if the patterns of the sum are matched by `σ`. -/
def VariantMeaningless (c : HyCtx R) (p : Place R) (σ : Subst R) (x : Variant R) : Prop :=
  (∀ τ, ¬ IsMatch c.ds (σ ++ List.replicate x.intro none) (inGraph p.graph x.dataset) τ) ∨
  ∃ σ' q, UniqueMatch c.ds (σ ++ List.replicate x.intro none) (inGraph p.graph x.dataset) σ' ∧ p.Sub x.value σ' q ∧ q.Meaningless c

/-- What makes hydration panic at a place. -/
inductive PanicCause (c : HyCtx R) (p : Place R) : Prop
  /-- a variable of the input or graph of a field, item or variant is not bound -/
  | unboundPart {fmt σ} : ComponentFormat c p fmt σ ∨ VariantFormat c p fmt σ → (∀ q, ¬ p.Sub fmt σ q) → PanicCause c p
  /-- the resource of a literal layout is a variable that is not bound -/
  | unboundLiteral {l d σ} : p.Has c l → l.literalLayout = some d → p.Match c d.intro d.dataset σ →
      (∀ r, ¬ d.resource.Denotes σ.get r) → PanicCause c p
  /-- a literal with a language tag -/
  | language {l d r lit t} : p.Has c l → l.literalLayout = some d → LiteralAt c p d r → lit ∈ c.literalsOf r →
      lit.type = .langString t → PanicCause c p
  /-- several literals of the type -/
  | literals {l d r} : p.Has c l → l.literalLayout = some d → LiteralAt c p d r →
      2 ≤ ((c.literalsOf r).filter fun lit => (c.irisOf d.datatype).any fun j => lit.type == .any j).length → PanicCause c p
  /-- a literal that is not a Boolean -/
  | boolean {l r lit i} : p.Has c (.boolean l) → LiteralAt c p l r → lit ∈ c.literalsOf r → OfType c l lit i →
      (i = c.xsd.boolean → c.xsd.parseBoolean lit.value = none) → PanicCause c p
  /-- a literal that is not a decimal number -/
  | number {l r lit i} : p.Has c (.number l) → LiteralAt c p l r → lit ∈ c.literalsOf r → OfType c l lit i →
      c.xsd.isDecimal i = true → c.xsd.parseDecimal lit.value = none → PanicCause c p
  /-- a byte string -/
  | byteString {l r lit i} : p.Has c (.byteString l) → LiteralAt c p l r → lit ∈ c.literalsOf r → OfType c l lit i →
      PanicCause c p
  /-- the resource of an identifier layout is a variable that is not bound -/
  | unboundId {l σ} : p.Has c (.id l) → p.Match c l.intro l.dataset σ → (∀ r, ¬ l.resource.Denotes σ.get r) → PanicCause c p
  /-- a resource without IRI, or with several IRIs -/
  | iris {l σ r} : p.Has c (.id l) → p.Match c l.intro l.dataset σ → l.resource.Denotes σ.get r →
      (c.irisOf r).length ≠ 1 → PanicCause c p
  /-- the head, the tail, or the rest of a node, of an ordered list is a variable that is not bound -/
  | unboundHead {l σ} : p.Has c (.ordered l) → p.Match c l.intro l.dataset σ → (∀ r, ¬ l.head.Denotes σ.get r) → PanicCause c p
  | unboundTail {l σ} : p.Has c (.ordered l) → p.Match c l.intro l.dataset σ → (∀ r, ¬ l.tail.Denotes σ.get r) → PanicCause c p
  | unboundRest {l σ head tail σ'} : p.Has c (.ordered l) → p.Match c l.intro l.dataset σ → l.head.Denotes σ.get head →
      l.tail.Denotes σ.get tail → ListNode c.ds p.graph l.node σ tail head σ' → σ'.get (σ.length + 1) = none → PanicCause c p
  /-- no variant of a sum has a value -/
  | noVariant {l σ} : p.Has c (.sum l) → p.Match c l.intro l.dataset σ → (∀ x ∈ l.variants, VariantMeaningless c p σ x) →
      PanicCause c p
  /-- several variants of a sum have a value -/
  | variants {l σ} {i j : Nat} {x y} : p.Has c (.sum l) → p.Match c l.intro l.dataset σ → l.variants[i]? = some x →
      l.variants[j]? = some y → i ≠ j → VariantMeans c p σ x → VariantMeans c p σ y → PanicCause c p

/-- The layout of the place is a sum, one variant of which declares variables. -/
def Place.VariantDeclares (c : HyCtx R) (p : Place R) : Prop := ∃ l, p.Has c (.sum l) ∧ ∃ x ∈ l.variants, x.intro ≠ 0

end Verif
