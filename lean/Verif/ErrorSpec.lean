import Verif.PanicSpec
import Verif.ReadBackSpec

/-!
# What the errors of hydration say

`ErrorCause c p e`: what the error `e` says is true where the place `p` is read. Places, the components of a place and the layouts at a
place are those of `Verif/PanicSpec.lean`; the own patterns of a layout (`Layout.OwnMatch`) those of `Verif/ReadBackSpec.lean`.
-/

namespace Verif

variable {R : Type _} [DecidableEq R]

/-- The patterns have no match. -/
def NoMatch (ds : List (Quad R)) (σ : Subst R) (pats : List (QuadPat R)) : Prop := ∀ τ, ¬ IsMatch ds σ pats τ

/-- The patterns have several matches. -/
def SeveralMatches (ds : List (Quad R)) (σ : Subst R) (pats : List (QuadPat R)) : Prop :=
  ∃ τ τ', IsMatch ds σ pats τ ∧ IsMatch ds σ pats τ' ∧ τ ≠ τ'

/-- The list that begins with the node `head` has the node `node'`, which may be the first one. -/
inductive ListReaches (ds : List (Quad R)) (g : Option R) (node : ItemLayout R) (σ : Subst R) (tail : R) : R → R → Prop
  | here {head} : head ≠ tail → ListReaches ds g node σ tail head head
  | after {head σ' next node'} : head ≠ tail →
      UniqueMatch ds (σ ++ [some head, none] ++ List.replicate node.intro none) (inGraph g node.dataset) σ' →
      σ'.get (σ.length + 1) = some next → ListReaches ds g node σ tail next node' → ListReaches ds g node σ tail head node'

/-- What the error says is true at the place `p`. -/
inductive ErrorCause (c : HyCtx R) (p : Place R) : HyError R → Prop
  /-- there is no such layout -/
  | notFound : c.reg p.layout = none → ErrorCause c p (.layoutNotFound p.layout)
  /-- the layout has another number of inputs -/
  | inputs {l k} : c.reg p.layout = some l → l.inputCount = some k → p.inputs.length ≠ k →
      ErrorCause c p (.invalidInputCount k p.inputs.length)
  /-- the layout has no value -/
  | never : c.reg p.layout = some .never → ErrorCause c p .incompatibleLayout
  /-- the patterns of the layout have no match -/
  | missing {l} : p.Has c l → (∀ σ, ¬ l.OwnMatch c.ds p.graph p.inputs σ) → ErrorCause c p (.missingData (.discriminant p.layout))
  /-- they have several matches -/
  | ambiguous {l σ σ'} : p.Has c l → l.OwnMatch c.ds p.graph p.inputs σ → l.OwnMatch c.ds p.graph p.inputs σ' → σ ≠ σ' →
      ErrorCause c p (.dataAmbiguity (.discriminant p.layout))
  /-- the resource has no literal of the type of the layout -/
  | noLiteral {l d r} : p.Has c l → l.literalLayout = some d → LiteralAt c p d r → (∀ lit ∈ c.literalsOf r, ∀ i, ¬ OfType c d lit i) →
      ErrorCause c p .noMatchingLiteral
  /-- a literal of the type of a layout of numbers is of a type that is not known to be one of numbers -/
  | notNumber {l r lit i} : p.Has c (.number l) → LiteralAt c p l r → lit ∈ c.literalsOf r → OfType c l lit i →
      c.xsd.isDecimal i = false → ErrorCause c p (.unknownNumberDatatype i)
  /-- a required field has no match -/
  | noField {l σ key field} : p.Has c (.product l) → p.Match c l.intro l.dataset σ → (key, field) ∈ l.fields → field.required = true →
      NoMatch c.ds (σ ++ List.replicate field.intro none) (inGraph p.graph field.dataset) → ErrorCause c p (.missingData (.key p.layout key))
  /-- a field has several matches -/
  | fields {l σ key field} : p.Has c (.product l) → p.Match c l.intro l.dataset σ → (key, field) ∈ l.fields →
      SeveralMatches c.ds (σ ++ List.replicate field.intro none) (inGraph p.graph field.dataset) →
      ErrorCause c p (.dataAmbiguity (.key p.layout key))
  /-- a variant has several matches -/
  | variants {l σ x} : p.Has c (.sum l) → p.Match c l.intro l.dataset σ → x ∈ l.variants →
      SeveralMatches c.ds (σ ++ List.replicate x.intro none) (inGraph p.graph x.dataset) →
      ErrorCause c p (.dataAmbiguity (.variant p.layout x.name))
  /-- a node of a list has no match -/
  | noNode {l σ head tail node} : p.Has c (.ordered l) → p.Match c l.intro l.dataset σ → l.head.Denotes σ.get head →
      l.tail.Denotes σ.get tail → ListReaches c.ds p.graph l.node σ tail head node →
      NoMatch c.ds (σ ++ [some node, none] ++ List.replicate l.node.intro none) (inGraph p.graph l.node.dataset) →
      ErrorCause c p (.missingData (.orderedListNode p.layout node tail))
  /-- a node of a list has several matches -/
  | nodes {l σ head tail node} : p.Has c (.ordered l) → p.Match c l.intro l.dataset σ → l.head.Denotes σ.get head →
      l.tail.Denotes σ.get tail → ListReaches c.ds p.graph l.node σ tail head node →
      SeveralMatches c.ds (σ ++ [some node, none] ++ List.replicate l.node.intro none) (inGraph p.graph l.node.dataset) →
      ErrorCause c p (.dataAmbiguity (.orderedListNode p.layout node tail))
  /-- an item of a tuple has no match -/
  | noItem {l σ item} {i : Nat} : p.Has c (.sized l) → p.Match c l.intro l.dataset σ → l.items[i]? = some item →
      NoMatch c.ds (σ ++ List.replicate item.intro none) (inGraph p.graph item.dataset) →
      ErrorCause c p (.missingData (.sizedListItem p.layout i))
  /-- an item of a tuple has several matches -/
  | items {l σ item} {i : Nat} : p.Has c (.sized l) → p.Match c l.intro l.dataset σ → l.items[i]? = some item →
      SeveralMatches c.ds (σ ++ List.replicate item.intro none) (inGraph p.graph item.dataset) →
      ErrorCause c p (.dataAmbiguity (.sizedListItem p.layout i))

end Verif
