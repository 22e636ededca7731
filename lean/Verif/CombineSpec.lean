import Verif.StoredSpec

/-!
# Record layouts put together

Specifications for C83 (a record layout with the fields of several other ones) and C84 (documents about the same subject).
-/

namespace Verif

/-- The record layout `l`, named `ref`, has the fields of the record layouts `parts`, and states what they state. None of them
introduces variables. -/
structure Registry.Joins {R : Type _} (reg : Registry R) (ref : R) (l : ProductLayout R) (parts : List R) : Prop where
  layout : reg ref = some (.product l)
  nonempty : parts ≠ []
  records : ∀ r ∈ parts, ∃ l', reg r = some (.product l') ∧ l'.input = l.input ∧ l'.intro = 0
  intro : l.intro = 0
  dataset : ∀ q, q ∈ l.dataset ↔ ∃ r ∈ parts, ∃ l', reg r = some (.product l') ∧ q ∈ l'.dataset
  fields : ∀ e, e ∈ l.fields ↔ ∃ r ∈ parts, ∃ l', reg r = some (.product l') ∧ e ∈ l'.fields

/-- The layout `ref`, or a layout it refers to, has a pattern with the property `p`. -/
def UsesProperty {R : Type _} (reg : Registry R) (ref p : R) : Prop :=
  ∃ ref' l, Reaches reg ref ref' ∧ reg ref' = some l ∧ ∃ q ∈ l.patterns, q.p = .res p

/-- The dataset `all` contains what the document was written as. What else its default graph says about the nodes of the document,
it says with properties that the layouts of the document do not use. -/
structure Document.Among (d : Document) (all : List (Quad Term)) : Prop where
  contains : ∀ q ∈ d.dataset, q ∈ all
  other : ∀ q ∈ all, q ∉ d.dataset → q.g = none →
    (¬ StandsForNode d.options d.ids d.dataset d.subjects q.s ∧ ∀ l, q.s ≠ .literal l) ∨ ¬ UsesProperty d.ctx.reg d.layout q.p

/-- What `e` says of the nodes of `d`, it says with properties that the layouts of `d` do not use. -/
def Document.Beside (d e : Document) : Prop :=
  ∀ q ∈ e.dataset, ¬ StandsForNode d.options d.ids d.dataset d.subjects q.s ∨ ¬ UsesProperty d.ctx.reg d.layout q.p

end Verif
