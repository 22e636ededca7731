import Verif.RoundTripSpec
import Verif.RenameSpec

/-!
# Documents in one dataset

Specifications for C81: trees written on their own, whose datasets are put together.
-/

namespace Verif

open Dehydrate

/-- A tree, and what it was written as: `dehydrate` with a layout and options, returning a dataset and the subjects. -/
structure Document where
  ctx : DeCtx
  options : DeOptions
  layout : Term
  depth : Nat
  tree : Value
  dataset : List (Quad Term)
  subjects : List Term

/-- The identifiers of the nodes of the tree. -/
def Document.ids (d : Document) : List String := nodeIds d.ctx.reg d.depth d.layout d.tree

/-- The document was written, and can be read back on its own: the conditions of C17. -/
structure Document.Written (d : Document) : Prop where
  xsd : XsdLaws d.ctx.xsd
  sorted : d.ctx.reg.Sorted
  blank : BlankNames d.options
  order : ∀ l, (d.options.order l).Perm l
  layouts : TreeLayouts d.ctx.reg d.ctx.xsd d.layout
  tree : d.tree.Sorted
  recoverable : Recoverable d.ctx.reg d.layout d.tree
  distinct : d.ids.Nodup
  written : dehydrate d.ctx d.depth d.tree d.layout d.options = .ok (d.dataset, d.subjects)

/-- The documents describe different things: no identifier is given to a node of both, and the blank nodes of one are not blank
nodes of the other. -/
structure Document.Apart (d e : Document) : Prop where
  ids : ∀ i ∈ d.ids, i ∉ e.ids
  names : ∀ t, NodeName d.options t → ¬ NodeName e.options t

/-- The dataset and subjects of `e` are those of `d`, with the blank nodes renamed by `f`: two blank nodes that occur in `d`, or in the
layouts, keep different names, and those of the layouts keep theirs. -/
structure Document.Isomorphic (d e : Document) (f : Term → Term) : Prop where
  iri : ∀ i, f (.iri i) = .iri i
  literal : ∀ l, f (.literal l) = .literal l
  blank : ∀ b, ∃ b', f (.blank b) = .blank b'
  constant : ∀ t, d.ctx.reg.HasConstant t → f t = t
  injective : ∀ t t', (∃ q ∈ d.dataset, q.Has t) ∨ t ∈ d.subjects ∨ d.ctx.reg.HasConstant t →
    (∃ q ∈ d.dataset, q.Has t') ∨ t' ∈ d.subjects ∨ d.ctx.reg.HasConstant t' → f t = f t' → t = t'
  dataset : ∀ q, q ∈ e.dataset ↔ ∃ q₀ ∈ d.dataset, q = q₀.map f
  subjects : e.subjects = d.subjects.map f

end Verif
