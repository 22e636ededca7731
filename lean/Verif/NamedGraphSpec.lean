import Verif.RoundTripSpec

/-! # Named graphs: what the theorems of C87 and C88 talk about -/

namespace Verif

variable {R : Type _} [DecidableEq R]

/-- The quads of one graph of a dataset, as a dataset of its own: they are moved to the default graph. -/
def _root_.List.graph (ds : List (Quad R)) (g : Option R) : List (Quad R) :=
  (ds.filter fun q => q.g = g).map fun q => { q with g := none }

/-- The quads, in a graph. -/
def _root_.List.putIn (ds : List (Quad R)) (g : R) : List (Quad R) := ds.map fun q => { q with g := some g }

/-- The layout `ref` and the layouts it refers to name no graph, neither in their patterns nor for the values they refer to. -/
def NoGraph (reg : Registry R) (ref : R) : Prop :=
  ∀ ref', Reaches reg ref ref' → ∀ l, reg ref' = some l → (∀ p ∈ l.patterns, p.g = none) ∧ ∀ f ∈ l.formats, f.graph = none

/-- The layout with other patterns. -/
def Layout.mapPatterns (f : QuadPat R → QuadPat R) : Layout R → Layout R
  | .never => .never
  | .unit l => .unit { l with dataset := l.dataset.map f }
  | .boolean l => .boolean { l with dataset := l.dataset.map f }
  | .number l => .number { l with dataset := l.dataset.map f }
  | .byteString l => .byteString { l with dataset := l.dataset.map f }
  | .textString l => .textString { l with dataset := l.dataset.map f }
  | .id l => .id { l with dataset := l.dataset.map f }
  | .product l =>
    .product { l with
      dataset := l.dataset.map f
      fields := l.fields.map fun e => (e.1, { e.2 with dataset := e.2.dataset.map f }) }
  | .sum l =>
    .sum { l with
      dataset := l.dataset.map f
      variants := l.variants.map fun v => { v with dataset := v.dataset.map f } }
  | .unordered l =>
    .unordered { l with dataset := l.dataset.map f, item := { l.item with dataset := l.item.dataset.map f } }
  | .ordered l =>
    .ordered { l with dataset := l.dataset.map f, node := { l.node with dataset := l.node.dataset.map f } }
  | .sized l =>
    .sized { l with
      dataset := l.dataset.map f
      items := l.items.map fun v => { v with dataset := v.dataset.map f } }
  | .always => .always

/-- The same layouts, with the graph `g` named in every pattern. -/
def Registry.naming (reg : Registry R) (g : R) : Registry R := fun ref =>
  (reg ref).map (Layout.mapPatterns fun p => { p with g := some (.res g) })

end Verif
