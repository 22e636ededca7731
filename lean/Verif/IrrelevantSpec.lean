import Verif.MatchingSpec
import Verif.CombineSpec

/-!
# Which quads concern a layout

Specification for C96 (what layouts do not speak about has no effect on reading).
-/

namespace Verif

variable {R : Type _}

/-- With some values for its variables, the pattern is the quad. A pattern without a graph is about the current graph, which may be
any one. -/
def QuadPat.Covers (p : QuadPat R) (q : Quad R) : Prop :=
  ∃ f : Nat → Option R, p.s.Denotes f q.s ∧ p.p.Denotes f q.p ∧ p.o.Denotes f q.o ∧
    ∀ pg, p.g = some pg → ∃ g, q.g = some g ∧ pg.Denotes f g

/-- The quad may match a pattern of the layout `ref`, or of a layout it refers to. -/
def Concerns (reg : Registry R) (ref : R) (q : Quad R) : Prop :=
  ∃ ref' l, Reaches reg ref ref' ∧ reg ref' = some l ∧ ∃ p ∈ l.patterns, p.Covers q

/-- The properties of the patterns are not variables, in the layout `ref` and in those it refers to. -/
def FixedProperties (reg : Registry R) (ref : R) : Prop :=
  ∀ ref', Reaches reg ref ref' → ∀ l, reg ref' = some l → ∀ p ∈ l.patterns, ∃ t, p.p = .res t

end Verif
