import Verif.DehydrateSpec
import Verif.HydrateSpec
import Verif.SyntaxSpec

/-!
# Renaming resources and adding data

Specifications for the invariance of hydration: renaming the resources of a dataset, and adding quads that no layout looks at.
-/

namespace Verif

variable {R : Type _}

/-- The resource occurs in the quad. -/
def Quad.Has (q : Quad R) (r : R) : Prop := r = q.s ∨ r = q.p ∨ r = q.o ∨ q.g = some r

/-- The resource occurs in the patterns. -/
def PatsHaveConstant (pats : List (QuadPat R)) (r : R) : Prop :=
  ∃ q ∈ pats, q.s = .res r ∨ q.p = .res r ∨ q.o = .res r ∨ q.g = some (.res r)

/-- The resource occurs in the inputs or in the graph of the value. -/
def ValueFormat.HasConstant (f : ValueFormat R) (r : R) : Prop := .res r ∈ f.input ∨ f.graph = some (some (.res r))

/-- The resource occurs in the layout, other than as a layout. -/
def Layout.HasConstant (r : R) : Layout R → Prop
  | .never => False
  | .unit l => PatsHaveConstant l.dataset r
  | .boolean l => PatsHaveConstant l.dataset r ∨ l.resource = .res r ∨ l.datatype = r
  | .number l => PatsHaveConstant l.dataset r ∨ l.resource = .res r ∨ l.datatype = r
  | .byteString l => PatsHaveConstant l.dataset r ∨ l.resource = .res r ∨ l.datatype = r
  | .textString l => PatsHaveConstant l.dataset r ∨ l.resource = .res r ∨ l.datatype = r
  | .id l => PatsHaveConstant l.dataset r ∨ l.resource = .res r
  | .product l => PatsHaveConstant l.dataset r ∨ ∃ e ∈ l.fields, PatsHaveConstant e.2.dataset r ∨ e.2.value.HasConstant r
  | .unordered l => PatsHaveConstant l.dataset r ∨ PatsHaveConstant l.item.dataset r ∨ l.item.value.HasConstant r
  | .ordered l => PatsHaveConstant l.dataset r ∨ l.head = .res r ∨ l.tail = .res r ∨ PatsHaveConstant l.node.dataset r ∨
      l.node.value.HasConstant r
  | .sized l => PatsHaveConstant l.dataset r ∨ ∃ i ∈ l.items, PatsHaveConstant i.dataset r ∨ i.value.HasConstant r
  | .sum l => PatsHaveConstant l.dataset r ∨ ∃ v ∈ l.variants, PatsHaveConstant v.dataset r ∨ v.value.HasConstant r
  | .always => False

/-- The resource occurs in some layout of the registry, other than as a layout. -/
def Registry.HasConstant (reg : Registry R) (r : R) : Prop := ∃ ref l, reg ref = some l ∧ l.HasConstant r

/-- A constant of the pattern differs from the quad. -/
def QuadPat.Excludes (pat : QuadPat R) (e : Quad R) : Prop :=
  (∃ r, pat.s = .res r ∧ r ≠ e.s) ∨ (∃ r, pat.p = .res r ∧ r ≠ e.p) ∨ (∃ r, pat.o = .res r ∧ r ≠ e.o) ∨
  ∃ r, pat.g = some (.res r) ∧ e.g ≠ some r

/-- The quad `e` is of no use for the patterns, when the variables `b` are already known: for each pattern, a constant differs
from the quad, or the subject is known to be none of `e`'s (`foreign`). -/
def Ignored (e : Quad R) (foreign : Prop) (b : Nat → Prop) : List (QuadPat R) → Prop
  | [] => True
  | q :: rest => (q.Excludes e ∨ (foreign ∧ ∃ x, q.s = .var x ∧ b x)) ∧ Ignored e foreign (fun x => b x ∨ x ∈ q.vars) rest

/-- The variables known before the parts of a layout (fields, items, variants) are looked for: inputs, and variables of the
patterns of the layout. -/
def known (input : Nat) (pats : List (QuadPat R)) (x : Nat) : Prop := x < input ∨ x ∈ patsVars pats

/-- The quad `e` is of no use for the layout. In an ordered list, the node is known too. -/
def Layout.Ignores (e : Quad R) (foreign : Prop) : Layout R → Prop
  | .never => True
  | .unit l => Ignored e foreign (· < 1) l.dataset
  | .boolean l => Ignored e foreign (· < 1) l.dataset
  | .number l => Ignored e foreign (· < 1) l.dataset
  | .byteString l => Ignored e foreign (· < 1) l.dataset
  | .textString l => Ignored e foreign (· < 1) l.dataset
  | .id l => Ignored e foreign (· < 1) l.dataset
  | .product l => Ignored e foreign (· < l.input) l.dataset ∧
      ∀ f ∈ l.fields, Ignored e foreign (known l.input l.dataset) f.2.dataset
  | .unordered l => Ignored e foreign (· < l.input) l.dataset ∧
      Ignored e foreign (known l.input l.dataset) l.item.dataset
  | .ordered l => Ignored e foreign (· < l.input) l.dataset ∧
      Ignored e foreign (fun x => known l.input l.dataset x ∨ x = l.input + l.intro) l.node.dataset
  | .sized l => Ignored e foreign (· < l.input) l.dataset ∧
      ∀ i ∈ l.items, Ignored e foreign (known l.input l.dataset) i.dataset
  | .sum l => Ignored e foreign (· < l.input) l.dataset ∧
      ∀ v ∈ l.variants, Ignored e foreign (known l.input l.dataset) v.dataset
  | .always => True

/-- The second list is the first one, renamed, with quads satisfying `D` added anywhere. -/
inductive Enriched (f : R → R) (D : Quad R → Prop) : List (Quad R) → List (Quad R) → Prop
  | nil : Enriched f D [] []
  | keep (q : Quad R) {l l'} : Enriched f D l l' → Enriched f D (q :: l) (q.map f :: l')
  | add {e : Quad R} {l l'} : D e → Enriched f D l l' → Enriched f D l (e :: l')

/-- The error, with the resources of the dataset renamed. -/
def HyError.rename (f : R → R) : HyError R → HyError R
  | .dataAmbiguity (.orderedListNode ref head tail) => .dataAmbiguity (.orderedListNode ref (f head) (f tail))
  | .missingData (.orderedListNode ref head tail) => .missingData (.orderedListNode ref (f head) (f tail))
  | e => e

/-- The resource occurs in the dataset, in a layout (other than as a layout), as the current graph or among the inputs. -/
def HyCtx.Uses (c : HyCtx R) (g : Option R) (inputs : List R) (r : R) : Prop :=
  (∃ q ∈ c.ds, q.Has r) ∨ c.reg.HasConstant r ∨ g = some r ∨ r ∈ inputs

/-- The generated names are different blank nodes, which occur neither in the layouts nor among the names of the inputs. -/
structure FreshNames (reg : Registry Term) (o : Dehydrate.DeOptions) : Prop where
  blank : ∀ i, ∃ b, o.generator i = .blank b
  distinct : ∀ i j, o.generator i = o.generator j → i = j
  layouts : ∀ i t, reg.HasConstant t → o.generator i ≠ t
  inputs : ∀ i j, o.generator i ≠ o.inputTerm j

/-- The default options: the inputs are named `_:input0`, `_:input1`, … and the other resources `_:0`, `_:1`, … .
`layouts/src/distill/de/mod.rs` L127-135. -/
def Dehydrate.DeOptions.default (order : List (Quad IRes) → List (Quad IRes)) : Dehydrate.DeOptions where
  inputCount := none
  inputTerm i := .blank ("input" ++ toString i)
  generator i := .blank (toString i)
  order := order

/-- `f` renames blank nodes only: it leaves alone the other terms, the constants of the layouts and the names of the inputs, and
does not merge the terms that occur in `quads` and `values`, or in the layouts. -/
structure BlankRenaming (reg : Registry Term) (o : Dehydrate.DeOptions) (quads : List (Quad Term)) (values : List Term)
    (f : Term → Term) : Prop where
  iri : ∀ i, f (.iri i) = .iri i
  literal : ∀ l, f (.literal l) = .literal l
  blank : ∀ b, ∃ b', f (.blank b) = .blank b'
  constant : ∀ t, reg.HasConstant t → f t = t
  input : ∀ i, f (o.inputTerm i) = o.inputTerm i
  injective : ∀ t t', (∃ q ∈ quads, q.Has t) ∨ t ∈ values ∨ reg.HasConstant t →
    (∃ q ∈ quads, q.Has t') ∨ t' ∈ values ∨ reg.HasConstant t' → f t = f t' → t = t'

/-- The context `c'` is `c` with its resources renamed by `f`, and with quads satisfying `D` added. `P` are the resources in use. -/
structure Extension (f : R → R) (P : R → Prop) (D : Quad R → Prop) (c c' : HyCtx R) : Prop where
  reg : c'.reg = c.reg
  xsd : c'.xsd = c.xsd
  le : c'.le = c.le
  iris : ∀ r, P r → c'.irisOf (f r) = c.irisOf r
  literals : ∀ r, P r → c'.literalsOf (f r) = c.literalsOf r
  injective : ∀ r r', P r → P r' → f r = f r' → r = r'
  constants : ∀ r, c.reg.HasConstant r → P r ∧ f r = r
  quads : ∀ q ∈ c.ds, ∀ r, q.Has r → P r
  dataset : Enriched f D c.ds c'.ds
  ignored : ∀ e, D e → ∀ ref l, c.reg ref = some l → l.Ignores e (∀ r, P r → f r ≠ e.s)

end Verif
