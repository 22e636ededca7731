import Verif.DehydrateSpec
import Verif.RoundTripSpec

/-!
# Layouts that give one term to each resource

A literal or an identifier is written by giving a term to a resource. `Registry.OneTerm`: the layouts are such that no resource is given
two terms. What is asked for is visible in the layouts: the fields of a record do not describe the same resource by literals or
identifiers, the items of a list describe resources of their own, and two variants that could give a term to the same resource are for
different kinds of values.
-/

namespace Verif

variable {R : Type _}

/-- The layout `ref` may give a term to its input number `k`. -/
inductive Assigns (reg : Registry R) : R → Nat → Prop
  | boolean {ref l} : reg ref = some (.boolean l) → l.resource = .var 0 → Assigns reg ref 0
  | number {ref l} : reg ref = some (.number l) → l.resource = .var 0 → Assigns reg ref 0
  | byteString {ref l} : reg ref = some (.byteString l) → l.resource = .var 0 → Assigns reg ref 0
  | textString {ref l} : reg ref = some (.textString l) → l.resource = .var 0 → Assigns reg ref 0
  | id {ref l} : reg ref = some (.id l) → l.resource = .var 0 → Assigns reg ref 0
  /-- the input is passed to a field, an item or a variant that may do so -/
  | sub {ref l count k j} {fmt : ValueFormat R} : reg ref = some l → l.inputCount = some count → fmt ∈ l.formats → k < count →
      fmt.input[j]? = some (.var k) → Assigns reg fmt.layout j → Assigns reg ref k

/-- The format may give a term to the variable `x`. -/
def ValueFormat.AssignsVar (reg : Registry R) (fmt : ValueFormat R) (x : Nat) : Prop :=
  ∃ j, fmt.input[j]? = some (.var x) ∧ Assigns reg fmt.layout j

/-- The inputs to which the layout may give terms are variables, different ones. -/
structure ValueFormat.Direct (reg : Registry R) (fmt : ValueFormat R) : Prop where
  var : ∀ j, Assigns reg fmt.layout j → ∃ x, fmt.input[j]? = some (.var x)
  inj : ∀ j j' x, Assigns reg fmt.layout j → Assigns reg fmt.layout j' → fmt.input[j]? = some (.var x) →
    fmt.input[j']? = some (.var x) → j = j'

/-- The formats do not both give a term to one of the first `k` variables. -/
def Apart (reg : Registry R) (k : Nat) (fmt fmt' : ValueFormat R) : Prop :=
  ∀ x < k, ¬ (fmt.AssignsVar reg x ∧ fmt'.AssignsVar reg x)

/-- No value is of the right kind for both layouts. -/
def NoCommonKind (reg : Registry R) (ref ref' : R) : Prop :=
  ∀ l l' v, reg ref = some l → reg ref' = some l' → l.HeadMismatch v ∨ l'.HeadMismatch v

/-- The layout gives at most one term to each resource, if the layouts it refers to do. -/
def Layout.OneTerm (reg : Registry R) : Layout R → Prop
  | .boolean l => ∃ x, l.resource = .var x
  | .number l => ∃ x, l.resource = .var x
  | .byteString l => ∃ x, l.resource = .var x
  | .textString l => ∃ x, l.resource = .var x
  | .id l => ∃ x, l.resource = .var x
  | .product l => (∀ e ∈ l.fields, e.2.value.Direct reg) ∧
      ∀ e ∈ l.fields, ∀ e' ∈ l.fields, e.1 ≠ e'.1 → Apart reg (l.input + l.intro) e.2.value e'.2.value
  | .unordered l => l.item.value.Direct reg ∧ ∀ x, l.item.value.AssignsVar reg x → l.input + l.intro ≤ x
  | .ordered l => l.node.value.Direct reg ∧ ∀ x, l.node.value.AssignsVar reg x → l.input + l.intro + 2 ≤ x
  | .sized l => (∀ i ∈ l.items, i.value.Direct reg) ∧ l.items.Pairwise fun i i' => Apart reg (l.input + l.intro) i.value i'.value
  | .sum l => (∀ x ∈ l.variants, x.value.Direct reg) ∧
      l.variants.Pairwise fun x y => Apart reg (l.input + l.intro) x.value y.value ∨ NoCommonKind reg x.value.layout y.value.layout
  | _ => True

/-- Every layout of the registry gives at most one term to each resource. -/
def Registry.OneTerm (reg : Registry R) : Prop := ∀ ref l, reg ref = some l → l.OneTerm reg

end Verif
