import Verif.Layout
import Verif.MatchingSpec

/-!
# Well-formed layouts and conforming values

Specifications that mention neither hydration nor dehydration.
-/

namespace Verif

variable {R : Type _}

/-- Every variable of the patterns is below `k`. -/
def PatsBelow (k : Nat) (pats : List (QuadPat R)) : Prop := ∀ x ∈ patsVars pats, x < k

/-- Every variable of the pattern is below `k`. -/
def Pattern.Below (k : Nat) (p : Pattern R) : Prop := ∀ x ∈ p.vars, x < k

/-- Every variable of the value format is below `k`. -/
def ValueFormat.Below (k : Nat) (f : ValueFormat R) : Prop :=
  (∀ p ∈ f.input, p.Below k) ∧ ∀ p, f.graph = some (some p) → p.Below k

/-- A list item, list node, field or variant is closed: its patterns and its value only use variables below `k`. -/
def ItemLayout.Closed (k : Nat) (i : ItemLayout R) : Prop := PatsBelow k i.dataset ∧ i.value.Below k

/-- A layout is closed when each of its patterns only uses the variables in scope at that place: inputs, introduced
variables of the layout, introduced variables of the field/variant/item, and the two implicit variables (head and
rest) of an ordered list node. A literal layout always has one input. -/
def Layout.Closed : Layout R → Prop
  | .never => True
  | .unit l => PatsBelow (1 + l.intro) l.dataset
  | .boolean l => PatsBelow (1 + l.intro) l.dataset ∧ l.resource.Below (1 + l.intro)
  | .number l => PatsBelow (1 + l.intro) l.dataset ∧ l.resource.Below (1 + l.intro)
  | .byteString l => PatsBelow (1 + l.intro) l.dataset ∧ l.resource.Below (1 + l.intro)
  | .textString l => PatsBelow (1 + l.intro) l.dataset ∧ l.resource.Below (1 + l.intro)
  | .id l => PatsBelow (1 + l.intro) l.dataset ∧ l.resource.Below (1 + l.intro)
  | .product l => PatsBelow (l.input + l.intro) l.dataset ∧
      ∀ e ∈ l.fields, PatsBelow (l.input + l.intro + e.2.intro) e.2.dataset ∧
        e.2.value.Below (l.input + l.intro + e.2.intro)
  | .unordered l => PatsBelow (l.input + l.intro) l.dataset ∧ l.item.Closed (l.input + l.intro + l.item.intro)
  | .ordered l => PatsBelow (l.input + l.intro) l.dataset ∧ l.head.Below (l.input + l.intro) ∧
      l.tail.Below (l.input + l.intro) ∧ l.node.Closed (l.input + l.intro + 2 + l.node.intro)
  | .sized l => PatsBelow (l.input + l.intro) l.dataset ∧
      ∀ i ∈ l.items, i.Closed (l.input + l.intro + i.intro)
  | .sum l => PatsBelow (l.input + l.intro) l.dataset ∧
      ∀ v ∈ l.variants, PatsBelow (l.input + l.intro + v.intro) v.dataset ∧
        v.value.Below (l.input + l.intro + v.intro)
  | .always => True

/-- Every layout of the registry is closed. -/
def Registry.Closed (reg : Registry R) : Prop := ∀ ref l, reg ref = some l → l.Closed

/-- The keys of every record layout are distinct (they are the keys of a `BTreeMap`). -/
def Registry.DistinctKeys (reg : Registry R) : Prop :=
  ∀ ref l, reg ref = some (.product l) → (l.fields.map Prod.fst).Nodup

/-- The tree `v` has the shape prescribed by the layout `ref`. `isIri` decides which strings are IRIs. -/
inductive Conforms (reg : Registry R) (isIri : String → Bool) : R → Value → Prop
  /-- a unit layout accepts its constant only -/
  | unit {ref l} : reg ref = some (.unit l) → Conforms reg isIri ref l.const
  | boolean {ref l} (b : Bool) : reg ref = some (.boolean l) → Conforms reg isIri ref (.literal (.boolean b))
  | number {ref l} (q : Rat) : reg ref = some (.number l) → Conforms reg isIri ref (.literal (.number q))
  | byteString {ref l} (b : List UInt8) : reg ref = some (.byteString l) →
      Conforms reg isIri ref (.literal (.byteString b))
  | textString {ref l} (s : String) : reg ref = some (.textString l) →
      Conforms reg isIri ref (.literal (.textString s))
  /-- an identifier is a text string that is an IRI -/
  | id {ref l} (s : String) : reg ref = some (.id l) → isIri s = true →
      Conforms reg isIri ref (.literal (.textString s))
  /-- a record has declared keys only, all the required keys, and conforming values -/
  | product {ref l} (m : List (Value × Value)) : reg ref = some (.product l) →
      (∀ k v, (k, v) ∈ m → ∃ f, (k, f) ∈ l.fields) →
      (∀ k v f, (k, v) ∈ m → (k, f) ∈ l.fields → Conforms reg isIri f.value.layout v) →
      (∀ k f, (k, f) ∈ l.fields → f.required = true → ∃ v, (k, v) ∈ m) →
      Conforms reg isIri ref (.map m)
  | unordered {ref l} (vs : List Value) : reg ref = some (.unordered l) →
      (∀ v ∈ vs, Conforms reg isIri l.item.value.layout v) → Conforms reg isIri ref (.list vs)
  | ordered {ref l} (vs : List Value) : reg ref = some (.ordered l) →
      (∀ v ∈ vs, Conforms reg isIri l.node.value.layout v) → Conforms reg isIri ref (.list vs)
  /-- a sized list has one item per item layout -/
  | sized {ref l} (vs : List Value) : reg ref = some (.sized l) → vs.length = l.items.length →
      (∀ e ∈ l.items.zip vs, Conforms reg isIri e.1.value.layout e.2) → Conforms reg isIri ref (.list vs)
  | sum {ref l} (variant : Variant R) (v : Value) : reg ref = some (.sum l) → variant ∈ l.variants →
      Conforms reg isIri variant.value.layout v → Conforms reg isIri ref v
  | always {ref} (v : Value) : reg ref = some .always → Conforms reg isIri ref v

/-- The typed tree `v` was built by the layout `ref`: its annotation is `ref` (an `any` node has none), its shape is
the one prescribed by `ref`, and its parts were built by the sub-layouts that `ref` names. -/
inductive Annotated (reg : Registry R) (isIri : String → Bool) : R → TypedValue R → Prop
  | unit {ref l} : reg ref = some (.unit l) → Annotated reg isIri ref (.literal (.unit l.const ref))
  | boolean {ref l} (b : Bool) : reg ref = some (.boolean l) → Annotated reg isIri ref (.literal (.boolean b ref))
  | number {ref l} (q : Rat) : reg ref = some (.number l) → Annotated reg isIri ref (.literal (.number q ref))
  | byteString {ref l} (b : List UInt8) : reg ref = some (.byteString l) →
      Annotated reg isIri ref (.literal (.byteString b ref))
  | textString {ref l} (s : String) : reg ref = some (.textString l) →
      Annotated reg isIri ref (.literal (.textString s ref))
  | id {ref l} (s : String) : reg ref = some (.id l) → isIri s = true →
      Annotated reg isIri ref (.literal (.id s ref))
  | product {ref l} (m : List (Value × TypedValue R)) : reg ref = some (.product l) →
      (∀ k v, (k, v) ∈ m → ∃ f, (k, f) ∈ l.fields) →
      (∀ k v f, (k, v) ∈ m → (k, f) ∈ l.fields → Annotated reg isIri f.value.layout v) →
      (∀ k f, (k, f) ∈ l.fields → f.required = true → ∃ v, (k, v) ∈ m) →
      Annotated reg isIri ref (.map m ref)
  | unordered {ref l} (vs : List (TypedValue R)) : reg ref = some (.unordered l) →
      (∀ v ∈ vs, Annotated reg isIri l.item.value.layout v) → Annotated reg isIri ref (.list vs ref)
  | ordered {ref l} (vs : List (TypedValue R)) : reg ref = some (.ordered l) →
      (∀ v ∈ vs, Annotated reg isIri l.node.value.layout v) → Annotated reg isIri ref (.list vs ref)
  | sized {ref l} (vs : List (TypedValue R)) : reg ref = some (.sized l) → vs.length = l.items.length →
      (∀ e ∈ l.items.zip vs, Annotated reg isIri e.1.value.layout e.2) → Annotated reg isIri ref (.list vs ref)
  | sum {ref l} (variant : Variant R) (v : TypedValue R) (i : Nat) : reg ref = some (.sum l) →
      l.variants[i]? = some variant → Annotated reg isIri variant.value.layout v →
      Annotated reg isIri ref (.variant v ref i)
  | always {ref} (v : Value) : reg ref = some .always → Annotated reg isIri ref (.always v)

end Verif
