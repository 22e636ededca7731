import Verif.Dehydrate
import Verif.LayoutSpec

/-!
# Specifications for dehydration

`Extends` (nothing is removed) and `Footprint` (only inputs, constants and newly created resources are mentioned) are
relations between the state before and the state after a run.
-/

namespace Verif

/-- Nothing was removed, and resources created later are different from those created earlier. -/
structure Extends (s s' : DeState) : Prop where
  quads : ∀ q ∈ s.out, q ∈ s'.out
  terms : ∀ e ∈ s.terms, e ∈ s'.terms
  fresh : s.fresh ≤ s'.fresh

/-- `r` is in `A`, or a constant term, or an anonymous resource numbered from `lo` to `hi` (excluded). -/
def Known (A : IRes → Prop) (lo hi : Nat) (r : IRes) : Prop :=
  A r ∨ (∃ t, r = .term t) ∨ ∃ i, r = .anon i ∧ lo ≤ i ∧ i < hi

/-- All the components of the quad satisfy `K`. -/
def Quad.Uses (K : IRes → Prop) (q : Quad IRes) : Prop := K q.s ∧ K q.p ∧ K q.o ∧ ∀ g, q.g = some g → K g

/-- Every quad and every assigned term added between `s` and `s'` only mentions resources in `A`, constant terms, and
anonymous resources numbered at least `lo`, all of which were created before `s'`. -/
structure Footprint (A : IRes → Prop) (lo : Nat) (s s' : DeState) : Prop where
  fresh : s.fresh ≤ s'.fresh
  quads : ∀ q ∈ s'.out, q ∈ s.out ∨ q.Uses (Known A lo s'.fresh)
  terms : ∀ e ∈ s'.terms, e ∈ s.terms ∨ Known A lo s'.fresh e.1

/-- Resources numbered `fresh` or more do not occur in the state. -/
structure Bounded (s : DeState) : Prop where
  quads : ∀ q ∈ s.out, q.Uses fun r => ∀ i, r = .anon i → i < s.fresh
  terms : ∀ e ∈ s.terms, ∀ i, e.1 = .anon i → i < s.fresh

/-- The sub-values visited when dehydrating a value through a layout: which format is used for which value. -/
inductive SubCall {R : Type _} : Layout R → Value → ValueFormat R → Value → Prop
  | product {l : ProductLayout R} {m k v f} : (k, v) ∈ m → (k, f) ∈ l.fields → SubCall (.product l) (.map m) f.value v
  | unordered {l : UnorderedLayout R} {vs v} : v ∈ vs → SubCall (.unordered l) (.list vs) l.item.value v
  | ordered {l : OrderedLayout R} {vs v} : v ∈ vs → SubCall (.ordered l) (.list vs) l.node.value v
  | sized {l : SizedLayout R} {vs i v} : (i, v) ∈ l.items.zip vs → SubCall (.sized l) (.list vs) i.value v
  | sum {l : SumLayout R} {x v} : x ∈ l.variants → SubCall (.sum l) v x.value v

/-- The value formats mentioned by a layout. -/
def Layout.formats {R : Type _} : Layout R → List (ValueFormat R)
  | .product l => l.fields.map fun e => e.2.value
  | .unordered l => [l.item.value]
  | .ordered l => [l.node.value]
  | .sized l => l.items.map ItemLayout.value
  | .sum l => l.variants.map Variant.value
  | _ => []

/-- Every value format refers to a defined layout and gives it the right number of inputs. -/
def Registry.WellTyped {R : Type _} (reg : Registry R) : Prop :=
  ∀ ref l, reg ref = some l → ∀ f ∈ l.formats, ∃ l', reg f.layout = some l' ∧
    ∀ k, l'.inputCount = some k → f.input.length = k

/-- Layout references are not cyclic through sums: following variants always goes down some rank. -/
def Registry.AcyclicSums {R : Type _} (reg : Registry R) : Prop :=
  ∃ rank : R → Nat, ∀ ref l, reg ref = some (.sum l) → ∀ x ∈ l.variants, rank x.value.layout < rank ref

/-- The literal layouts dehydration implements: booleans of datatype `xsd:boolean`, numbers of a decimal datatype, and
texts of any datatype IRI. -/
def Layout.Supported (xsd : Xsd) : Layout Term → Prop
  | .boolean l => l.datatype = .iri xsd.boolean
  | .number l => ∃ i, l.datatype = .iri i ∧ xsd.isDecimal i = true
  | .byteString _ => False
  | .textString l => ∃ i, l.datatype = .iri i
  | _ => True

/-- The literal cannot be written with the literal layout: dehydration does not implement it. -/
inductive Unwritable (xsd : Xsd) : Layout Term → Value → Prop
  /-- a Boolean whose datatype is not `xsd:boolean` -/
  | boolean {l b} : l.datatype ≠ .iri xsd.boolean → Unwritable xsd (.boolean l) (.literal (.boolean b))
  /-- a number whose datatype is not a decimal datatype -/
  | datatype {l q} : (∀ i, l.datatype = .iri i → xsd.isDecimal i = false) → Unwritable xsd (.number l) (.literal (.number q))
  /-- a number without decimal representation -/
  | number {l q} : xsd.printDecimal q = none → Unwritable xsd (.number l) (.literal (.number q))
  /-- a byte string -/
  | byteString {l b} : Unwritable xsd (.byteString l) (.literal (.byteString b))
  /-- a text whose datatype is not an IRI -/
  | text {l t} : (∀ i, l.datatype ≠ .iri i) → Unwritable xsd (.textString l) (.literal (.textString t))

/-- Writing the value `p.2` with the layout `p.1` writes the value `q.2` with the layout `q.1`. -/
def DeVisits (c : DeCtx) (p q : Term × Value) : Prop := ∃ l fmt, c.reg p.1 = some l ∧ SubCall l p.2 fmt q.2 ∧ q.1 = fmt.layout

/-- As `DeVisits`, for a field of a record or an item of a list: what is written in any case. -/
def DeComponent (c : DeCtx) (p q : Term × Value) : Prop :=
  ∃ l fmt, c.reg p.1 = some l ∧ (∀ l', l ≠ .sum l') ∧ SubCall l p.2 fmt q.2 ∧ q.1 = fmt.layout

/-- The value cannot be written with its layout. -/
def DeCause (c : DeCtx) (p : Term × Value) : Prop := ∃ l, c.reg p.1 = some l ∧ Unwritable c.xsd l p.2

/-- Every layout of the registry is supported. -/
def DeCtx.Supported (c : DeCtx) : Prop := ∀ ref l, c.reg ref = some l → l.Supported c.xsd

/-- The number `q` occurs in the tree (other than in a key). -/
inductive Value.HasNumber : Value → Rat → Prop
  | here (q : Rat) : HasNumber (.literal (.number q)) q
  | map {m k v q} : (k, v) ∈ m → HasNumber v q → HasNumber (.map m) q
  | list {vs v q} : v ∈ vs → HasNumber v q → HasNumber (.list vs) q

/-- Every number of the tree has a decimal representation. -/
def Value.Printable (xsd : Xsd) (v : Value) : Prop := ∀ q, v.HasNumber q → ∃ text, xsd.printDecimal q = some text

/-- The tree conforms to the layout, and at each sum layout exactly one variant applies: the tree conforms to one and
does not conform to the others. -/
inductive UniquelyConforms {R : Type _} (reg : Registry R) (isIri : String → Bool) : R → Value → Prop
  | unit {ref l} : reg ref = some (.unit l) → UniquelyConforms reg isIri ref l.const
  | boolean {ref l} (b : Bool) : reg ref = some (.boolean l) → UniquelyConforms reg isIri ref (.literal (.boolean b))
  | number {ref l} (q : Rat) : reg ref = some (.number l) → UniquelyConforms reg isIri ref (.literal (.number q))
  | byteString {ref l} (b : List UInt8) : reg ref = some (.byteString l) →
      UniquelyConforms reg isIri ref (.literal (.byteString b))
  | textString {ref l} (s : String) : reg ref = some (.textString l) →
      UniquelyConforms reg isIri ref (.literal (.textString s))
  | id {ref l} (s : String) : reg ref = some (.id l) → isIri s = true →
      UniquelyConforms reg isIri ref (.literal (.textString s))
  | product {ref l} (m : List (Value × Value)) : reg ref = some (.product l) →
      (∀ k v, (k, v) ∈ m → ∃ f, (k, f) ∈ l.fields) →
      (∀ k v f, (k, v) ∈ m → (k, f) ∈ l.fields → UniquelyConforms reg isIri f.value.layout v) →
      (∀ k f, (k, f) ∈ l.fields → f.required = true → ∃ v, (k, v) ∈ m) →
      UniquelyConforms reg isIri ref (.map m)
  | unordered {ref l} (vs : List Value) : reg ref = some (.unordered l) →
      (∀ v ∈ vs, UniquelyConforms reg isIri l.item.value.layout v) → UniquelyConforms reg isIri ref (.list vs)
  | ordered {ref l} (vs : List Value) : reg ref = some (.ordered l) →
      (∀ v ∈ vs, UniquelyConforms reg isIri l.node.value.layout v) → UniquelyConforms reg isIri ref (.list vs)
  | sized {ref l} (vs : List Value) : reg ref = some (.sized l) → vs.length = l.items.length →
      (∀ e ∈ l.items.zip vs, UniquelyConforms reg isIri e.1.value.layout e.2) → UniquelyConforms reg isIri ref (.list vs)
  | sum {ref l} (before after : List (Variant R)) (variant : Variant R) (v : Value) : reg ref = some (.sum l) →
      l.variants = before ++ variant :: after →
      UniquelyConforms reg isIri variant.value.layout v →
      (∀ x ∈ before ++ after, ¬ Conforms reg isIri x.value.layout v) → UniquelyConforms reg isIri ref v
  | always {ref} (v : Value) : reg ref = some .always → UniquelyConforms reg isIri ref v

/-- `f` is a naming of the resources of the state `s`: terms are their own name, the identifiers and literals assigned
to a resource are its name, other inputs have the name given by the options, and the other anonymous resources in `used`
get generated names, different resources getting different positions in the sequence of generated names. -/
structure IsNaming (o : Dehydrate.DeOptions) (s : DeState) (used : IRes → Prop) (f : IRes → Term) : Prop where
  term : ∀ t, f (.term t) = t
  assigned : ∀ r t, (r, t) ∈ s.terms → f r = t
  input : ∀ i, used (.input i) → (∀ t, (IRes.input i, t) ∉ s.terms) → f (.input i) = o.inputTerm i
  generated : ∃ position : Nat → Nat,
    (∀ i, used (.anon i) → (∀ t, (IRes.anon i, t) ∉ s.terms) → f (.anon i) = o.generator (position i)) ∧
    ∀ i j, used (.anon i) → (∀ t, (IRes.anon i, t) ∉ s.terms) → used (.anon j) → (∀ t, (IRes.anon j, t) ∉ s.terms) →
      position i = position j → i = j

/-- The image of a quad. -/
def Quad.map {R S : Type _} (f : R → S) (q : Quad R) : Quad S := ⟨f q.s, f q.p, f q.o, q.g.map f⟩

/-- The resources that occur in the quads, and the first `count` inputs. -/
def Occurs (out : List (Quad IRes)) (count : Nat) (r : IRes) : Prop :=
  (∃ q ∈ out, r = q.s ∨ r = q.p ∨ r = q.o ∨ q.g = some r) ∨ ∃ i < count, r = .input i

/-- Two different terms were assigned to the same resource. -/
def Conflict (s : DeState) : Prop :=
  ∃ r t t', (r, t) ∈ s.terms ∧ t ≠ t' ∧ (r = .term t' ∨ (r, t') ∈ s.terms)

/-- The quad patterns of a layout. -/
def Layout.patterns {R : Type _} : Layout R → List (QuadPat R)
  | .never => []
  | .unit l => l.dataset
  | .boolean l => l.dataset
  | .number l => l.dataset
  | .byteString l => l.dataset
  | .textString l => l.dataset
  | .id l => l.dataset
  | .product l => l.dataset ++ l.fields.flatMap fun e => e.2.dataset
  | .unordered l => l.dataset ++ l.item.dataset
  | .ordered l => l.dataset ++ l.node.dataset
  | .sized l => l.dataset ++ l.items.flatMap ItemLayout.dataset
  | .sum l => l.dataset ++ l.variants.flatMap Variant.dataset
  | .always => []

/-- The resource is the instance of the pattern when each variable `i` stands for `ρ i`. -/
def Pattern.Instance (ρ : Nat → Option IRes) : Pattern Term → IRes → Prop
  | .res t, r => r = .term t
  | .var x, r => ρ x = some r

/-- The quad is the instance of the pattern when each variable `i` stands for `ρ i`. -/
def QuadPat.Instance (ρ : Nat → Option IRes) (p : QuadPat Term) (q : Quad IRes) : Prop :=
  p.s.Instance ρ q.s ∧ p.p.Instance ρ q.p ∧ p.o.Instance ρ q.o ∧
    match p.g, q.g with
    | none, none => True
    | some p, some g => p.Instance ρ g
    | _, _ => False

/-- The layout cannot accept the value because the value is not of the right kind. Identifiers need a text, but a text
may still not be an IRI; sums accept values of any kind. -/
def Layout.HeadMismatch {R : Type _} : Layout R → Value → Prop
  | .never, _ => True
  | .unit l, v => v ≠ l.const
  | .boolean _, v => ∀ b, v ≠ .literal (.boolean b)
  | .number _, v => ∀ q, v ≠ .literal (.number q)
  | .byteString _, v => ∀ b, v ≠ .literal (.byteString b)
  | .textString _, v => ∀ t, v ≠ .literal (.textString t)
  | .id _, v => ∀ t, v ≠ .literal (.textString t)
  | .product _, v => ∀ m, v ≠ .map m
  | .unordered _, v => ∀ vs, v ≠ .list vs
  | .ordered _, v => ∀ vs, v ≠ .list vs
  | .sized _, v => ∀ vs, v ≠ .list vs
  | .sum _, _ => False
  | .always, _ => False

end Verif
