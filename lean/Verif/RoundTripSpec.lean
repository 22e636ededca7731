import Verif.DehydrateSpec
import Verif.Order

/-!
# Specifications for the round trip

`Layout.Tree`: the layouts that write each node of the tree as one RDF resource, linked to its parent by a property,
which is what the `property` shorthand of layout definitions produces. `Recoverable`: the trees that can be read back:
no empty ordered list, and one variant for each value of a sum. `SameTree`: equality of trees, except that the
items of an unordered list are compared as a set. `nodeIds`: the identifiers given to the nodes of a tree.
-/

namespace Verif

/-- The quad pattern `?a <property> ?b`, in the default graph. -/
def linkPat (a b : Nat) (property : Term) : QuadPat Term := ⟨.var a, .res property, .var b, none⟩

/-- Only triples of the form `?self <p> <o>`. -/
def ConstPats (qs : List (QuadPat Term)) : Prop := ∀ q ∈ qs, ∃ p o, q = ⟨.var 0, .res p, .res o, none⟩

/-- The value of the format is the single variable `x`, in the current graph. -/
def ValueFormat.IsVar (f : ValueFormat Term) (x : Nat) : Prop := f.input = [.var x] ∧ f.graph = none

/-- The field is linked to the record by the property `p`. -/
def Field.IsLink (f : Field Term) (p : Term) : Prop := f.intro = 1 ∧ f.dataset = [linkPat 0 1 p] ∧ f.value.IsVar 1

/-- The field describes the record itself. -/
def Field.OnSelf (f : Field Term) : Prop := f.intro = 0 ∧ f.dataset = [] ∧ f.value.IsVar 0

/-- The item is linked to the list by the property `p`. -/
def ItemLayout.IsLink (i : ItemLayout Term) (p : Term) : Prop :=
  i.intro = 1 ∧ i.dataset = [linkPat 0 1 p] ∧ i.value.IsVar 1

/-- The items are linked to the list by the property `p`. -/
def UnorderedLayout.IsSet (l : UnorderedLayout Term) (p : Term) : Prop :=
  l.input = 1 ∧ l.intro = 0 ∧ l.dataset = [] ∧ l.item.IsLink p

/-- The list is an RDF list, with the given properties and end of list. -/
def OrderedLayout.IsChain (l : OrderedLayout Term) (first rest : Term) (tail : String) : Prop :=
  l.input = 1 ∧ l.intro = 0 ∧ l.dataset = [] ∧ l.head = .var 0 ∧ l.tail = .res (.iri tail) ∧ first ≠ rest ∧
  l.node.intro = 1 ∧ (∀ q, q ∈ l.node.dataset ↔ q = linkPat 1 3 first ∨ q = linkPat 1 2 rest) ∧ l.node.value.IsVar 3

/-- The property used by the field, if any. -/
def Field.Uses (reg : Registry Term) (f : Field Term) (p : Term) : Prop :=
  f.IsLink p ∨ f.OnSelf ∧ ∃ l, reg f.value.layout = some (.unordered l) ∧ l.IsSet p

/-- The field gives the identifier of the record. -/
def Field.IsId (reg : Registry Term) (f : Field Term) : Prop :=
  f.OnSelf ∧ ∃ l, reg f.value.layout = some (.id l)

/-- The literals written by the layout are attached to its input. -/
def DataLayout.Plain (l : DataLayout Term) : Prop := l.intro = 0 ∧ l.dataset = [] ∧ l.resource = .var 0

/-- A record layout that writes a record as one resource: triples stating what the record is, one property per field,
all different; a field describing the record itself is an identifier or a set, and is required. -/
structure ProductLayout.Tree (reg : Registry Term) (l : ProductLayout Term) : Prop where
  input : l.input = 1
  intro : l.intro = 0
  const : ConstPats l.dataset
  fields : ∀ e ∈ l.fields, (∃ p, e.2.Uses reg p) ∨ e.2.IsId reg
  required : ∀ e ∈ l.fields, e.2.OnSelf → e.2.required = true
  distinct : l.fields.Pairwise fun a b => ∀ p, a.2.Uses reg p → ¬ b.2.Uses reg p
  other : ∀ e ∈ l.fields, ∀ p, e.2.Uses reg p → ∀ q ∈ l.dataset, q.p ≠ .res p
  oneId : l.fields.Pairwise fun a b => a.2.IsId reg → ¬ b.2.IsId reg

/-! ### Sums

A sum writes its value with the one variant that accepts it, about the same resource. To be read back, what a variant
writes must not be readable with another variant. -/

/-- The triples a layout states about what it describes. -/
def Layout.statements {R : Type _} : Layout R → List (QuadPat R)
  | .unit l => l.dataset
  | .product l => l.dataset
  | .sized l => l.dataset
  | .sum l => l.dataset
  | _ => []

/-- The type of the literals a layout writes. -/
def Layout.literalType {R : Type _} : Layout R → Option R
  | .boolean l => some l.datatype
  | .number l => some l.datatype
  | .textString l => some l.datatype
  | _ => none

/-- The layout describes its subject with the property `p`. -/
def Layout.Links (reg : Registry Term) (p : Term) : Layout Term → Prop
  | .product l => ∃ e ∈ l.fields, e.2.Uses reg p
  | .unordered l => l.IsSet p
  | .ordered l => ∃ first rest tail, l.IsChain first rest tail ∧ (p = first ∨ p = rest)
  | .sized l => ∃ i ∈ l.items, i.IsLink p
  | _ => False

/-- Something said about the subject with the property `p` may change how the layout `ref` reads it. -/
inductive LayoutReads (reg : Registry Term) (p : Term) : Term → Prop
  | link {ref l} : reg ref = some l → l.Links reg p → LayoutReads reg p ref
  | variant {ref l x q} : reg ref = some (.sum l) → x ∈ l.variants → q ∈ x.dataset → q.p = .res p → LayoutReads reg p ref
  | statement {ref l x l' q} : reg ref = some (.sum l) → x ∈ l.variants → reg x.value.layout = some l' →
      q ∈ l'.statements → q.p = .res p → LayoutReads reg p ref
  | sum {ref l x} : reg ref = some (.sum l) → x ∈ l.variants → LayoutReads reg p x.value.layout → LayoutReads reg p ref

/-- The layout `ref` may say of its subject that it has the value `o` for the property `p`. -/
inductive LayoutWrites (reg : Registry Term) (p o : Term) : Term → Prop
  | statement {ref l} : reg ref = some l → ⟨.var 0, .res p, .res o, none⟩ ∈ l.statements → LayoutWrites reg p o ref
  | link {ref l} : reg ref = some l → l.Links reg p → LayoutWrites reg p o ref
  | variant {ref l x} : reg ref = some (.sum l) → x ∈ l.variants → ⟨.var 0, .res p, .res o, none⟩ ∈ x.dataset →
      LayoutWrites reg p o ref
  | sum {ref l x} : reg ref = some (.sum l) → x ∈ l.variants → LayoutWrites reg p o x.value.layout → LayoutWrites reg p o ref

/-- The layout `ref` may write literals of type `d`. -/
inductive WritesLiteral (reg : Registry Term) (d : Term) : Term → Prop
  | data {ref l} : reg ref = some l → l.literalType = some d → WritesLiteral reg d ref
  | sum {ref l x} : reg ref = some (.sum l) → x ∈ l.variants → WritesLiteral reg d x.value.layout → WritesLiteral reg d ref

/-- The variant `x` of the sum `l` says nothing with the property `p`. -/
def SumLayout.Avoids (reg : Registry Term) (l : SumLayout Term) (x : Variant Term) (p : Term) : Prop :=
  (∀ q ∈ l.dataset ++ x.dataset, q.p ≠ .res p) ∧ ∀ o, ¬ LayoutWrites reg p o x.value.layout

/-- What the variant `x` of the sum `l` writes cannot be read with the variant `y`: a triple stated by `y` is missing, or
a literal of the right type, or a property that `y` requires. -/
inductive Separate (reg : Registry Term) (l : SumLayout Term) (x y : Variant Term) : Prop
  | triple (p o : Term) (l' : Layout Term) : reg y.value.layout = some l' →
      ⟨.var 0, .res p, .res o, none⟩ ∈ y.dataset ++ l'.statements →
      ⟨.var 0, .res p, .res o, none⟩ ∉ l.dataset ++ x.dataset → ¬ LayoutWrites reg p o x.value.layout → Separate reg l x y
  | literal (l' : Layout Term) (d : Term) : reg y.value.layout = some l' → l'.literalType = some d →
      ¬ WritesLiteral reg d x.value.layout → Separate reg l x y
  | record (l' : ProductLayout Term) : reg y.value.layout = some (.product l') →
      (∀ e ∈ l'.fields, ∃ p, e.2.IsLink p ∧ l.Avoids reg x p) → (∃ e ∈ l'.fields, e.2.required = true) → Separate reg l x y
  | sized (l' : SizedLayout Term) (i : ItemLayout Term) (is : List (ItemLayout Term)) (p : Term) :
      reg y.value.layout = some (.sized l') → l'.items = i :: is → i.IsLink p → l.Avoids reg x p → Separate reg l x y
  | list (l' : OrderedLayout Term) (l'' : Layout Term) : reg y.value.layout = some (.ordered l') →
      reg x.value.layout = some l'' → l''.literalType ≠ none → Separate reg l x y

/-- A sum whose variants describe the same resource and can be told apart. A variant that writes literals states nothing
about them. -/
structure SumLayout.Tree (reg : Registry Term) (l : SumLayout Term) : Prop where
  input : l.input = 1
  intro : l.intro = 0
  const : ConstPats l.dataset
  variants : ∀ x ∈ l.variants, x.intro = 0 ∧ ConstPats x.dataset ∧ x.value.IsVar 0
  node : ∀ x ∈ l.variants, ∀ d, WritesLiteral reg d x.value.layout → l.dataset = [] ∧ x.dataset = []
  other : ∀ x ∈ l.variants, ∀ q ∈ l.dataset ++ x.dataset, ∀ p, q.p = .res p → ¬ LayoutReads reg p x.value.layout
  separate : l.variants.Pairwise fun x y => Separate reg l x y ∧ Separate reg l y x

/-- A layout that writes every node of the tree as one resource. -/
def Layout.Tree (reg : Registry Term) (xsd : Xsd) : Layout Term → Prop
  | .unit l => l.intro = 0 ∧ ConstPats l.dataset
  | .boolean l => l.Plain ∧ l.datatype = .iri xsd.boolean
  | .number l => l.Plain ∧ ∃ i, l.datatype = .iri i ∧ xsd.isDecimal i = true
  | .textString l => l.Plain ∧ ∃ i, l.datatype = .iri i
  | .id l => l.intro = 0 ∧ l.dataset = [] ∧ l.resource = .var 0
  | .product l => l.Tree reg
  | .unordered l => ∃ p, l.IsSet p
  | .ordered l => ∃ first rest tail, l.IsChain first rest tail
  | .sized l => l.input = 1 ∧ l.intro = 0 ∧ ConstPats l.dataset ∧
      (∀ i ∈ l.items, ∃ p, i.IsLink p ∧ ∀ q ∈ l.dataset, q.p ≠ .res p) ∧
      l.items.Pairwise fun i j => ∀ p, i.IsLink p → ¬ j.IsLink p
  | .sum l => l.Tree reg
  | _ => False

/-- The layouts that the layout `ref` refers to, directly or not. -/
inductive Reaches {R : Type _} (reg : Registry R) : R → R → Prop
  | refl (ref : R) : Reaches reg ref ref
  | step {ref ref' l f} : Reaches reg ref ref' → reg ref' = some l → f ∈ l.formats → Reaches reg ref f.layout

/-- Every layout that `ref` refers to is defined, and writes a tree. -/
def TreeLayouts (reg : Registry Term) (xsd : Xsd) (ref : Term) : Prop :=
  ∀ ref', Reaches reg ref ref' → ∃ l, reg ref' = some l ∧ l.Tree reg xsd

/-- Strictly increasing keys: the iteration order of a `BTreeMap`. -/
def SortedKeys {α : Type _} (m : List (Value × α)) : Prop :=
  (m.map Prod.fst).Pairwise fun a b => Value.le a b = true ∧ a ≠ b

/-- Every record in the tree has its keys in increasing order, as in a `BTreeMap`. -/
inductive Value.Sorted : Value → Prop
  | literal (l : Literal) : Sorted (.literal l)
  | map (m : List (Value × Value)) : SortedKeys m → (∀ e ∈ m, Sorted e.2) → Sorted (.map m)
  | list (vs : List Value) : (∀ v ∈ vs, Sorted v) → Sorted (.list vs)

/-- Every record layout has its keys in increasing order, as in a `BTreeMap`. -/
def Registry.Sorted {R : Type _} (reg : Registry R) : Prop := ∀ ref l, reg ref = some (.product l) → SortedKeys l.fields

/-- The layout does not apply to the value, which appears before anything is written. -/
def Layout.rejects {R : Type _} : Layout R → Value → Bool
  | .never, _ => true
  | .unit l, v => decide (v ≠ l.const)
  | .boolean _, .literal (.boolean _) => false
  | .number _, .literal (.number _) => false
  | .byteString _, .literal (.byteString _) => false
  | .textString _, .literal (.textString _) => false
  | .id _, .literal (.textString _) => false
  | .product l, .map ((key, _) :: _) => l.dataset.isEmpty && decide (∀ e ∈ l.fields, e.1 ≠ key)
  | .product _, .map [] => false
  | .unordered _, .list _ => false
  | .ordered _, .list _ => false
  | .sized _, .list _ => false
  | .sum _, _ => false
  | .always, _ => false
  | _, _ => true

/-- No list described by an ordered list layout is empty, and all the variants of a sum but one reject its value before
writing anything. -/
inductive Recoverable {R : Type _} (reg : Registry R) : R → Value → Prop
  | leaf {ref} (v : Value) : (∀ l, reg ref = some l → l.formats = []) → Recoverable reg ref v
  | product {ref l} (m : List (Value × Value)) : reg ref = some (.product l) →
      (∀ k v f, (k, v) ∈ m → (k, f) ∈ l.fields → Recoverable reg f.value.layout v) → Recoverable reg ref (.map m)
  | unordered {ref l} (vs : List Value) : reg ref = some (.unordered l) →
      (∀ v ∈ vs, Recoverable reg l.item.value.layout v) → Recoverable reg ref (.list vs)
  | ordered {ref l} (vs : List Value) : reg ref = some (.ordered l) → vs ≠ [] →
      (∀ v ∈ vs, Recoverable reg l.node.value.layout v) → Recoverable reg ref (.list vs)
  | sized {ref l} (vs : List Value) : reg ref = some (.sized l) →
      (∀ e ∈ l.items.zip vs, Recoverable reg e.1.value.layout e.2) → Recoverable reg ref (.list vs)
  | sum {ref l} (v : Value) (before : List (Variant R)) (x : Variant R) (after : List (Variant R)) :
      reg ref = some (.sum l) → l.variants = before ++ x :: after →
      (∀ y ∈ before ++ after, ∃ l', reg y.value.layout = some l' ∧ l'.rejects v = true) →
      Recoverable reg x.value.layout v → Recoverable reg ref v

/-- The two trees are equal, except that the items of an unordered list are compared as a set. -/
inductive SameTree {R : Type _} (reg : Registry R) : R → Value → Value → Prop
  | leaf {ref} (v : Value) : SameTree reg ref v v
  | product {ref l} (m m' : List (Value × Value)) : reg ref = some (.product l) → m.map Prod.fst = m'.map Prod.fst →
      (∀ k v, (k, v) ∈ m → ∃ f, (k, f) ∈ l.fields) →
      (∀ k v v' f, (k, v) ∈ m → (k, v') ∈ m' → (k, f) ∈ l.fields → SameTree reg f.value.layout v v') →
      SameTree reg ref (.map m) (.map m')
  | unordered {ref l} (vs vs' : List Value) (f g : Value → Value) : reg ref = some (.unordered l) →
      (∀ v ∈ vs, f v ∈ vs') → (∀ v ∈ vs, SameTree reg l.item.value.layout v (f v)) →
      (∀ v ∈ vs', g v ∈ vs) → (∀ v ∈ vs', SameTree reg l.item.value.layout (g v) v) →
      SameTree reg ref (.list vs) (.list vs')
  | ordered {ref l} (vs vs' : List Value) : reg ref = some (.ordered l) → vs.length = vs'.length →
      (∀ e ∈ vs.zip vs', SameTree reg l.node.value.layout e.1 e.2) → SameTree reg ref (.list vs) (.list vs')
  | sized {ref l} (vs vs' : List Value) : reg ref = some (.sized l) → l.items.length = vs.length → vs.length = vs'.length →
      (∀ e ∈ l.items.zip (vs.zip vs'), SameTree reg e.1.value.layout e.2.1 e.2.2) →
      SameTree reg ref (.list vs) (.list vs')
  | sum {ref l x} (v v' : Value) : reg ref = some (.sum l) → x ∈ l.variants → SameTree reg x.value.layout v v' →
      SameTree reg ref v v'

/-- The identifier that the field `f`, with value `v`, gives to the record. -/
def ownId (reg : Registry Term) (f : Field Term) (v : Value) : Option String :=
  match reg f.value.layout, v with
  | some (.id _), .literal (.textString t) => if f.intro = 0 then some t else none
  | _, _ => none

/-- The identifier that a variant of a sum, described by the layout `ref`, gives to the resource. -/
def variantId (reg : Registry Term) (ref : Term) (v : Value) : List String :=
  match reg ref, v with
  | some (.id _), .literal (.textString t) => [t]
  | _, _ => []

/-- The identifiers given to the records of the tree `v`, read with the layout `ref`, in depth at most `n`. An
identifier that is merely mentioned (as a link to another resource) is not one of them, except as a variant of a sum. -/
def nodeIds (reg : Registry Term) : Nat → Term → Value → List String
  | 0, _, _ => []
  | n + 1, ref, v =>
    match reg ref, v with
    | some (.product l), .map m =>
      (m.filterMap fun e => (Dehydrate.lookup e.1 l.fields).bind fun f => ownId reg f e.2) ++
      m.flatMap fun e =>
        match Dehydrate.lookup e.1 l.fields with
        | some f => nodeIds reg n f.value.layout e.2
        | none => []
    | some (.unordered l), .list vs => vs.flatMap (nodeIds reg n l.item.value.layout)
    | some (.ordered l), .list vs => vs.flatMap (nodeIds reg n l.node.value.layout)
    | some (.sized l), .list vs => (l.items.zip vs).flatMap fun e => nodeIds reg n e.1.value.layout e.2
    | some (.sum l), v => l.variants.flatMap fun x =>
        if (reg x.value.layout).all (·.rejects v) then [] else variantId reg x.value.layout v ++ nodeIds reg n x.value.layout v
    | _, _ => []

/-- The names used for resources without identifier: distinct blank nodes. -/
structure BlankNames (o : Dehydrate.DeOptions) : Prop where
  generator : ∀ i, ∃ b, o.generator i = .blank b
  input : ∃ b, o.inputTerm 0 = .blank b
  injective : ∀ i j, o.generator i = o.generator j → i = j
  input_ne : ∀ i, o.generator i ≠ o.inputTerm 0

/-- A name that dehydration with the options `o` may give to a node without identifier. -/
def NodeName (o : Dehydrate.DeOptions) (t : Term) : Prop := t = o.inputTerm 0 ∨ ∃ i, t = o.generator i

/-- The term `t` stands for a node of the tree with identifiers `ids`, that was written with the options `o` as `dataset` from
`subjects`. -/
def StandsForNode (o : Dehydrate.DeOptions) (ids : List String) (dataset : List (Quad Term)) (subjects : List Term) (t : Term) :
    Prop :=
  (∃ i ∈ ids, t = .iri i) ∨ NodeName o t ∧ (t ∈ subjects ∨ ∃ q ∈ dataset, t = q.s ∨ t = q.o)

/-- The dataset `all` contains `dataset`, and its default graph says nothing else about the nodes of the tree that was written as
`dataset`. Literals are not the subject of anything. -/
structure StoredIn (o : Dehydrate.DeOptions) (ids : List String) (dataset : List (Quad Term)) (subjects : List Term)
    (all : List (Quad Term)) : Prop where
  contains : ∀ q ∈ dataset, q ∈ all
  other : ∀ q ∈ all, q ∉ dataset → q.g = none → ¬ StandsForNode o ids dataset subjects q.s ∧ ∀ l, q.s ≠ .literal l

end Verif
