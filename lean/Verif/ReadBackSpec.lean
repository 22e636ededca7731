import Verif.KeptSpec
import Verif.HydratePanic

/-!
# When what was written can be read back

`Unambiguous c g ref inputs`: in the dataset of `c`, the patterns that are matched when `ref` is read from `inputs` have one
match at most. It only refers to the places that reading may come to: `Visits`.

`Layout.Follows S`: the patterns of a layout can be followed from its inputs along the properties in `S`. If these properties
have one value at most (`SingleValued`), nothing is ambiguous.

`Absent c g ref inputs v`: where the tree `v` has no member for an optional field, the dataset has no match for it.

`Layout.Binds`: the resources a layout gives to its parts are inputs, or occur in its patterns. (A variable that occurs in
no pattern makes hydration panic, see C45.)
-/

namespace Verif

variable {R : Type _}

/-- The number of variables a layout introduces, and its own patterns. -/
def Layout.own : Layout R → Nat × List (QuadPat R)
  | .never => (0, [])
  | .unit l => (l.intro, l.dataset)
  | .boolean l => (l.intro, l.dataset)
  | .number l => (l.intro, l.dataset)
  | .byteString l => (l.intro, l.dataset)
  | .textString l => (l.intro, l.dataset)
  | .id l => (l.intro, l.dataset)
  | .product l => (l.intro, l.dataset)
  | .sum l => (l.intro, l.dataset)
  | .unordered l => (l.intro, l.dataset)
  | .ordered l => (l.intro, l.dataset)
  | .sized l => (l.intro, l.dataset)
  | .always => (0, [])

/-- `l.Part σ σ₀ pats fmt`: once the own patterns of `l` are matched as `σ`, a part of the value is found by matching `pats`
from `σ₀`, and read with `fmt`. The items of a list are looked for from any node. -/
inductive Layout.Part : Layout R → Subst R → Subst R → List (QuadPat R) → ValueFormat R → Prop
  | field {l : ProductLayout R} {σ key field} : (key, field) ∈ l.fields →
      Part (.product l) σ (σ ++ List.replicate field.intro none) field.dataset field.value
  | element {l : UnorderedLayout R} {σ} :
      Part (.unordered l) σ (σ ++ List.replicate l.item.intro none) l.item.dataset l.item.value
  | node {l : OrderedLayout R} {σ} (head : R) :
      Part (.ordered l) σ (σ ++ [some head, none] ++ List.replicate l.node.intro none) l.node.dataset l.node.value
  | item {l : SizedLayout R} {σ item} : item ∈ l.items →
      Part (.sized l) σ (σ ++ List.replicate item.intro none) item.dataset item.value
  | variant {l : SumLayout R} {σ x} : x ∈ l.variants →
      Part (.sum l) σ (σ ++ List.replicate x.intro none) x.dataset x.value

variable [DecidableEq R]

/-- `σ` is a match of the own patterns of `l`, from `inputs`. -/
def Layout.OwnMatch (ds : List (Quad R)) (g : Option R) (l : Layout R) (inputs : List R) (σ : Subst R) : Prop :=
  IsMatch ds (inputs.map some ++ List.replicate l.own.1 none) (inGraph g l.own.2) σ

/-- Reading `ref` from `inputs` in the graph `g` may come to reading another layout from other resources. -/
inductive Visits (c : HyCtx R) (g : Option R) (ref : R) (inputs : List R) : Option R → R → List R → Prop
  | here : Visits c g ref inputs g ref inputs
  | part {g' ref' inputs' l σ σ₀ pats fmt τ inputs'' g''} : Visits c g ref inputs g' ref' inputs' → c.reg ref' = some l →
      l.OwnMatch c.ds g' inputs' σ → l.Part σ σ₀ pats fmt → IsMatch c.ds σ₀ (inGraph g' pats) τ →
      List.Forall₂ (fun p r => p.Denotes τ.get r) fmt.input inputs'' → GraphDenotes g' fmt.graph τ g'' →
      Visits c g ref inputs g'' fmt.layout inputs''

/-- Wherever reading may come to, patterns have one match at most, except those of the items of a set. -/
def Unambiguous (c : HyCtx R) (g : Option R) (ref : R) (inputs : List R) : Prop :=
  ∀ g' ref' inputs', Visits c g ref inputs g' ref' inputs' → ∀ l, c.reg ref' = some l →
    (∀ σ σ', l.OwnMatch c.ds g' inputs' σ → l.OwnMatch c.ds g' inputs' σ' → σ = σ') ∧
    ∀ σ σ₀ pats fmt τ τ', (∀ s, l ≠ .unordered s) → l.OwnMatch c.ds g' inputs' σ → l.Part σ σ₀ pats fmt →
      IsMatch c.ds σ₀ (inGraph g' pats) τ → IsMatch c.ds σ₀ (inGraph g' pats) τ' → τ = τ'

/-- `l.PartOf v σ σ₀ pats fmt v'`: as `Layout.Part`, for the value `v`; the part is `v'`. -/
inductive Layout.PartOf : Layout R → Value → Subst R → Subst R → List (QuadPat R) → ValueFormat R → Value → Prop
  | field {l : ProductLayout R} {σ key field m v} : (key, field) ∈ l.fields → (key, v) ∈ m →
      PartOf (.product l) (.map m) σ (σ ++ List.replicate field.intro none) field.dataset field.value v
  | element {l : UnorderedLayout R} {σ vs v} : v ∈ vs →
      PartOf (.unordered l) (.list vs) σ (σ ++ List.replicate l.item.intro none) l.item.dataset l.item.value v
  | node {l : OrderedLayout R} {σ vs v} (head : R) : v ∈ vs →
      PartOf (.ordered l) (.list vs) σ (σ ++ [some head, none] ++ List.replicate l.node.intro none) l.node.dataset l.node.value v
  | item {l : SizedLayout R} {σ item vs v} : (item, v) ∈ l.items.zip vs →
      PartOf (.sized l) (.list vs) σ (σ ++ List.replicate item.intro none) item.dataset item.value v
  | variant {l : SumLayout R} {σ x v} : x ∈ l.variants →
      PartOf (.sum l) v σ (σ ++ List.replicate x.intro none) x.dataset x.value v

/-- Reading `v` with `ref` from `inputs` in the graph `g` may come to reading a part of it with another layout from other
resources. -/
inductive Finds (c : HyCtx R) (g : Option R) (ref : R) (inputs : List R) (v : Value) : Option R → R → List R → Value → Prop
  | here : Finds c g ref inputs v g ref inputs v
  | part {g' ref' inputs' v' l σ σ₀ pats fmt τ inputs'' g'' v''} : Finds c g ref inputs v g' ref' inputs' v' →
      c.reg ref' = some l → l.OwnMatch c.ds g' inputs' σ → l.PartOf v' σ σ₀ pats fmt v'' →
      IsMatch c.ds σ₀ (inGraph g' pats) τ → List.Forall₂ (fun p r => p.Denotes τ.get r) fmt.input inputs'' →
      GraphDenotes g' fmt.graph τ g'' → Finds c g ref inputs v g'' fmt.layout inputs'' v''

/-- Where a record in the tree has no member for an optional field, the dataset has no match for the field. -/
def Absent (c : HyCtx R) (g : Option R) (ref : R) (inputs : List R) (v : Value) : Prop :=
  ∀ g' ref' inputs' m, Finds c g ref inputs v g' ref' inputs' (.map m) → ∀ l, c.reg ref' = some (.product l) →
    ∀ key field, (key, field) ∈ l.fields → field.required = false → key ∉ m.map Prod.fst →
      ∀ σ τ, (Layout.product l).OwnMatch c.ds g' inputs' σ →
        ¬ IsMatch c.ds (σ ++ List.replicate field.intro none) (inGraph g' field.dataset) τ

/-- `S` holds of a part of a value: the inputs and graph are those denoted by the patterns of the format. -/
def SubSays (S : Option R → R → List R → Value → Prop) (g : Option R) (fmt : ValueFormat R) (τ : Subst R) (v : Value) : Prop :=
  ∃ inputs g', List.Forall₂ (fun p r => p.Denotes τ.get r) fmt.input inputs ∧ GraphDenotes g fmt.graph τ g' ∧
    S g' fmt.layout inputs v

/-- There is a chain of nodes from `head` to `tail`, with the items of the list. -/
inductive ChainSays (ds : List (Quad R)) (S : Option R → R → List R → Value → Prop) (g : Option R) (node : ItemLayout R)
    (σ : Subst R) (tail : R) : R → List Value → Prop
  | nil : ChainSays ds S g node σ tail tail []
  | cons {head τ v next vs} : head ≠ tail →
      IsMatch ds (σ ++ [some head, none] ++ List.replicate node.intro none) (inGraph g node.dataset) τ →
      SubSays S g node.value τ v → τ.get (σ.length + 1) = some next → ChainSays ds S g node σ tail next vs →
      ChainSays ds S g node σ tail head (v :: vs)

/-- The resource denoted by the layout is a literal of its datatype, read as `a`. -/
def DataSays {α} (c : HyCtx R) (parse : String → String → Out (HyError R) α) (l : DataLayout R) (σ : Subst R) (a : α) : Prop :=
  ∃ r lit i, l.resource.Denotes σ.get r ∧
    (c.literalsOf r).filter (fun lit => (c.irisOf l.datatype).any fun j => lit.type == .any j) = [lit] ∧
    lit.type = .any i ∧ parse lit.value i = .ok a

/-- The dataset says `v` for the layout, whose own patterns are matched as `σ`; `S` is what it says for other layouts. -/
def LayoutSays (c : HyCtx R) (S : Option R → R → List R → Value → Prop) (g : Option R) (σ : Subst R) (v : Value) :
    Layout R → Prop
  | .never => False
  | .unit l => v = l.const
  | .boolean l => ∃ b, DataSays c (Hydrate.booleanValue c) l σ b ∧ v = .literal (.boolean b)
  | .number l => ∃ q, DataSays c (Hydrate.numberValue c) l σ q ∧ v = .literal (.number q)
  | .byteString l => ∃ b, DataSays c Hydrate.byteStringValue l σ b ∧ v = .literal (.byteString b)
  | .textString l => ∃ s, DataSays c Hydrate.textStringValue l.toDataLayout σ s ∧ v = .literal (.textString s)
  | .id l => ∃ r iri, l.resource.Denotes σ.get r ∧ c.irisOf r = [iri] ∧ v = .literal (.textString iri)
  | .product l => ∃ m, v = .map m ∧
      (∀ k x, (k, x) ∈ m → ∃ fd τ, (k, fd) ∈ l.fields ∧
        IsMatch c.ds (σ ++ List.replicate fd.intro none) (inGraph g fd.dataset) τ ∧ SubSays S g fd.value τ x) ∧
      ∀ k fd, (k, fd) ∈ l.fields → fd.required = true → k ∈ m.map Prod.fst
  | .unordered l => ∃ vs, v = .list vs ∧
      ∀ x ∈ vs, ∃ τ, IsMatch c.ds (σ ++ List.replicate l.item.intro none) (inGraph g l.item.dataset) τ ∧
        SubSays S g l.item.value τ x
  | .ordered l => ∃ vs head tail, v = .list vs ∧ l.head.Denotes σ.get head ∧ l.tail.Denotes σ.get tail ∧
      (vs ≠ [] → ChainSays c.ds S g l.node σ tail head vs)
  | .sized l => ∃ vs, v = .list vs ∧
      List.Forall₂ (fun (item : ItemLayout R) x => ∃ τ,
        IsMatch c.ds (σ ++ List.replicate item.intro none) (inGraph g item.dataset) τ ∧ SubSays S g item.value τ x) l.items vs
  | .sum l => ∃ x ∈ l.variants, ∃ τ,
      IsMatch c.ds (σ ++ List.replicate x.intro none) (inGraph g x.dataset) τ ∧ SubSays S g x.value τ v
  | .always => True

/-- The dataset says the tree `v` for the layout `ref`, from the resources `inputs`, in the graph `g`; `n` bounds the nesting of
layouts. It may say more. Nothing is said of an empty list, but the own patterns of its layout. -/
def Says (c : HyCtx R) : Nat → Option R → R → List R → Value → Prop
  | 0, _, _, _, _ => False
  | n + 1, g, ref, inputs, v => ∃ l σ, c.reg ref = some l ∧ (∀ k, l.inputCount = some k → inputs.length = k) ∧
      l.OwnMatch c.ds g inputs σ ∧ LayoutSays c (Says c n) g σ v l

/-- Of the value `v` itself, nothing more is said: there is no match for an optional field without a member; every item of
the set is one of `v`; a list is not empty. An `always` layout says nothing that could be read. -/
def Layout.NothingElse (ds : List (Quad R)) (S : Option R → R → List R → Value → Prop) (g : Option R) (σ : Subst R) :
    Layout R → Value → Prop
  | .product l, .map m => ∀ k fd, (k, fd) ∈ l.fields → fd.required = false → k ∉ m.map Prod.fst →
      ∀ τ, ¬ IsMatch ds (σ ++ List.replicate fd.intro none) (inGraph g fd.dataset) τ
  | .unordered l, .list vs => ∀ τ, IsMatch ds (σ ++ List.replicate l.item.intro none) (inGraph g l.item.dataset) τ →
      ∃ x ∈ vs, SubSays S g l.item.value τ x
  | .ordered _, .list vs => vs ≠ []
  | .always, _ => False
  | _, _ => True

/-- Where reading comes to a part of `v`, and the dataset says this part, it says nothing more. -/
def Exact (c : HyCtx R) : Nat → Option R → R → List R → Value → Prop
  | 0, _, _, _, _ => True
  | n + 1, g, ref, inputs, v => ∀ l σ, c.reg ref = some l → l.OwnMatch c.ds g inputs σ →
      l.NothingElse c.ds (Says c n) g σ v ∧
      ∀ σ₀ pats fmt v' τ inputs' g', l.PartOf v σ σ₀ pats fmt v' → IsMatch c.ds σ₀ (inGraph g pats) τ →
        List.Forall₂ (fun p r => p.Denotes τ.get r) fmt.input inputs' → GraphDenotes g fmt.graph τ g' →
        Says c n g' fmt.layout inputs' v' → Exact c n g' fmt.layout inputs' v'

/-- The layout is not a set, nor `always`. -/
def Layout.Settled : Layout R → Prop
  | .unordered _ => False
  | .always => False
  | _ => True

/-- The resources that the layout denotes are inputs, or occur in the patterns that are matched before. -/
def Layout.Binds : Layout R → Prop
  | .boolean l => l.resource.BoundIn (boundVars 1 l.dataset)
  | .number l => l.resource.BoundIn (boundVars 1 l.dataset)
  | .byteString l => l.resource.BoundIn (boundVars 1 l.dataset)
  | .textString l => l.resource.BoundIn (boundVars 1 l.dataset)
  | .id l => l.resource.BoundIn (boundVars 1 l.dataset)
  | .product l => ∀ e ∈ l.fields, e.2.value.BoundIn (boundVars l.input (l.dataset ++ e.2.dataset))
  | .unordered l => l.item.value.BoundIn (boundVars l.input (l.dataset ++ l.item.dataset))
  | .ordered l => l.head.BoundIn (boundVars l.input l.dataset) ∧ l.tail.BoundIn (boundVars l.input l.dataset) ∧
      l.node.value.BoundIn (fun x => boundVars l.input (l.dataset ++ l.node.dataset) x ∨ x = l.input + l.intro) ∧
      l.input + l.intro + 1 ∈ patsVars l.node.dataset
  | .sized l => ∀ i ∈ l.items, i.value.BoundIn (boundVars l.input (l.dataset ++ i.dataset))
  | .sum l => ∀ x ∈ l.variants, x.value.BoundIn (boundVars l.input (l.dataset ++ x.dataset))
  | _ => True

/-- The patterns can be followed one after the other: the subject of each is known, and either there is nothing to find, or it
is the object, which is the value of a property in `S`. -/
def Follows (S : R → Prop) (known : Nat → Prop) : List (QuadPat R) → Prop
  | [] => True
  | q :: qs => q.s.BoundIn known ∧ (∀ g, q.g = some g → g.BoundIn known) ∧
      ((q.p.BoundIn known ∧ q.o.BoundIn known) ∨ ∃ p, q.p = .res p ∧ S p) ∧
      Follows S (fun x => known x ∨ x ∈ q.o.vars) qs

/-- The patterns of the layout, then those of its parts, can be followed from the inputs. -/
def Layout.Follows (S : R → Prop) (l : Layout R) : Prop :=
  Verif.Follows S (fun x => ∃ k, l.inputCount = some k ∧ x < k) l.own.2 ∧
  match l with
  | .product l => ∀ e ∈ l.fields, Verif.Follows S (boundVars l.input l.dataset) e.2.dataset
  | .ordered l => Verif.Follows S (fun x => boundVars l.input l.dataset x ∨ x = l.input + l.intro) l.node.dataset
  | .sized l => ∀ i ∈ l.items, Verif.Follows S (boundVars l.input l.dataset) i.dataset
  | .sum l => ∀ x ∈ l.variants, Verif.Follows S (boundVars l.input l.dataset) x.dataset
  | _ => True

/-- In each graph, a subject has one value at most for the property `p`. -/
def SingleValued (ds : List (Quad R)) (p : R) : Prop :=
  ∀ q ∈ ds, ∀ q' ∈ ds, q.p = p → q'.p = p → q.s = q'.s → q.g = q'.g → q.o = q'.o

end Verif
