import Verif.LayoutSpec
import Verif.Hydrate

/-!
# Declarative meaning of a layout over a dataset

`Meaning c n g ref inputs v`: reading the dataset of `c` through the layout `ref`, from the resources `inputs`, in
the graph `g`, gives the tree `v`; `n` bounds the nesting of layouts. There is no search in this definition: only
"the unique substitution such that…", "exactly one variant such that…", "one item per match".

From the model it uses the context `HyCtx` (layouts, interpretation, dataset), and the lexical value functions.
-/

namespace Verif

variable {R : Type _} [DecidableEq R]

/-- `σ` is the only match. -/
def UniqueMatch (ds : List (Quad R)) (σ₀ : Subst R) (pats : List (QuadPat R)) (σ : Subst R) : Prop :=
  IsMatch ds σ₀ pats σ ∧ ∀ τ, IsMatch ds σ₀ pats τ → τ = σ

/-- The patterns, read in graph `g`: those that do not name a graph are looked for in `g`. -/
def inGraph (g : Option R) (pats : List (QuadPat R)) : List (QuadPat R) :=
  pats.map fun q => match q.g, g with
    | some _, _ => q
    | none, some g => { q with g := some (.res g) }
    | none, none => q

/-- The graph selected by a value format. -/
def GraphDenotes (current : Option R) (pat : Option (Option (Pattern R))) (σ : Subst R) (g : Option R) : Prop :=
  match pat with
  | none => g = current
  | some none => g = none
  | some (some p) => ∃ r, p.Denotes σ.get r ∧ g = some r

/-- Meaning of a sub-value: the inputs and graph are those denoted by the patterns of the format. -/
def SubMeaning (M : Option R → R → List R → TypedValue R → Prop) (g : Option R) (fmt : ValueFormat R) (σ : Subst R)
    (v : TypedValue R) : Prop :=
  ∃ ins g', List.Forall₂ (fun p r => p.Denotes σ.get r) fmt.input ins ∧ GraphDenotes g fmt.graph σ g' ∧
    M g' fmt.layout ins v

/-- The items of an ordered list: the chain of nodes from `head` to `tail`. `k` is the index of the node variable;
`k + 1` is the index of the rest variable. -/
inductive ChainMeaning (ds : List (Quad R)) (M : Option R → R → List R → TypedValue R → Prop) (g : Option R)
    (node : ItemLayout R) (σ : Subst R) (tail : R) : R → List (TypedValue R) → Prop
  | nil : ChainMeaning ds M g node σ tail tail []
  | cons {head σ' v next vs} : head ≠ tail →
      UniqueMatch ds (σ ++ [some head, none] ++ List.replicate node.intro none) (inGraph g node.dataset) σ' →
      SubMeaning M g node.value σ' v → σ'.get (σ.length + 1) = some next →
      ChainMeaning ds M g node σ tail next vs →
      ChainMeaning ds M g node σ tail head (v :: vs)

/-- The fields of a record: absent when the field's pattern has no match, and then the field must be optional. -/
inductive FieldsMeaning (ds : List (Quad R)) (M : Option R → R → List R → TypedValue R → Prop) (g : Option R)
    (σ : Subst R) : List (Value × Field R) → List (Value × TypedValue R) → Prop
  | nil : FieldsMeaning ds M g σ [] []
  | present {key field fs σ' v m} :
      UniqueMatch ds (σ ++ List.replicate field.intro none) (inGraph g field.dataset) σ' →
      SubMeaning M g field.value σ' v →
      FieldsMeaning ds M g σ fs m → FieldsMeaning ds M g σ ((key, field) :: fs) ((key, v) :: m)
  | absent {key field fs m} :
      (∀ τ, ¬ IsMatch ds (σ ++ List.replicate field.intro none) (inGraph g field.dataset) τ) →
      field.required = false → FieldsMeaning ds M g σ fs m → FieldsMeaning ds M g σ ((key, field) :: fs) m

/-- A variant applies, with value `v`: its pattern has exactly one match, and its value means `v`. -/
def VariantMeaning (ds : List (Quad R)) (M : Option R → R → List R → TypedValue R → Prop) (g : Option R)
    (σ : Subst R) (variant : Variant R) (v : TypedValue R) : Prop :=
  ∃ σ', UniqueMatch ds (σ ++ List.replicate variant.intro none) (inGraph g variant.dataset) σ' ∧
    SubMeaning M g variant.value σ' v

/-- Meaning of a literal layout: the resource has exactly one literal of the datatype of the layout. -/
def DataMeaning {α} (c : HyCtx R) (parse : String → String → Out (HyError R) α) (g : Option R) (l : DataLayout R)
    (inputs : List R) (a : α) : Prop :=
  ∃ σ r lit i, UniqueMatch c.ds (inputs.map some ++ List.replicate l.intro none) (inGraph g l.dataset) σ ∧
    l.resource.Denotes σ.get r ∧
    (c.literalsOf r).filter (fun lit => (c.irisOf l.datatype).any fun j => lit.type == .any j) = [lit] ∧
    lit.type = .any i ∧ parse lit.value i = .ok a

/-- Meaning of a layout, given the meaning `M` of the layouts it refers to. -/
def LayoutMeaning (c : HyCtx R) (M : Option R → R → List R → TypedValue R → Prop) (g : Option R) (ref : R)
    (inputs : List R) (v : TypedValue R) : Layout R → Prop
  | .never => False
  | .unit l =>
    (∃ σ, UniqueMatch c.ds (inputs.map some ++ List.replicate l.intro none) (inGraph g l.dataset) σ) ∧
      v = .literal (.unit l.const ref)
  | .boolean l => ∃ b, DataMeaning c (Hydrate.booleanValue c) g l inputs b ∧ v = .literal (.boolean b ref)
  | .number l => ∃ q, DataMeaning c (Hydrate.numberValue c) g l inputs q ∧ v = .literal (.number q ref)
  | .byteString l => ∃ b, DataMeaning c Hydrate.byteStringValue g l inputs b ∧ v = .literal (.byteString b ref)
  | .textString l =>
    ∃ s, DataMeaning c Hydrate.textStringValue g l.toDataLayout inputs s ∧ v = .literal (.textString s ref)
  | .id l => ∃ σ r iri,
      UniqueMatch c.ds (inputs.map some ++ List.replicate l.intro none) (inGraph g l.dataset) σ ∧
      l.resource.Denotes σ.get r ∧ c.irisOf r = [iri] ∧ v = .literal (.id iri ref)
  | .product l => ∃ σ m,
      UniqueMatch c.ds (inputs.map some ++ List.replicate l.intro none) (inGraph g l.dataset) σ ∧
      FieldsMeaning c.ds M g σ l.fields m ∧ v = .map m ref
  | .unordered l => ∃ σ, ∃ matchings : List (Subst R), ∃ values items : List (TypedValue R),
      UniqueMatch c.ds (inputs.map some ++ List.replicate l.intro none) (inGraph g l.dataset) σ ∧
      matchings.Nodup ∧
      (∀ τ, τ ∈ matchings ↔ IsMatch c.ds (σ ++ List.replicate l.item.intro none) (inGraph g l.item.dataset) τ) ∧
      List.Forall₂ (fun τ v => SubMeaning M g l.item.value τ v) matchings values ∧
      items.Perm values ∧ items.Pairwise (fun a b => c.le a b = true) ∧ v = .list items ref
  | .ordered l => ∃ σ head tail items,
      UniqueMatch c.ds (inputs.map some ++ List.replicate l.intro none) (inGraph g l.dataset) σ ∧
      l.head.Denotes σ.get head ∧ l.tail.Denotes σ.get tail ∧
      ChainMeaning c.ds M g l.node σ tail head items ∧ v = .list items ref
  | .sized l => ∃ σ items,
      UniqueMatch c.ds (inputs.map some ++ List.replicate l.intro none) (inGraph g l.dataset) σ ∧
      List.Forall₂ (fun (item : ItemLayout R) v => ∃ σ',
        UniqueMatch c.ds (σ ++ List.replicate item.intro none) (inGraph g item.dataset) σ' ∧
        SubMeaning M g item.value σ' v) l.items items ∧ v = .list items ref
  | .sum l => ∃ σ i variant w,
      UniqueMatch c.ds (inputs.map some ++ List.replicate l.intro none) (inGraph g l.dataset) σ ∧
      (∀ x ∈ l.variants, ∀ τ τ',
        IsMatch c.ds (σ ++ List.replicate x.intro none) (inGraph g x.dataset) τ →
        IsMatch c.ds (σ ++ List.replicate x.intro none) (inGraph g x.dataset) τ' → τ = τ') ∧
      l.variants[i]? = some variant ∧ VariantMeaning c.ds M g σ variant w ∧
      (∀ j x w', l.variants[j]? = some x → VariantMeaning c.ds M g σ x w' → j = i) ∧
      v = .variant w ref i
  | .always => v = .always .unit

/-- Meaning of the layout reference `ref`, with nesting at most `n`. -/
def Meaning (c : HyCtx R) : Nat → Option R → R → List R → TypedValue R → Prop
  | 0, _, _, _, _ => False
  | n + 1, g, ref, inputs, v => ∃ l, c.reg ref = some l ∧ (∀ k, l.inputCount = some k → inputs.length = k) ∧
      LayoutMeaning c (Meaning c n) g ref inputs v l

/-- No variant of a sum layout introduces variables of its own. -/
def Registry.NoVariantIntro (reg : Registry R) : Prop :=
  ∀ ref l, reg ref = some (.sum l) → ∀ v ∈ l.variants, v.intro = 0

/-- `σ` is a match of the patterns of the sum `l`, from some inputs. -/
def SumMatch (ds : List (Quad R)) (g : Option R) (l : SumLayout R) (σ : Subst R) : Prop :=
  ∃ inputs : List R, inputs.length = l.input ∧
    IsMatch ds (inputs.map some ++ List.replicate l.intro none) (inGraph g l.dataset) σ

/-- The variants of a sum are told apart by their patterns: wherever the sum is read, no two of them have a match. -/
def HyCtx.ToldApart (c : HyCtx R) : Prop :=
  ∀ ref l, c.reg ref = some (.sum l) → ∀ g σ, SumMatch c.ds g l σ → ∀ (i j : Nat) x y τ τ',
    l.variants[i]? = some x → l.variants[j]? = some y →
    IsMatch c.ds (σ ++ List.replicate x.intro none) (inGraph g x.dataset) τ →
    IsMatch c.ds (σ ++ List.replicate y.intro none) (inGraph g y.dataset) τ' → i = j

/-- `le` is a total order (`derive(Ord)` on typed values). -/
structure TotalOrder {α} (le : α → α → Bool) : Prop where
  total : ∀ a b, le a b = true ∨ le b a = true
  trans : ∀ a b c, le a b = true → le b c = true → le a c = true
  antisymm : ∀ a b, le a b = true → le b a = true → a = b

/-- `x` decides the set `P`: if it succeeds, `P` has exactly that element; if it fails, `P` is empty. A panic or an
exhausted bound says nothing. -/
def Decides {ε α} (x : Out ε α) (P : α → Prop) : Prop :=
  match x with
  | .ok a => ∀ b, P b ↔ b = a
  | .err _ => ∀ b, ¬ P b
  | .panic => True
  | .fuel => True

end Verif
