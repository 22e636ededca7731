import Verif.DehydrateSpec

/-!
# What the errors of dehydration say

`DeFails c p e`: the error `e` tells the truth about the tree at the place `p`, or about one of its components. `DeAccepts c p`: the tree
at the place `p` has what its layout asks for, and exactly one of the variants of each sum. Neither looks at the data that is written.
-/

namespace Verif

/-- Where dehydration is: the layout, how many inputs it is given, and the tree. -/
structure DePlace where
  layout : Term
  inputs : Nat
  value : Value

/-- The place where the tree is written according to the format of a field, an item or a variant. -/
def DePlace.via (fmt : ValueFormat Term) (v : Value) : DePlace := ⟨fmt.layout, fmt.input.length, v⟩

/-- The layout of the place is `l`, and it is given as many inputs as it expects. -/
def DePlace.Has (c : DeCtx) (p : DePlace) (l : Layout Term) : Prop :=
  c.reg p.layout = some l ∧ ∀ k, l.inputCount = some k → p.inputs = k

/-- The tree is not one for the layout, whatever its components are. -/
inductive Layout.Misfit (isIri : String → Bool) : Layout Term → Value → Prop
  /-- it is not of the right kind -/
  | kind {l v} : l.HeadMismatch v → Misfit isIri l v
  /-- an identifier is not an IRI -/
  | iri {l t} : isIri t = false → Misfit isIri (.id l) (.literal (.textString t))
  /-- a record has a key that is not the one of a field -/
  | key {l m k v} : (k, v) ∈ m → (∀ f, (k, f) ∉ l.fields) → Misfit isIri (.product l) (.map m)
  /-- a tuple has another length -/
  | length {l vs} : vs.length ≠ l.items.length → Misfit isIri (.sized l) (.list vs)

/-- The tree is a record `m` without the key `key`, which is required. -/
inductive Layout.Lacks : Layout Term → Value → Value → List (Value × Value) → Prop
  | mk {l m key f} : (key, f) ∈ l.fields → f.required = true → (∀ v, (key, v) ∉ m) → Lacks (.product l) (.map m) key m

mutual

/-- The tree is accepted by the layout. -/
inductive DeAccepts (c : DeCtx) : DePlace → Prop
  /-- not by a sum: the tree is one for the layout, and its components are accepted -/
  | plain {p l} : p.Has c l → (∀ l', l ≠ .sum l') → ¬ l.Misfit c.isIri p.value → (∀ key m, ¬ l.Lacks p.value key m) →
      (∀ fmt v, SubCall l p.value fmt v → DeAccepts c (.via fmt v)) → DeAccepts c p
  /-- by a sum: one variant accepts the tree, the others fail -/
  | sum {p : DePlace} {l : SumLayout Term} {x : Variant Term} (i : Nat) (err : Nat → DeError) : p.Has c (.sum l) → l.variants[i]? = some x →
      DeAccepts c (.via x.value p.value) →
      (∀ j y, l.variants[j]? = some y → j ≠ i → DeFails c (.via y.value p.value) (err j)) → DeAccepts c p

/-- What the error says is true of the tree, or of one of its components. -/
inductive DeFails (c : DeCtx) : DePlace → DeError → Prop
  /-- the layout is not defined -/
  | notFound {p} : c.reg p.layout = none → DeFails c p (.layoutNotFound p.layout)
  /-- the layout expects another number of inputs -/
  | inputs {p l k} : c.reg p.layout = some l → l.inputCount = some k → p.inputs ≠ k → DeFails c p (.invalidInputCount k p.inputs)
  /-- the tree is not one for the layout -/
  | misfit {p l} : p.Has c l → l.Misfit c.isIri p.value → DeFails c p .incompatibleLayout
  /-- a required key is missing -/
  | required {p l key m} : p.Has c l → l.Lacks p.value key m → DeFails c p (.missingRequiredKey p.layout key m)
  /-- no variant accepts the tree -/
  | noVariant {p l} (err : Variant Term → DeError) : p.Has c (.sum l) →
      (∀ x ∈ l.variants, DeFails c (.via x.value p.value) (err x)) → DeFails c p .incompatibleLayout
  /-- several variants accept the tree -/
  | ambiguous {p : DePlace} {l : SumLayout Term} {i j : Nat} {x y : Variant Term} : p.Has c (.sum l) → i ≠ j → l.variants[i]? = some x → l.variants[j]? = some y →
      DeAccepts c (.via x.value p.value) → DeAccepts c (.via y.value p.value) → DeFails c p .dataAmbiguity
  /-- the error is about a field of a record, or an item of a list -/
  | component {p l fmt v e} : p.Has c l → (∀ l', l ≠ .sum l') → SubCall l p.value fmt v → DeFails c (.via fmt v) e → DeFails c p e

end

end Verif
