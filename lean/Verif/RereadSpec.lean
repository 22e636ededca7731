import Verif.ReproduceSpec
import Verif.HydrateSpec

/-!
# Specifications for reading again what was written

A tree is read from a dataset, written with the same layouts, and read again from what was written.
-/

namespace Verif

variable {R : Type _} [DecidableEq R]

/-- No tree can be read, in the default graph, through two variants of the same sum. -/
def HyCtx.Discriminated (c : HyCtx R) : Prop :=
  ∀ m ref l, c.reg ref = some (.sum l) → ∀ σ, SumMatch c.ds none l σ → ∀ (i j : Nat) x y v w,
    l.variants[i]? = some x → l.variants[j]? = some y →
    VariantMeaning c.ds (Meaning c m) none σ x v → VariantMeaning c.ds (Meaning c m) none σ y w → i = j

/-- The IRI the term is. -/
def Term.iris : Term → List String
  | .iri i => [i]
  | _ => []

/-- The literal the term is. -/
def Term.ownLiterals : Term → List RdfLit
  | .literal l => [l]
  | _ => []

/-- `k` is a part of `c`: the same layouts, and some of the quads. The IRIs of a resource may be lost, and its literals may
be lost or written differently, with the same type. -/
structure HyCtx.Part (c k : HyCtx R) : Prop where
  reg : k.reg = c.reg
  xsd : k.xsd = c.xsd
  le : k.le = c.le
  ds : ∀ q ∈ k.ds, q ∈ c.ds
  iris : ∀ r, ∀ i ∈ k.irisOf r, i ∈ c.irisOf r
  literals : ∀ r, ∀ l ∈ k.literalsOf r, ∃ l' ∈ c.literalsOf r, l.type = l'.type

/-- The terms at hand that are written alike are the same. -/
def WrittenApart (x : Xsd) (P : Term → Prop) : Prop :=
  ∀ u u' t, P u → P u' → WrittenAs x u t → WrittenAs x u' t → u = u'

/-- The names given by the options do not clash with the terms at hand: generated names are new blank nodes, and the name of
an input is a new blank node too, or is the input itself. -/
structure NewNames (x : Xsd) (P : Term → Prop) (o : Dehydrate.DeOptions) (inputs : List Term) : Prop where
  generator : ∀ i u, P u → ¬ WrittenAs x u (o.generator i)
  input : ∀ i u, P u → WrittenAs x u (o.inputTerm i) → inputs[i]? = some u
  generator_blank : ∀ i, ∃ s, o.generator i = .blank s
  input_blank : ∀ i, (∃ s, o.inputTerm i = .blank s) ∨ inputs[i]? = some (o.inputTerm i)

end Verif
