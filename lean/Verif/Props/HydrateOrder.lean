import Verif.HydrateOrder
import Verif.Props.Hydrate
import Verif.Props.PanicSites

/-!
# Property C07 (when the order of the dataset does not matter at all)

`C07_order_decides_panic` shows that the order in which quads are enumerated may decide between a value and a panic. Here are two
conditions under which it does not.
-/

set_option linter.unusedSectionVars false

namespace Verif.Props

open Verif.Hydrate

variable {R : Type _} [DecidableEq R]

/-- **C07** (variants told apart). If the variants of sums declare no variables and are told apart by their patterns, in particular
without sums, then reordering the quads of the dataset changes neither whether a value is returned nor the value, whatever panics
there may be and with any bound. -/
theorem C07_told_apart (c : HyCtx R) (ds' : List (Quad R)) (hreg : c.reg.Closed) (hds : c.ds.Nodup) (hds' : ds'.Nodup)
    (hle : TotalOrder c.le) (hset : ∀ q, q ∈ c.ds ↔ q ∈ ds') (hno : c.reg.NoVariantIntro) (hsums : c.ToldApart) (n : Nat)
    (g : Option R) (ref : R) (inputs : List R) (v : TypedValue R) :
    hydrate c n g ref inputs = .ok v ↔ hydrate { c with ds := ds' } n g ref inputs = .ok v := by
  refine ⟨fun h => hydrate_order hds hds' hset hreg hno hle hsums h, fun h => ?_⟩
  refine hydrate_order (c := { c with ds := ds' }) (ds' := c.ds) hds' hds (fun q => (hset q).symm) hreg hno hle ?_ h
  intro ref l hr g σ ⟨ins, hi, hs⟩ i j x y τ τ' hx hy hm hm'
  exact hsums ref l hr g σ ⟨ins, hi, (isMatch_congr hset _ _ _).2 hs⟩ i j x y τ τ' hx hy ((isMatch_congr hset _ _ _).2 hm)
    ((isMatch_congr hset _ _ _).2 hm')

/-- **C07** (no sums). -/
theorem C07_no_sums (c : HyCtx R) (ds' : List (Quad R)) (hreg : c.reg.Closed) (hds : c.ds.Nodup) (hds' : ds'.Nodup)
    (hle : TotalOrder c.le) (hset : ∀ q, q ∈ c.ds ↔ q ∈ ds') (hsums : ∀ ref l, c.reg ref ≠ some (.sum l)) (n : Nat)
    (g : Option R) (ref : R) (inputs : List R) (v : TypedValue R) :
    hydrate c n g ref inputs = .ok v ↔ hydrate { c with ds := ds' } n g ref inputs = .ok v :=
  C07_told_apart c ds' hreg hds hds' hle hset (fun ref l h => absurd h (hsums ref l)) (fun ref l h => absurd h (hsums ref l)) n g ref
    inputs v

/-- **C07** (no cause of panic). If nothing that hydration reads is in one of the situations that make it panic, then with no order of
the quads does it panic, and all orders give the same value, or none gives a value. -/
theorem C07_no_cause (c : HyCtx R) (ds' : List (Quad R)) (hreg : c.reg.Closed) (hds : c.ds.Nodup) (hds' : ds'.Nodup)
    (hle : TotalOrder c.le) (hset : ∀ q, q ∈ c.ds ↔ q ∈ ds') (g : Option R) (ref : R) (inputs : List R)
    (hno : ∀ q, Relation.ReflTransGen (Place.Reads c) ⟨g, ref, inputs⟩ q → ¬ PanicCause c q ∧ ¬ q.VariantDeclares c) (n : Nat)
    (hf : hydrate c n g ref inputs ≠ .fuel) (hf' : hydrate { c with ds := ds' } n g ref inputs ≠ .fuel) :
    hydrate { c with ds := ds' } n g ref inputs ≠ .panic ∧
    ∀ v, hydrate c n g ref inputs = .ok v ↔ hydrate { c with ds := ds' } n g ref inputs = .ok v := by
  have hset' : ∀ q, q ∈ ds' ↔ q ∈ c.ds := fun q => (hset q).symm
  have hp' : hydrate { c with ds := ds' } n g ref inputs ≠ .panic := by
    refine C45_no_cause_no_panic { c with ds := ds' } hreg hds' hle g ref inputs (fun q hq => ?_) n
    have hq' : Relation.ReflTransGen (Place.Reads c) ⟨g, ref, inputs⟩ q :=
      Relation.ReflTransGen.lift id (fun a b h => reads_order (c := { c with ds := ds' }) (ds' := c.ds) hset' h) _ _ hq
    exact ⟨fun h => (hno q hq').1 (panicCause_order (c := { c with ds := ds' }) (ds' := c.ds) hset' h), (hno q hq').2⟩
  exact ⟨hp', C07_hydrate_dataset_is_a_set_partial c ds' hreg hds hds' hle hset n g ref inputs
    (C45_no_cause_no_panic c hreg hds hle g ref inputs hno n) hp' hf hf'⟩

/-! ## Examples -/

open Witness Example in
-- a list, read through a sum whose variants are told apart, from the quads in reverse order
example : hydrate { typedCtx with ds := typedCtx.ds.reverse } 5 none 4 [200] =
    .ok (.variant (.list [.literal (.textString "b" 1), .literal (.textString "a" 1)] 3) 4 1) :=
  (C07_told_apart typedCtx typedCtx.ds.reverse typed_closed (by decide +kernel) (by decide +kernel) le_total (by simp) typed_noIntro
    typed_toldApart 5 none 4 [200] _).1 (by decide +kernel)

open Witness Example in
-- the registry without its sum: the person, read from the quads in reverse order
example : hydrate { ctx with reg := noSum, ds := ds.reverse } 5 none 0 [100] = .ok personTree :=
  (C07_no_sums { ctx with reg := noSum } ds.reverse noSum_closed ds_nodup (by decide) le_total (by simp [ctx])
    (by
      intro ref l h
      simp only [noSum] at h
      split at h <;> simp [person, text, tags, rdfList] at h) 5 none 0 [100] _).1 (by decide +kernel)

open Witness Example in
-- a text
example := C07_no_cause ctx ds.reverse reg_closed ds_nodup (by decide) le_total (by simp [ctx]) none 1 [101] text_fine 5
  (by decide +kernel) (by decide +kernel)

end Verif.Props
