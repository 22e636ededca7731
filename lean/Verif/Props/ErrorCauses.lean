import Verif.ErrorSites
import Verif.HydrateExample

/-!
# Property C93: what an error of hydration says is true of the data

What each error says is in `Verif/ErrorSpec.lean` (`ErrorCause`). Places and their components are in `Verif/PanicSpec.lean`.
-/

set_option linter.unusedSectionVars false

namespace Verif.Props

open Verif.Hydrate

variable {R : Type _} [DecidableEq R]

/-- **C93** (errors are true). When hydration returns an error, what the error says is true of the layout and the inputs hydration is
given, or of one of their components (fields and items, and their own components); or one of the components has a sum with a variant
that declares variables. -/
theorem C93_error_true (c : HyCtx R) (hreg : c.reg.Closed) (hds : c.ds.Nodup) (n : Nat) (g : Option R) (ref : R) (inputs : List R)
    (e : HyError R) (h : hydrate c n g ref inputs = .err e) :
    ∃ q, Relation.ReflTransGen (Place.Component c) ⟨g, ref, inputs⟩ q ∧ (ErrorCause c q e ∨ q.VariantDeclares c) :=
  err_cause hreg hds (p := ⟨g, ref, inputs⟩) h

/-- **C93** (without exception if no variant declares variables). -/
theorem C93_error_true_closed (c : HyCtx R) (hreg : c.reg.Closed) (hds : c.ds.Nodup) (hni : c.reg.NoVariantIntro) (n : Nat)
    (g : Option R) (ref : R) (inputs : List R) (e : HyError R) (h : hydrate c n g ref inputs = .err e) :
    ∃ q, Relation.ReflTransGen (Place.Component c) ⟨g, ref, inputs⟩ q ∧ ErrorCause c q e := by
  obtain ⟨q, hq, hc⟩ := C93_error_true c hreg hds n g ref inputs e h
  refine ⟨q, hq, hc.resolve_right ?_⟩
  rintro ⟨l, hp, x, hx, h0⟩
  exact h0 (hni q.layout l hp.1 x hx)

/-- **C93** (what errors say prevents hydration). If what some error says is true of the layout and the inputs hydration is given, or
of one of their components, then hydration does not return a value. -/
theorem C93_causes_prevent (c : HyCtx R) (hreg : c.reg.Closed) (hds : c.ds.Nodup) (hle : TotalOrder c.le)
    (hni : c.reg.NoVariantIntro) (n : Nat) (g : Option R) (ref : R) (inputs : List R) (q : Place R) (e : HyError R)
    (hq : Relation.ReflTransGen (Place.Component c) ⟨g, ref, inputs⟩ q) (hc : ErrorCause c q e) (v : TypedValue R) :
    hydrate c n g ref inputs ≠ .ok v :=
  error_component hreg hds hle hni (p := ⟨g, ref, inputs⟩) n q hq hc

/-- **C93** (no cause, success). Hydration with a sufficient bound returns a value exactly if nothing that an error could say is true
of the components, and it does not panic. -/
theorem C93_succeeds_iff (c : HyCtx R) (hreg : c.reg.Closed) (hds : c.ds.Nodup) (hle : TotalOrder c.le)
    (hni : c.reg.NoVariantIntro) (n : Nat) (g : Option R) (ref : R) (inputs : List R) (hfuel : hydrate c n g ref inputs ≠ .fuel) :
    (∃ v, hydrate c n g ref inputs = .ok v) ↔
      hydrate c n g ref inputs ≠ .panic ∧
      ∀ q, Relation.ReflTransGen (Place.Component c) ⟨g, ref, inputs⟩ q → ∀ e, ¬ ErrorCause c q e := by
  constructor
  · rintro ⟨v, h⟩
    refine ⟨by rw [h]; simp, fun q hq e hc => ?_⟩
    exact C93_causes_prevent c hreg hds hle hni n g ref inputs q e hq hc v h
  · rintro ⟨hp, hno⟩
    rcases h : hydrate c n g ref inputs with v | e | _ | _
    · exact ⟨v, rfl⟩
    · obtain ⟨q, hq, hc⟩ := C93_error_true_closed c hreg hds hni n g ref inputs e h
      exact absurd hc (hno q hq e)
    · exact absurd h hp
    · exact absurd h hfuel

/-- **C93** (required fields). If hydration says that the data of a field is missing, there is a component with the named layout, a
record one required field of which has the named key and has no match. -/
theorem C93_missing_key (c : HyCtx R) (hreg : c.reg.Closed) (hds : c.ds.Nodup) (hni : c.reg.NoVariantIntro) (n : Nat)
    (g : Option R) (ref : R) (inputs : List R) (layout : R) (key : Value)
    (h : hydrate c n g ref inputs = .err (.missingData (.key layout key))) :
    ∃ q l σ field, Relation.ReflTransGen (Place.Component c) ⟨g, ref, inputs⟩ q ∧ q.layout = layout ∧ c.reg layout = some (.product l) ∧
      q.Match c l.intro l.dataset σ ∧ (key, field) ∈ l.fields ∧ field.required = true ∧
      ∀ τ, ¬ IsMatch c.ds (σ ++ List.replicate field.intro none) (inGraph q.graph field.dataset) τ := by
  obtain ⟨q, hq, hc⟩ := C93_error_true_closed c hreg hds hni n g ref inputs _ h
  cases hc with
  | @noField l σ key field hp hm he hr hno => exact ⟨q, l, σ, field, hq, rfl, hp.1, hm, he, hr, hno⟩

namespace ErrorWitness

open Example

/-- The example with another dataset. -/
def withData (ds : List (Quad Nat)) : HyCtx Nat := { ctx with ds := ds }

/-- A person without name. -/
def nameless := withData [⟨100, 10, 11, none⟩]

/-- A person with two names. -/
def twoNames := withData [⟨100, 10, 11, none⟩, ⟨100, 12, 101, none⟩, ⟨100, 12, 102, none⟩]

/-- A person whose name is not a text. -/
def badName := withData [⟨100, 10, 11, none⟩, ⟨100, 12, 7, none⟩]

/-- A list without end. -/
def noEnd := withData [⟨200, 31, 102, none⟩, ⟨200, 32, 201, none⟩]

/-- A list with a node that has two items. -/
def twoItems := withData [⟨200, 31, 102, none⟩, ⟨200, 31, 103, none⟩, ⟨200, 32, 30, none⟩]

end ErrorWitness

open Example ErrorWitness

example := C93_missing_key nameless reg_closed (by decide) reg_noVariantIntro 5 none 0 [100] 0 (.text "name") (by decide +kernel)
example := C93_error_true nameless reg_closed (by decide) 5 none 0 [100] (.missingData (.key 0 (.text "name"))) (by decide +kernel)
example := C93_error_true twoNames reg_closed (by decide) 5 none 0 [100] (.dataAmbiguity (.key 0 (.text "name"))) (by decide +kernel)
example := C93_error_true noEnd reg_closed (by decide) 5 none 3 [200] (.missingData (.orderedListNode 3 201 30)) (by decide +kernel)
example := C93_error_true twoItems reg_closed (by decide) 5 none 3 [200] (.dataAmbiguity (.orderedListNode 3 200 30)) (by decide +kernel)
example := C93_error_true ctx reg_closed ds_nodup 5 none 0 [5] (.missingData (.discriminant 0)) (by decide +kernel)
example := C93_error_true ctx reg_closed ds_nodup 5 none 0 [5, 6] (.invalidInputCount 1 2) (by decide +kernel)
example := C93_error_true ctx reg_closed ds_nodup 5 none 9 [5] (.layoutNotFound 9) (by decide +kernel)

-- the error comes from a component, the name
example := C93_error_true_closed badName reg_closed (by decide) reg_noVariantIntro 5 none 0 [100] .noMatchingLiteral (by decide +kernel)

-- what it says prevents hydration with any bound
example : ∀ n v, hydrate nameless n none 0 [100] ≠ .ok v := by
  obtain ⟨q, hq, hc⟩ := C93_error_true_closed nameless reg_closed (by decide) reg_noVariantIntro 5 none 0 [100]
    (.missingData (.key 0 (.text "name"))) (by decide +kernel)
  exact fun n v => C93_causes_prevent nameless reg_closed (by decide) le_total reg_noVariantIntro n none 0 [100] q _ hq hc v

example := (C93_succeeds_iff ctx reg_closed ds_nodup le_total reg_noVariantIntro 5 none 0 [100] (by decide +kernel)).1
  ⟨_, hydrate_person⟩

end Verif.Props
