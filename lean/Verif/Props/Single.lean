import Verif.Single
import Verif.DeriveExample
import Verif.Props.Hydrate
import Verif.Props.Dehydrate
import Verif.Props.Derive

/-!
# Property C106: a sum with one variant reads and writes what the layout of its variant does
-/

set_option linter.unusedSectionVars false
set_option linter.unusedSimpArgs false

namespace Verif.Props

variable {R : Type _} [DecidableEq R]

open Verif.Hydrate

/-- **C106** (hydration). A sum with one variant, without patterns, reads what the layout of its variant reads; the tree is annotated as
the first variant. -/
theorem C106_hydrate (c : HyCtx R) (ref inner : R) (name : String) (inputs : List R)
    (h : c.reg ref = some (.sum (.single inputs.length name inner))) (n : Nat) (g : Option R) (w : TypedValue R) :
    hydrate c (n + 1) g ref inputs = .ok w ↔ ∃ v, hydrate c n g inner inputs = .ok v ∧ w = .variant v ref 0 := by
  rw [hydrate_single h]
  cases hydrate c n g inner inputs with
  | ok v =>
    simp only [Out.ok.injEq, exists_eq_left']
    exact eq_comm
  | _ => simp

/-- **C106** (hydration): the error of the layout is a panic of the sum. -/
theorem C106_hydrate_panics (c : HyCtx R) (ref inner : R) (name : String) (inputs : List R)
    (h : c.reg ref = some (.sum (.single inputs.length name inner))) (n : Nat) (g : Option R) (e : HyError R)
    (he : hydrate c n g inner inputs = .err e) : hydrate c (n + 1) g ref inputs = .panic := by
  rw [hydrate_single h, he]

/-- **C106** (dehydration). A sum with one variant, without patterns, writes what the layout of its variant writes: the same dataset, with
the same terms for the inputs. -/
theorem C106_dehydrate (c : DeCtx) (ref inner : Term) (name : String) (k : Nat) (h : c.reg ref = some (.sum (.single k name inner)))
    (hinner : (c.reg inner).map Layout.inputCount = some (some k)) (n : Nat) (v : Value) (o : Dehydrate.DeOptions)
    (r : List (Quad Term) × List Term) :
    Dehydrate.dehydrate c (n + 1) v ref o = .ok r ↔ Dehydrate.dehydrate c n v inner o = .ok r := by
  obtain ⟨l, hl, hk⟩ := Option.map_eq_some_iff.1 hinner
  unfold Dehydrate.dehydrate
  rw [h, hl]
  dsimp only
  have h1 : (Layout.sum (SumLayout.single k name inner)).inputCount = some k := rfl
  rw [hk, h1]
  dsimp only [Option.getD]
  rw [Dehydrate.dehydrateWith_single (by simpa using h)]
  rcases Dehydrate.dehydrateWith c n v none inner ((List.range k).map .input) ⟨[], [], 0⟩ with ⟨a | e | _ | _, s⟩ <;> simp

/-- **C106** (derived deserialization). An enumeration with one variant, without patterns, is read like the type of its variant, with the
same error or failure. -/
theorem C106_derived {R : Type} [DecidableEq R] (c : DsCtx R) (ref inner : R) (name : String) (inputs : List R)
    (h : c.reg ref = some (.sum (.single inputs.length name inner))) (hp : c.prim ref = none) (n : Nat) (g : Option R) :
    Derived.deserialize c (n + 1) g ref inputs = (Derived.deserialize c n g inner inputs).map (.variant · ref 0) :=
  Derived.deserialize_single h hp n g

/-- **C106** (derived serialization). An enumeration with one variant, without patterns, is written like the value of its variant, from
every state, with the same failure. -/
theorem C106_derived_writing (c : SeCtx) (ref inner : Term) (name : String) (inputs : List IRes)
    (h : c.reg ref = some (.sum (.single inputs.length name inner))) (hp : c.prim ref = none) (n : Nat) (v : TypedValue Term) (ty : Term)
    (g : Option IRes) (s : DeState) :
    Derived.serialize c (n + 1) (.variant v ty 0) g ref inputs s = Derived.serialize c n v g inner inputs s :=
  Derived.serialize_single h hp n v ty g s

namespace Witness

/-- The layouts, and a sum with one variant. -/
def withSingle (reg : Registry R) (ref inner : R) : Registry R := fun r => if r = ref then some (.sum (.single 1 "only" inner)) else reg r

theorem withSingle_self (reg : Registry R) (ref inner : R) : withSingle reg ref inner ref = some (.sum (.single 1 "only" inner)) :=
  if_pos rfl

end Witness

section

open Example Witness

example : hydrate { ctx with reg := withSingle reg 20 0 } 6 none 20 [100] = .ok (.variant personTree 20 0) :=
  (C106_hydrate { ctx with reg := withSingle reg 20 0 } 20 0 "only" [100] (withSingle_self reg 20 0) 5 none _).2
    ⟨_, by decide +kernel, rfl⟩

-- there is nothing about 999
example : hydrate { ctx with reg := withSingle reg 20 0 } 6 none 20 [999] = .panic :=
  C106_hydrate_panics { ctx with reg := withSingle reg 20 0 } 20 0 "only" [999] (withSingle_self reg 20 0) 5 none
    (.missingData (.discriminant 0)) (by decide +kernel)

end

section

open Witness

/-- The layouts, and a sum of lists. -/
def onlyList : DeCtx := { DeExample.ctx with reg := withSingle DeExample.reg (.iri "only") (.iri "list") }

example : ∃ r, Dehydrate.dehydrate onlyList 5 DeExample.letters (.iri "only") DeExample.opts = .ok r := by
  have hok : (Dehydrate.dehydrate onlyList 4 DeExample.letters (.iri "list") DeExample.opts).isOk = true := by decide +kernel
  cases hx : Dehydrate.dehydrate onlyList 4 DeExample.letters (.iri "list") DeExample.opts with
  | ok r => exact ⟨r, (C106_dehydrate onlyList (.iri "only") (.iri "list") "only" 1
      (withSingle_self DeExample.reg (.iri "only") (.iri "list")) rfl 4 _ _ r).2 hx⟩
  | _ => rw [hx] at hok; exact nomatch hok

example : Derived.deserialize { DeriveExample.ctx with reg := withSingle DeriveExample.ctx.reg 20 4 } 6 none 20 [100] =
    .ok (.variant (.variant DeriveExample.personTree 4 0) 20 0) :=
  (C106_derived { DeriveExample.ctx with reg := withSingle DeriveExample.ctx.reg 20 4 } 20 4 "only" [100]
    (withSingle_self DeriveExample.ctx.reg 20 4) rfl 5 none).trans (by decide +kernel)

example (n : Nat) := C106_derived_writing { EnumExample.ctx with reg := withSingle EnumExample.reg (.iri "only") (.iri "shapes") }
  (.iri "only") (.iri "shapes") "only" [.input 0] (withSingle_self EnumExample.reg (.iri "only") (.iri "shapes")) rfl n EnumExample.logo
  (.iri "only") none ⟨[], [], 0⟩

end

end Verif.Props
