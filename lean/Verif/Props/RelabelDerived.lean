import Verif.RelabelDerived
import Verif.DeriveExample
import Verif.Props.Relabel
import Verif.Props.Derive

/-!
# Property C102: the identifiers of layouts do not matter, in derived code
-/

set_option linter.unusedSectionVars false
set_option linter.unusedSimpArgs false

namespace Verif.Props

/-- **C102** (derived deserialization). With the types under other identifiers, where identical types may be merged, derived
deserialization returns the same value, annotated with the other identifiers, with all lists in the same order, or it fails in the same
way. -/
theorem C102_derived {R : Type} [DecidableEq R] (c : DsCtx R) (f : R → R) (reg' : Registry R) (prim' : R → Option Prim)
    (literal' : R → String → Option (TypedLiteral R)) (hreg : c.reg.Relabels f reg') (hprim : ∀ r, prim' (f r) = c.prim r)
    (hliteral : ∀ r s, literal' (f r) s = (c.fromLiteral r s).map (TypedLiteral.relabel f)) (n : Nat) (g : Option R) (ref : R)
    (inputs : List R) :
    Derived.deserialize { c with reg := reg', prim := prim', fromLiteral := literal' } n g (f ref) inputs =
      (Derived.deserialize c n g ref inputs).map (TypedValue.relabel f) :=
  Derived.deserialize_relabel hreg hprim hliteral n g ref inputs

/-- **C102** (derived serialization). With the types under other identifiers, every value is written in the same way, from every state, or
there is the same failure. -/
theorem C102_derived_writing (c : SeCtx) (f : Term → Term) (reg' : Registry Term) (prim' : Term → Option Prim)
    (hreg : c.reg.Relabels f reg') (hprim : ∀ r, prim' (f r) = c.prim r) (n : Nat) (v : TypedValue Term) (g : Option IRes) (ref : Term)
    (inputs : List IRes) (s : DeState) :
    Derived.serialize { c with reg := reg', prim := prim' } n v g (f ref) inputs s = Derived.serialize c n v g ref inputs s := by
  rw [Derived.serialize_relabel hreg hprim]

section

open Witness

-- the type of texts `1` under the identifier `9`
example : Derived.deserialize { DeriveExample.ctx with
      reg := underOther (swapIds 1 9) (swapIds 1 9) DeriveExample.ctx.reg
      prim := fun r => DeriveExample.ctx.prim (swapIds 1 9 r)
      fromLiteral := fun r s => (DeriveExample.ctx.fromLiteral (swapIds 1 9 r) s).map (TypedLiteral.relabel (swapIds 1 9)) } 5 none 4 [100] =
    .ok (.variant (.map [(.text "age", .literal (.number 30 5)), (.text "name", .literal (.textString "Alice" 9)),
      (.text "tags", .list [.literal (.textString "b" 9), .literal (.textString "a" 9)] 2)] 0) 4 0) := by
  refine (C102_derived DeriveExample.ctx (swapIds 1 9) _ _ _ (relabels_underOther (swapIds_swapIds 1 9) _)
    (fun r => by rw [swapIds_swapIds]) (fun r s => by rw [swapIds_swapIds]) 5 none 4 [100]).trans ?_
  decide +kernel

example (n : Nat) := C102_derived_writing EnumExample.ctx (swapIds (.iri "shape") (.iri "form")) _
  (fun r => EnumExample.ctx.prim (swapIds (.iri "shape") (.iri "form") r)) (relabels_underOther (swapIds_swapIds _ _) _)
  (fun r => by rw [swapIds_swapIds]) n EnumExample.logo none (.iri "shapes") [.input 0] ⟨[], [], 0⟩

end

end Verif.Props
