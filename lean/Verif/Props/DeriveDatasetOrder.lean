import Verif.DeriveDatasetOrder
import Verif.Props.DsErrorCauses

/-!
# Property C97: derived deserialization treats the dataset as a set

`UpToOrder` (`Verif/DeriveSpec.lean`) is equality of trees up to the order of the items of unordered lists.
-/

set_option linter.unusedSectionVars false

namespace Verif.Props

open Verif.Derived

variable {R : Type} [DecidableEq R]

/-- **C97** If derived code reads a value from a dataset, then with the quads in any other order it reads a value that is the same up
to the order of the items of unordered lists. -/
theorem C97_values (c : DsCtx R) (ds' : List (Quad R)) (hreg : c.reg.Closed) (hwt : c.reg.WellTyped) (hds : c.ds.Nodup)
    (hds' : ds'.Nodup) (hset : ∀ q, q ∈ c.ds ↔ q ∈ ds') (n : Nat) (g : Option R) (ref : R) (inputs : List R)
    (hin : ∀ l k, c.reg ref = some l → l.inputCount = some k → inputs.length = k) (v : TypedValue R)
    (h : deserialize c n g ref inputs = .ok v) :
    ∃ w, deserialize { c with ds := ds' } n g ref inputs = .ok w ∧ UpToOrder c.reg v w :=
  deserialize_reorder hds hds' hset hreg hwt hin h

/-- **C97** (success). The order of the quads does not decide whether a value is read. -/
theorem C97_success (c : DsCtx R) (ds' : List (Quad R)) (hreg : c.reg.Closed) (hwt : c.reg.WellTyped) (hds : c.ds.Nodup)
    (hds' : ds'.Nodup) (hset : ∀ q, q ∈ c.ds ↔ q ∈ ds') (n : Nat) (g : Option R) (ref : R) (inputs : List R)
    (hin : ∀ l k, c.reg ref = some l → l.inputCount = some k → inputs.length = k) :
    (∃ v, deserialize c n g ref inputs = .ok v) ↔ ∃ w, deserialize { c with ds := ds' } n g ref inputs = .ok w := by
  constructor
  · rintro ⟨v, h⟩
    obtain ⟨w, hw, _⟩ := C97_values c ds' hreg hwt hds hds' hset n g ref inputs hin v h
    exact ⟨w, hw⟩
  · rintro ⟨w, h⟩
    obtain ⟨v, hv, _⟩ := C97_values { c with ds := ds' } c.ds hreg hwt hds' hds (fun q => (hset q).symm) n g ref inputs hin w h
    exact ⟨v, hv⟩

/-- **C97** (without unordered lists). For types without unordered lists the value is the same for all orders of the quads. -/
theorem C97_equal (c : DsCtx R) (ds' : List (Quad R)) (hreg : c.reg.Closed) (hwt : c.reg.WellTyped) (hds : c.ds.Nodup)
    (hds' : ds'.Nodup) (hset : ∀ q, q ∈ c.ds ↔ q ∈ ds') (hno : ∀ ref l, c.reg ref ≠ some (.unordered l)) (n : Nat) (g : Option R)
    (ref : R) (inputs : List R) (hin : ∀ l k, c.reg ref = some l → l.inputCount = some k → inputs.length = k) (v : TypedValue R) :
    deserialize c n g ref inputs = .ok v ↔ deserialize { c with ds := ds' } n g ref inputs = .ok v := by
  constructor
  · intro h
    obtain ⟨w, hw, hu⟩ := C97_values c ds' hreg hwt hds hds' hset n g ref inputs hin v h
    rw [C61_ordered_equal c hno v w hu]
    exact hw
  · intro h
    obtain ⟨w, hw, hu⟩ := C97_values { c with ds := ds' } c.ds hreg hwt hds' hds (fun q => (hset q).symm) n g ref inputs hin v h
    rw [C61_ordered_equal { c with ds := ds' } hno v w hu]
    exact hw

/-- **C97** (errors). If derived code returns an error for one order of the quads, then for every other one it returns an error too
(possibly another one), with a sufficient bound. -/
theorem C97_errors (c : DsCtx R) (ds' : List (Quad R)) (hreg : c.reg.Closed) (hwt : c.reg.WellTyped) (hds : c.ds.Nodup)
    (hds' : ds'.Nodup) (hset : ∀ q, q ∈ c.ds ↔ q ∈ ds')
    (hder : ∀ ref l, c.reg ref = some l → c.prim ref = none → l.Derivable)
    (hprim : ∀ ref p, c.prim ref = some p → ∃ l, c.reg ref = some l ∧ l.inputCount = some 1) (n : Nat) (g : Option R) (ref : R)
    (inputs : List R) (hin : ∀ l k, c.reg ref = some l → l.inputCount = some k → inputs.length = k) (hdef : (c.reg ref).isSome)
    (e : DsError) (h : deserialize c n g ref inputs = .err e) (hf : deserialize { c with ds := ds' } n g ref inputs ≠ .fuel) :
    ∃ e', deserialize { c with ds := ds' } n g ref inputs = .err e' := by
  cases h' : deserialize { c with ds := ds' } n g ref inputs with
  | ok w =>
    obtain ⟨v, hv⟩ := (C97_success c ds' hreg hwt hds hds' hset n g ref inputs hin).2 ⟨w, h'⟩
    rw [h] at hv
    exact nomatch hv
  | err e' => exact ⟨e', rfl⟩
  | panic => exact absurd h' (C61_no_panic { c with ds := ds' } hreg hwt hds' hder hprim n g ref inputs hin hdef)
  | fuel => exact absurd h' hf

/-! ## Examples, and what does depend on the order -/

namespace Witness

open DeriveExample

/-- A set of bytes. -/
def bytesReg : Registry Nat
  | 2 => some (.unordered
      { input := 1, «intro» := 0, dataset := [],
        item := { «intro» := 1, value := ⟨5, [.var 1], none⟩, dataset := [Example.q (.var 0) (.res 14) (.var 1)] } })
  | 5 => some age
  | _ => none

/-- The byte `104` is too large, `105` has no literal. -/
def bytesCtx (ds : List (Quad Nat)) : DsCtx Nat := { ctxWith (fun _ => true) either "300" with reg := bytesReg, ds := ds }

/-- **C97** (the order shows). Items of unordered lists are read in the order of the dataset, contrary to `hydrate`, which sorts them;
and the error reported may depend on the order. -/
theorem C97_order_shows :
    deserialize ctx 5 none 2 [100] =
      .ok (.list [.literal (.textString "b" 1), .literal (.textString "a" 1)] 2) ∧
    deserialize { ctx with ds := ds.reverse } 5 none 2 [100] =
      .ok (.list [.literal (.textString "a" 1), .literal (.textString "b" 1)] 2) ∧
    deserialize (bytesCtx [⟨100, 14, 104, none⟩, ⟨100, 14, 105, none⟩]) 5 none 2 [100] = .err .invalidLiteralValue ∧
    deserialize (bytesCtx [⟨100, 14, 105, none⟩, ⟨100, 14, 104, none⟩]) 5 none 2 [100] = .err .expectedLiteral := by
  decide +kernel

end Witness

section

open DeriveExample

theorem Witness.ctx_prims : ∀ ref p, ctx.prim ref = some p → ∃ l, ctx.reg ref = some l ∧ l.inputCount = some 1 := by
  intro ref p h
  obtain ⟨l, h1, h2⟩ := laws.prim ref p h
  exact ⟨l, h1, describes_inputCount ctx h2⟩

-- Alice, read through an enumeration from the quads in reverse order
example : ∃ w, deserialize { ctx with ds := ds.reverse } 5 none 4 [100] = .ok w ∧
    UpToOrder ctx.reg (.variant personTree 4 0) w :=
  C97_values ctx ds.reverse (reg_closed _ either_closed) reg_wellTyped ds_nodup (by decide) (fun q => by simp [ctx, ctxWith]) 5 none 4 [100]
    Witness.derived_arity _ derived_person

example := C97_success ctx ds.reverse (reg_closed _ either_closed) reg_wellTyped ds_nodup (by decide) (fun q => by simp [ctx, ctxWith])
  5 none 4 [100] Witness.derived_arity

-- nothing is known of the resource `999`, in any order
example : ∃ e, deserialize { ctx with ds := ds.reverse } 5 none 4 [999] = .err e :=
  C97_errors ctx ds.reverse (reg_closed _ either_closed) reg_wellTyped ds_nodup (by decide) (fun q => by simp [ctx, ctxWith])
    Witness.derivable Witness.ctx_prims 5 none 4 [999] (DsErrorWitness.arity 4 999) rfl .missingData (by decide +kernel) (by decide +kernel)

/-- Texts and lists of texts. -/
def Witness.listReg : Registry Nat
  | 1 => some Example.text
  | 3 => some Example.rdfList
  | _ => none

-- a list
example : deserialize { ctx with reg := Witness.listReg, ds := ds.reverse } 5 none 3 [200] =
    .ok (.list [.literal (.textString "b" 1), .literal (.textString "a" 1)] 3) := by
  have hcases : ∀ ref l, Witness.listReg ref = some l → (ref = 1 ∧ l = Example.text) ∨ (ref = 3 ∧ l = Example.rdfList) := by
    intro ref l h
    unfold Witness.listReg at h
    split at h <;> simp_all
  refine (C97_equal { ctx with reg := Witness.listReg } ds.reverse ?_ ?_ ds_nodup (by decide) (fun q => by simp [ctx, ctxWith]) ?_ 5
    none 3 [200] ?_ _).1 (by decide +kernel)
  · intro ref l h
    rcases hcases ref l h with ⟨_, rfl⟩ | ⟨_, rfl⟩ <;>
      simp [Example.text, Example.rdfList, Layout.Closed, ItemLayout.Closed, PatsBelow, patsVars, QuadPat.vars, Pattern.vars,
        ValueFormat.Below, Pattern.Below, Example.q]
  · intro ref l h
    rcases hcases ref l h with ⟨_, rfl⟩ | ⟨_, rfl⟩ <;>
      simp [Example.text, Example.rdfList, Layout.formats, Witness.listReg, Layout.inputCount]
  · intro ref l h
    rcases hcases ref _ h with ⟨_, h⟩ | ⟨_, h⟩ <;> simp [Example.text, Example.rdfList] at h
  · intro l k h hk
    rcases hcases 3 l h with ⟨h, _⟩ | ⟨_, rfl⟩
    · simp at h
    · simpa [Example.rdfList, Layout.inputCount, eq_comm] using hk

end

end Verif.Props
