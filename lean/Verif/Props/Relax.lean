import Verif.Relax
import Verif.RelaxDe
import Verif.ExtendSer
import Verif.Props.Derive
import Verif.DehydrateExample
import Verif.DeriveExample
import Verif.Props.Hydrate

/-!
# Property C103: making required fields optional keeps what could be read and written
-/

set_option linter.unusedSectionVars false
set_option linter.unusedSimpArgs false

namespace Verif.Props

variable {R : Type _} [DecidableEq R]

open Verif.Hydrate

/-- **C103** (hydration). If the variants of sums declare no variables and are told apart by their patterns, in particular without sums,
then what was read is still read, as the same tree, when some required fields are made optional. Missing: `C103_sum_reading` shows that
the condition is needed. -/
theorem C103_hydrate_partial (c : HyCtx R) (reg' : Registry R) (hrel : c.reg.Relaxed reg') (hreg : c.reg.Closed)
    (hno : c.reg.NoVariantIntro) (hds : c.ds.Nodup) (hsums : c.ToldApart) (n : Nat) (g : Option R) (ref : R) (inputs : List R)
    (v : TypedValue R) (h : hydrate c n g ref inputs = .ok v) : hydrate { c with reg := reg' } n g ref inputs = .ok v := by
  obtain ⟨w, h1, rfl⟩ := hydrate_relax hrel hreg hno hds hsums n g ref inputs v h
  exact h1

/-- **C103** (derived deserialization). What was read is still read, as the same tree, always. -/
theorem C103_derived {R : Type} [DecidableEq R] (c : DsCtx R) (reg' : Registry R) (hrel : c.reg.Relaxed reg') (n : Nat) (g : Option R)
    (ref : R) (inputs : List R) (v : TypedValue R) (h : Derived.deserialize c n g ref inputs = .ok v) :
    Derived.deserialize { c with reg := reg' } n g ref inputs = .ok v := by
  obtain ⟨w, h1, rfl⟩ := Derived.deserialize_relax hrel n g ref inputs v h
  exact h1

/-- **C103** (dehydration). Without sums, what was written is still written, as the same dataset and with the same terms for the inputs.
Missing: `C103_sum_writing` shows that the condition is needed. -/
theorem C103_dehydrate_partial (c : DeCtx) (reg' : Registry Term) (hrel : c.reg.Relaxed reg') (hno : ∀ r s, c.reg r ≠ some (.sum s))
    (n : Nat) (v : Value) (ref : Term) (o : Dehydrate.DeOptions) (r : List (Quad Term) × List Term)
    (h : Dehydrate.dehydrate c n v ref o = .ok r) : Dehydrate.dehydrate { c with reg := reg' } n v ref o = .ok r :=
  Dehydrate.dehydrate_relax hrel hno n v ref o r h

/-- **C103** (derived serialization). What was written, from some state, is still written, with the same effect, always. -/
theorem C103_derived_writing (c : SeCtx) (reg' : Registry Term) (hrel : c.reg.Relaxed reg') (n : Nat) (v : TypedValue Term)
    (g : Option IRes) (ref : Term) (inputs : List IRes) (s s' : DeState) (h : Derived.serialize c n v g ref inputs s = (.ok (), s')) :
    Derived.serialize { c with reg := reg' } n v g ref inputs s = (.ok (), s') :=
  Derived.serialize_relax hrel n v g ref inputs s () s' h

namespace Witness

/-- All the fields of a record, optional. -/
def relaxLayout : Layout R → Layout R
  | .product l => .product { l with fields := l.fields.map fun x => (x.1, { x.2 with required := false }) }
  | l => l

/-- The layouts, with optional fields only. -/
def relaxAll (reg : Registry R) : Registry R := fun r => (reg r).map relaxLayout

theorem relaxAll_relaxed (reg : Registry R) : reg.Relaxed (relaxAll reg) := by
  intro r l h
  refine ⟨relaxLayout l, by rw [relaxAll, h, Option.map_some], ?_⟩
  cases l with
  | product l =>
    refine .product l.input l.intro l.dataset ?_
    rw [List.forall₂_map_right_iff]
    exact List.forall₂_same.2 fun a _ => ⟨rfl, rfl, rfl, rfl, nofun⟩
  | _ => exact .refl _

/-- A record with a required field, or anything. -/
def recordOrAny : Registry Nat
  | 0 => some (.sum { input := 1, intro := 0, dataset := [], variants := [
        { name := "record", intro := 0, value := ⟨2, [.var 0], none⟩, dataset := [] },
        { name := "any", intro := 0, value := ⟨1, [], none⟩, dataset := [] }] })
  | 1 => some .always
  | 2 => some (.product { input := 1, intro := 0, dataset := [], fields := [
        (.text "a", { intro := 1, value := ⟨1, [], none⟩, dataset := [⟨.var 0, .res 13, .var 1, none⟩], required := true })] })
  | _ => none

/-- The same, for writing. -/
def recordOrAnyDe : DeCtx :=
  { DeExample.ctx with
    reg := fun
      | .iri "sum" => some (.sum { input := 1, intro := 0, dataset := [], variants := [
          { name := "record", intro := 0, value := DeExample.val "record" 0, dataset := [] },
          { name := "any", intro := 0, value := ⟨.iri "any", [], none⟩, dataset := [] }] })
      | .iri "any" => some .always
      | .iri "record" => some (.product { input := 1, intro := 0, dataset := [], fields := [
          (.text "a", { intro := 0, value := ⟨.iri "any", [], none⟩, dataset := [], required := true })] })
      | _ => none }

end Witness

open Witness in
/-- **C103**: making a field optional may make a variant apply that did not, so that what was read is not read any more. -/
theorem C103_sum_reading :
    hydrate (bareCtx recordOrAny []) 5 none 0 [5] = .ok (.variant (.always .unit) 0 1) ∧
    hydrate { bareCtx recordOrAny [] with reg := relaxAll recordOrAny } 5 none 0 [5] = .panic := by
  constructor <;> decide +kernel

open Witness in
/-- **C103**: making a field optional may make a variant apply that did not, so that what was written is refused. -/
theorem C103_sum_writing :
    Dehydrate.dehydrate recordOrAnyDe 5 (.map []) (.iri "sum") DeExample.opts = .ok ([], [.blank "input0"]) ∧
    Dehydrate.dehydrate { recordOrAnyDe with reg := relaxAll recordOrAnyDe.reg } 5 (.map []) (.iri "sum") DeExample.opts =
      .err .dataAmbiguity := by
  constructor <;> decide +kernel

section

open Example Witness

-- a record whose required name is made optional, read through a sum
example : ∃ v, hydrate typedCtx 6 none 4 [100] = .ok v ∧ hydrate { typedCtx with reg := relaxAll typedCtx.reg } 6 none 4 [100] = .ok v := by
  have h : hydrate typedCtx 6 none 4 [100] = .ok (.variant personTree 4 0) := by decide +kernel
  exact ⟨_, h, C103_hydrate_partial typedCtx (relaxAll _) (relaxAll_relaxed _) typed_closed typed_noIntro (by decide +kernel)
    typed_toldApart 6 none 4 [100] _ h⟩

-- what could not be read before
example : hydrate ctx 5 none 0 [100] = .ok personTree ∧
    hydrate { ctx with ds := [⟨100, 10, 11, none⟩] } 5 none 0 [100] = .err (.missingData (.key 0 (.text "name"))) ∧
    hydrate { ctx with ds := [⟨100, 10, 11, none⟩], reg := relaxAll reg } 5 none 0 [100] = .ok (.map [(.text "tags", .list [] 2)] 0) := by
  refine ⟨?_, ?_, ?_⟩ <;> decide +kernel

end

section

open Witness

example := C103_derived DeriveExample.ctx (relaxAll _) (relaxAll_relaxed _) 5 none 4 [100] _ DeriveExample.derived_person

end

section

open Witness

-- a list of shapes, whose required radius or side is made optional
example : ∃ N, ∀ n, N ≤ n → ∃ s', Derived.serialize { EnumExample.ctx with reg := relaxAll EnumExample.reg } n EnumExample.logo none
    (.iri "shapes") [.input 0] ⟨[], [], 0⟩ = (.ok (), s') := by
  obtain ⟨N, h⟩ := C62_serialize_succeeds EnumExample.ctx EnumExample.seLaws EnumExample.closed EnumExample.wellTyped
    EnumExample.distinctKeys (.iri "shapes") EnumExample.logo EnumExample.logo_type
  refine ⟨N, fun n hn => ?_⟩
  obtain ⟨s', h'⟩ := h n hn none [.input 0] (by rintro l k ⟨⟩ ⟨⟩; rfl) ⟨[], [], 0⟩
  exact ⟨s', C103_derived_writing EnumExample.ctx _ (relaxAll_relaxed _) n _ none _ _ _ s' h'⟩

end

section

open DeExample Witness

/-- The layouts of the example that are not sums. -/
def noSums : DeCtx := { ctx with reg := fun r => if r = .iri "either" then none else reg r }

theorem noSums_sums (r : Term) (s : SumLayout Term) : noSums.reg r ≠ some (.sum s) := by
  intro h
  simp only [noSums] at h
  split at h
  · exact nomatch h
  · rename_i hr
    unfold reg at h
    split at h <;> first | (exact absurd rfl hr) | (simp at h; done)

example := C103_dehydrate_partial noSums (relaxAll _) (relaxAll_relaxed _) noSums_sums 4 alice (.iri "person") opts
  (DeExample.aliceQuads, [.iri "http://example.org/alice"]) (by decide +kernel)

end

end Verif.Props
