import Verif.MoreVariants
import Verif.MoreVariantsDe
import Verif.DeriveExample
import Verif.Props.Hydrate
import Verif.Props.Dehydrate
import Verif.Props.Derive
import Verif.Props.Extend

/-!
# Property C105: variants that are not used can be added
-/

set_option linter.unusedSectionVars false
set_option linter.unusedSimpArgs false

namespace Verif.Props

variable {R : Type _} [DecidableEq R]

open Verif.Hydrate

/-- **C105** (hydration). When variants are added at the end of sums that the dataset does not mention, and any new layouts, hydration with a
layout that was there before has the same outcome: the same tree, or the same error. -/
theorem C105_hydrate (c : HyCtx R) (reg' : Registry R) (hrel : c.reg.MoreVariants (fun k x => x.Unmentioned c.ds k) reg')
    (hreg : c.reg.Closed) (hcomp : c.reg.Complete) (hds : c.ds.Nodup) (n : Nat) (g : Option R) (ref : R)
    (hr : (c.reg ref).isSome = true) (inputs : List R) :
    hydrate { c with reg := reg' } n g ref inputs = hydrate c n g ref inputs :=
  hydrate_more hrel hreg hcomp hds n g ref hr inputs

/-- **C105** (dehydration). When variants are added at the end of sums, without variables of their own, for values of other kinds than those
in the tree, dehydration with a layout that was there before has the same outcome: the same dataset and terms for the inputs, or the same
error. (One more level of recursion may be needed to find that an added variant does not fit.) Missing: `C105_dehydrate_violated` shows
that variants that fail later are a problem. -/
theorem C105_dehydrate_partial (c : DeCtx) (reg' : Registry Term) (hcomp : c.reg.Complete) (n : Nat) (v : Value)
    (hrel : c.reg.MoreVariants (fun k x => x.OtherKind reg' v k) reg') (ref : Term) (hr : (c.reg ref).isSome = true)
    (o : Dehydrate.DeOptions) (hn : Dehydrate.dehydrate c n v ref o ≠ .fuel) :
    Dehydrate.dehydrate { c with reg := reg' } (n + 1) v ref o = Dehydrate.dehydrate c n v ref o :=
  Dehydrate.dehydrate_more hcomp n v hrel ref hr o hn

/-- **C105** (derived deserialization). The same for derived code, if the interpretation knows the constants of the added variants. Missing:
`C105_derived_unknown`. -/
theorem C105_derived_partial {R : Type} [DecidableEq R] (c : DsCtx R) (reg' : Registry R)
    (hrel : c.reg.MoreVariants (fun k x => x.Unmentioned c.ds k ∧ x.Known c) reg') (hreg : c.reg.Closed) (hty : c.reg.WellTyped)
    (hds : c.ds.Nodup) (n : Nat) (g : Option R) (ref : R) (inputs : List R)
    (hr : ∃ l, c.reg ref = some l ∧ ∀ k, l.inputCount = some k → inputs.length = k) :
    Derived.deserialize { c with reg := reg' } n g ref inputs = Derived.deserialize c n g ref inputs :=
  Derived.deserialize_more hrel hreg hty hds n g ref inputs hr

/-- **C105** (derived serialization). Whatever variants are added at the end of sums, what was written, from some state, is still written,
with the same effect. -/
theorem C105_derived_writing (c : SeCtx) (reg' : Registry Term) (hrel : c.reg.MoreVariants (fun _ _ => True) reg') (n : Nat)
    (v : TypedValue Term) (g : Option IRes) (ref : Term) (inputs : List IRes) (s s' : DeState)
    (h : Derived.serialize c n v g ref inputs s = (.ok (), s')) :
    Derived.serialize { c with reg := reg' } n v g ref inputs s = (.ok (), s') :=
  Derived.serialize_more hrel n v g ref inputs s () s' h

namespace Witness

/-- A sum with one more variant. -/
def addVariant (x : Variant R) : Layout R → Layout R
  | .sum l => .sum { l with variants := l.variants ++ [x] }
  | l => l

/-- One layout has one more variant, and there is another layout. -/
def withVariant (reg : Registry R) (place : R) (x : Variant R) (new : R) (layout : Layout R) : Registry R := fun r =>
  if r = place then (reg r).map (addVariant x) else if r = new then some layout else reg r

theorem withVariant_more {P : Nat → Variant R → Prop} (reg : Registry R) {place : R} {x : Variant R} {new : R}
    {layout : Layout R} (hn : reg new = none) (h : ∀ l, reg place = some (.sum l) → P (l.input + l.intro) x) :
    reg.MoreVariants P (withVariant reg place x new layout) := by
  intro r l hl
  unfold withVariant
  split
  · rename_i hr
    subst hr
    refine ⟨addVariant x l, by rw [hl, Option.map_some], ?_⟩
    cases l with
    | sum l =>
      refine .sum _ _ _ _ _ fun y hy => ?_
      rw [List.mem_singleton] at hy
      subst hy
      exact h l hl
    | _ => exact .refl _
  · split
    · rename_i hr
      rw [hr, hn] at hl
      exact nomatch hl
    · exact ⟨l, hl, .refl l⟩

/-- A company, by its type. -/
def company : Variant Nat :=
  { name := "company", intro := 0, value := ⟨9, [.var 0], none⟩, dataset := [Example.q (.var 0) (.res 10) (.res 18)] }

theorem company_unmentioned (ds : List (Quad Nat)) (h : ∀ q ∈ ds, q.p = 10 → q.o ≠ 18) : company.Unmentioned ds 1 := by
  refine ⟨?_, _, List.mem_singleton.2 rfl, fun q hq hr => h q hq (hr.2.1 10 rfl) (hr.2.2 18 rfl)⟩
  simp [company, PatsBelow, patsVars, QuadPat.vars, Pattern.vars, Example.q]

/-- The dogs of `leakCtx`, and possibly cats. -/
def pets (cats : Bool) : DeCtx :=
  { leakCtx with reg := fun r =>
      if r = .iri "sum" then some (.sum { input := 1, intro := 0, dataset := [], variants :=
        { name := "dog", intro := 0, value := DeExample.val "dog" 0, dataset := [] } ::
        (if cats then [{ name := "cat", intro := 0, value := DeExample.val "cat" 0, dataset := [] }] else []) })
      else leakCtx.reg r }

end Witness

open Witness in
/-- **C105**: in derived code, a variant that is added, with a constant that the interpretation does not know, such as one that does not
occur in the dataset, makes deserialization fail. -/
theorem C105_derived_unknown :
    let c := DeriveExample.ctxWith (fun r => r != 18) DeriveExample.either "30"
    (∃ v, Derived.deserialize c 5 none 4 [100] = .ok v) ∧
    Derived.deserialize { c with reg := withVariant c.reg 4 company 9 Example.text } 5 none 4 [100] = .err .missingData := by
  dsimp only
  refine ⟨⟨.variant (.map [(.text "age", .literal (.number 30 5)), (.text "name", .literal (.textString "Alice" 1)),
    (.text "tags", .list [.literal (.textString "b" 1), .literal (.textString "a" 1)] 2)] 0) 4 0, ?_⟩, ?_⟩ <;> decide +kernel

open Witness in
/-- **C105**: in dehydration, a variant that is added and does not fit the tree may write some quads before it fails, which stay: with a
variant for cats, dogs are said to be cats. -/
theorem C105_dehydrate_violated :
    let dog : Value := .map [(.text "barks", .text "loud")]
    Dehydrate.dehydrate (pets false) 4 dog (.iri "sum") DeExample.opts =
      .ok ([⟨.blank "input0", .iri "type", .iri "Dog", none⟩,
        ⟨.blank "input0", .iri "barks", .literal ⟨"loud", .any "xsd:string"⟩, none⟩], [.blank "input0"]) ∧
    Dehydrate.dehydrate (pets true) 4 dog (.iri "cat") DeExample.opts = .err .incompatibleLayout ∧
    Dehydrate.dehydrate (pets true) 4 dog (.iri "sum") DeExample.opts =
      .ok ([⟨.blank "input0", .iri "type", .iri "Dog", none⟩,
        ⟨.blank "input0", .iri "barks", .literal ⟨"loud", .any "xsd:string"⟩, none⟩,
        ⟨.blank "input0", .iri "type", .iri "Cat", none⟩], [.blank "input0"]) := by
  dsimp only
  refine ⟨?_, ?_, ?_⟩ <;> decide +kernel

section

open Example Witness

theorem typed_complete : typedCtx.reg.Complete := by
  intro ref l h
  simp only [typedCtx] at h
  split at h
  · simp only [Option.some.injEq] at h
    subst h
    simp [typedSum, Layout.formats, typedCtx, reg]
  · intro f hf
    have h1 := reg_complete ref l h f hf
    simp only [typedCtx]
    split
    · rfl
    · exact h1

-- there may be companies: a person is read as before
example : hydrate { typedCtx with reg := withVariant typedCtx.reg 4 company 9 text } 6 none 4 [100] = .ok (.variant personTree 4 0) :=
  (C105_hydrate typedCtx _ (withVariant_more typedCtx.reg rfl fun l hl => by
    rw [typed_sum hl]
    exact company_unmentioned _ (by decide)) typed_closed typed_complete (by decide +kernel) 6 none 4 rfl [100]).trans (by decide +kernel)

end

section

open Witness

example := (C105_derived_partial DeriveExample.ctx _ (withVariant_more (place := 4) (x := company) (new := 9)
  (layout := Example.text) DeriveExample.ctx.reg rfl fun l hl => by
    obtain rfl : l = _ := by simpa [DeriveExample.ctx, DeriveExample.ctxWith, DeriveExample.reg, DeriveExample.either] using hl.symm
    exact ⟨company_unmentioned _ (by decide), fun p _ => ⟨fun _ _ => rfl, fun _ _ => rfl, fun _ _ => rfl, fun _ _ => rfl⟩⟩)
  (DeriveExample.reg_closed _ DeriveExample.either_closed) DeriveExample.reg_wellTyped DeriveExample.ds_nodup 5 none 4 [100]
  ⟨_, rfl, by rintro k ⟨⟩; rfl⟩).trans DeriveExample.derived_person

-- a list of shapes, which may be texts too
example : ∃ N, ∀ n, N ≤ n → ∃ s', Derived.serialize { EnumExample.ctx with
      reg := withVariant EnumExample.reg (.iri "shape") { name := "text", intro := 0, value := DeExample.val "new" 0, dataset := [] }
        (.iri "new") (.textString DeExample.text) } n EnumExample.logo none (.iri "shapes") [.input 0] ⟨[], [], 0⟩ = (.ok (), s') := by
  obtain ⟨N, h⟩ := C62_serialize_succeeds EnumExample.ctx EnumExample.seLaws EnumExample.closed EnumExample.wellTyped
    EnumExample.distinctKeys (.iri "shapes") EnumExample.logo EnumExample.logo_type
  refine ⟨N, fun n hn => ?_⟩
  obtain ⟨s', h'⟩ := h n hn none [.input 0] (by rintro l k ⟨⟩ ⟨⟩; rfl) ⟨[], [], 0⟩
  exact ⟨s', C105_derived_writing EnumExample.ctx _ (withVariant_more _ rfl fun _ _ => trivial) n _ none _ _ _ s' h'⟩

end

section

open DeExample Witness

-- there may be numbers: a list is written as before
example : ∃ r, Dehydrate.dehydrate { ctx with
      reg := withVariant reg (.iri "either")
        { name := "number", intro := 0, value := val "new" 0, dataset := [q (.var 0) (c "type") (c "Number")] }
        (.iri "new") (.number number) } 6 letters (.iri "either") opts = .ok r := by
  have hok : ∃ r, Dehydrate.dehydrate ctx 5 letters (.iri "either") opts = .ok r := by
    generalize hx : Dehydrate.dehydrate ctx 5 letters (.iri "either") opts = x
    have : x.isOk = true := by rw [← hx]; decide +kernel
    cases x with
    | ok r => exact ⟨r, rfl⟩
    | _ => exact nomatch this
  obtain ⟨r, hok⟩ := hok
  refine ⟨r, (C105_dehydrate_partial ctx _ deReg_complete 5 letters (withVariant_more reg rfl fun l hl => ?_) (.iri "either") rfl opts
    (by rw [hok]; exact fun h => nomatch h)).trans hok⟩
  obtain rfl : l = either := by simpa [reg] using hl.symm
  refine ⟨rfl, by simp [either, PatsBelow, patsVars, QuadPat.vars, Pattern.vars, q, c],
    by simp [either, ValueFormat.Below, Pattern.Below, Pattern.vars, val], .number number, rfl, fun w hw x hx => ?_⟩
  subst hx
  unfold letters at hw
  generalize ha : Value.literal (.number x) = a at hw
  cases hw with
  | whole => exact nomatch ha
  | item hm hp =>
    simp only [List.mem_cons, List.not_mem_nil, or_false] at hm
    rcases hm with rfl | rfl <;> (unfold Value.text at hp; cases hp; exact nomatch ha)

end

end Verif.Props
