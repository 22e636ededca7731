import Verif.Extend
import Verif.ExtendDe
import Verif.ExtendSer
import Verif.Props.Derive
import Verif.DehydrateExample
import Verif.DeriveExample

/-!
# Property C104: optional fields that are not used can be added
-/

set_option linter.unusedSectionVars false
set_option linter.unusedSimpArgs false

namespace Verif.Props

variable {R : Type _} [DecidableEq R]

open Verif.Hydrate

/-- **C104** (hydration). When optional fields are added that the dataset does not mention, and any new layouts, hydration with a layout
that was there before has the same outcome: the same tree, or the same error. -/
theorem C104_hydrate (c : HyCtx R) (reg' : Registry R) (hrel : c.reg.Extended (fun k _ f => f.Unmentioned c.ds k) reg')
    (hreg : c.reg.Closed) (hcomp : c.reg.Complete) (hds : c.ds.Nodup) (n : Nat) (g : Option R) (ref : R)
    (hr : (c.reg ref).isSome = true) (inputs : List R) :
    hydrate { c with reg := reg' } n g ref inputs = hydrate c n g ref inputs :=
  hydrate_extend hrel hreg hcomp hds n g ref hr inputs

/-- **C104** (dehydration). When optional fields are added whose keys (`K`) do not occur in the tree, and any new layouts, dehydration with
a layout that was there before has the same outcome: the same dataset and terms for the inputs, or the same error. -/
theorem C104_dehydrate (c : DeCtx) (reg' : Registry Term) (K : Value → Prop)
    (hrel : c.reg.Extended (fun _ k f => f.required = false ∧ K k) reg') (hcomp : c.reg.Complete) (n : Nat) (v : Value)
    (hv : ∀ k, K k → ¬ v.HasKey k) (ref : Term) (hr : (c.reg ref).isSome = true) (o : Dehydrate.DeOptions) :
    Dehydrate.dehydrate { c with reg := reg' } n v ref o = Dehydrate.dehydrate c n v ref o :=
  Dehydrate.dehydrate_extend hrel hcomp n v hv ref hr o

/-- **C104** (derived deserialization). When optional fields are added that the dataset does not mention, but whose constants are known to
the interpretation, derived deserialization of a type that was there before has the same outcome. Missing: `C104_derived_unknown` shows
that constants that are not known are a problem. -/
theorem C104_derived_partial {R : Type} [DecidableEq R] (c : DsCtx R) (reg' : Registry R)
    (hrel : c.reg.Extended (fun k _ f => f.Unmentioned c.ds k ∧ f.Known c) reg') (hreg : c.reg.Closed) (hty : c.reg.WellTyped)
    (hds : c.ds.Nodup) (n : Nat) (g : Option R) (ref : R) (inputs : List R)
    (hr : ∃ l, c.reg ref = some l ∧ ∀ k, l.inputCount = some k → inputs.length = k) :
    Derived.deserialize { c with reg := reg' } n g ref inputs = Derived.deserialize c n g ref inputs :=
  Derived.deserialize_extend hrel hreg hty hds n g ref inputs hr

/-- **C104** (derived serialization). When optional fields are added whose keys (`K`) do not occur in the value, and any new types,
derived serialization of a type that was there before has the same outcome and the same effect, from every state. -/
theorem C104_derived_writing (c : SeCtx) (reg' : Registry Term) (K : Value → Prop)
    (hrel : c.reg.Extended (fun _ k f => f.required = false ∧ K k) reg') (hcomp : c.reg.Complete) (n : Nat) (v : TypedValue Term)
    (hv : ∀ k, K k → ¬ v.HasKey k) (g : Option IRes) (ref : Term) (hr : (c.reg ref).isSome = true) (inputs : List IRes) (s : DeState) :
    Derived.serialize { c with reg := reg' } n v g ref inputs s = Derived.serialize c n v g ref inputs s := by
  rw [Derived.serialize_extend hrel hcomp n v hv g ref hr inputs]

namespace Witness

/-- A record with one more field. -/
def addField (key : Value) (f : Field R) : Layout R → Layout R
  | .product l => .product { l with fields := (key, f) :: l.fields }
  | l => l

/-- One layout has one more field, and there is another layout. -/
def withField (reg : Registry R) (place : R) (key : Value) (f : Field R) (new : R) (layout : Layout R) : Registry R := fun r =>
  if r = place then (reg r).map (addField key f) else if r = new then some layout else reg r

theorem withField_extended {P : Nat → Value → Field R → Prop} (reg : Registry R) {place : R} {key : Value} {f : Field R} {new : R}
    {layout : Layout R} (hn : reg new = none) (h : ∀ l, reg place = some (.product l) → P (l.input + l.intro) key f) :
    reg.Extended P (withField reg place key f new layout) := by
  intro r l hl
  unfold withField
  split
  · rename_i hr
    subst hr
    refine ⟨addField key f l, by rw [hl, Option.map_some], ?_⟩
    cases l with
    | product l => exact .product _ _ _ (.add (h l hl) (Hydrate.fieldsExtended_refl _))
    | _ => exact .refl _
  · split
    · rename_i hr
      rw [hr, hn] at hl
      exact nomatch hl
    · exact ⟨l, hl, .refl l⟩

/-- An optional email address, a text of the layout `9`. -/
def email : Field Nat := { intro := 1, value := ⟨9, [.var 1], none⟩, dataset := [Example.q (.var 0) (.res 77) (.var 1)], required := false }

end Witness

open Witness in
/-- **C104**: in derived code, an optional field that is added for a property that the interpretation does not know, such as one that does
not occur in the dataset, makes deserialization fail. Hydration does not mind. -/
theorem C104_derived_unknown :
    let c := DeriveExample.ctxWith (fun r => r != 77) DeriveExample.either "30"
    let reg' := withField c.reg 0 (.text "email") email 9 Example.text
    (∃ v, Derived.deserialize c 5 none 0 [100] = .ok v) ∧
    Derived.deserialize { c with reg := reg' } 5 none 0 [100] = .err .missingData := by
  dsimp only
  refine ⟨⟨.map [(.text "age", .literal (.number 30 5)), (.text "name", .literal (.textString "Alice" 1)),
    (.text "tags", .list [.literal (.textString "b" 1), .literal (.textString "a" 1)] 2)] 0, ?_⟩, ?_⟩ <;> decide +kernel

section

open Example Witness

theorem email_unmentioned (ds : List (Quad Nat)) (h : ∀ q ∈ ds, q.p ≠ 77) : email.Unmentioned ds 1 := by
  refine ⟨rfl, ?_, _, List.mem_singleton.2 rfl, fun q hq hr => h q hq (hr.2.1 77 rfl)⟩
  simp [email, PatsBelow, patsVars, QuadPat.vars, Pattern.vars, q]

theorem reg_complete : reg.Complete := by
  intro ref l h
  unfold reg at h
  split at h <;> simp only [Option.some.injEq, reduceCtorEq] at h <;> subst h <;>
    simp [person, text, tags, rdfList, either, Layout.formats, reg]

-- persons may have an email address: the person is read as before, and so is what is not a person
example : hydrate { ctx with reg := withField reg 0 (.text "email") email 9 text } 5 none 0 [100] = .ok personTree :=
  (C104_hydrate ctx _ (withField_extended reg rfl fun l hl => by
    obtain rfl : l = _ := by simpa [reg, person] using hl.symm
    exact email_unmentioned _ (by decide)) reg_closed reg_complete (by decide +kernel) 5 none 0 rfl [100]).trans hydrate_person

-- a dataset with an email address is read with it
example : hydrate { ctx with ds := ⟨100, 77, 102, none⟩ :: ds, reg := withField reg 0 (.text "email") email 9 text } 5 none 0 [100] =
    .ok (match personTree with
      | .map m r => .map ((.text "email", .literal (.textString "b" 9)) :: m) r
      | v => v) := by decide +kernel

end

section

open Witness

example := (C104_derived_partial DeriveExample.ctx _ (withField_extended (place := 0) (key := .text "email") (f := email) (new := 9)
  (layout := Example.text) DeriveExample.ctx.reg rfl fun l hl => by
    obtain rfl : l = _ := by simpa [DeriveExample.ctx, DeriveExample.ctxWith, DeriveExample.reg, DeriveExample.person] using hl.symm
    exact ⟨email_unmentioned _ (by decide), fun p _ => ⟨fun _ _ => rfl, fun _ _ => rfl, fun _ _ => rfl, fun _ _ => rfl⟩⟩)
  (DeriveExample.reg_closed _ DeriveExample.either_closed) DeriveExample.reg_wellTyped DeriveExample.ds_nodup 5 none 4 [100]
  ⟨_, rfl, by rintro k ⟨⟩; rfl⟩).trans DeriveExample.derived_person

end

section

open Witness

/-- A circle. -/
def roundShape : TypedValue Term :=
  .variant (.map [(.text "radius", .literal (.number 1 (.iri "number")))] (.iri "circle")) (.iri "shape") 0

/-- An optional color. -/
def colorField : Field Term :=
  { intro := 1, value := DeExample.val "new" 1, dataset := [DeExample.q (.var 0) (DeExample.c "color") (.var 1)], required := false }

theorem roundShape_lacks (k : Value) (hk : k = .text "color") : ¬ roundShape.HasKey k := by
  subst hk
  intro h
  unfold roundShape at h
  cases h with
  | variant h =>
    cases h with
    | here hm => simp [Value.text] at hm
    | entry hm h =>
      simp only [List.mem_singleton, Prod.mk.injEq] at hm
      obtain ⟨-, rfl⟩ := hm
      exact nomatch h

theorem shapes_complete : EnumExample.reg.Complete := fun r l hl f hf => by
  obtain ⟨l', h, -⟩ := EnumExample.wellTyped r l hl f hf
  rw [h]
  rfl

-- circles may have a color: one without is written as before
example (s : DeState) := C104_derived_writing EnumExample.ctx _ (· = .text "color") (withField_extended (place := .iri "circle")
  (f := colorField) (new := .iri "new") (layout := .id DeExample.ident) EnumExample.reg rfl fun _ _ => ⟨rfl, rfl⟩) shapes_complete 5
  roundShape roundShape_lacks none (.iri "shape") rfl [.input 0] s

example : ∃ s, Derived.serialize EnumExample.ctx 5 roundShape none (.iri "shape") [.input 0] ⟨[], [], 0⟩ = (.ok (), s) :=
  ⟨⟨[⟨.input 0, .term (.iri "type"), .term (.iri "Circle"), none⟩, ⟨.input 0, .term (.iri "radius"), .anon 0, none⟩],
    [(.anon 0, .literal ⟨"1", .any "xsd:decimal"⟩)], 1⟩, by decide +kernel⟩

end

section

open DeExample Witness

/-- An optional email address. -/
def emailField : Field Term :=
  { intro := 1, value := val "text" 1, dataset := [q (.var 0) (c "email") (.var 1)], required := false }

theorem alice_without (k : Value) (hk : k = .text "email") : ¬ alice.HasKey k := by
  subst hk
  intro h
  unfold alice at h
  have hlit : ∀ l k, ¬ (Value.literal l).HasKey k := fun l k h => nomatch h
  cases h with
  | here hm => simp [Value.text] at hm
  | entry hm h =>
    simp only [List.mem_cons, Prod.mk.injEq, List.not_mem_nil, or_false] at hm
    rcases hm with ⟨-, rfl⟩ | ⟨-, rfl⟩ | ⟨-, rfl⟩ | ⟨-, rfl⟩
    · exact hlit _ _ h
    · exact hlit _ _ h
    · exact hlit _ _ h
    · cases h with
      | item hm h =>
        simp only [List.mem_cons, List.not_mem_nil, or_false] at hm
        rcases hm with rfl | rfl <;> exact hlit _ _ h

theorem deReg_complete : reg.Complete := fun r l hl f hf => by
  obtain ⟨l', h, -⟩ := reg_wellTyped r l hl f hf
  rw [h]
  rfl

example : Dehydrate.dehydrate { ctx with reg := withField reg (.iri "person") (.text "email") emailField (.iri "new") .always } 4 alice
    (.iri "person") opts = .ok (DeExample.aliceQuads, [.iri "http://example.org/alice"]) :=
  (C104_dehydrate ctx _ (· = .text "email") (withField_extended reg rfl fun _ _ => ⟨rfl, rfl⟩) deReg_complete 4 alice alice_without
    (.iri "person") rfl opts).trans (by decide +kernel)

end

end Verif.Props
