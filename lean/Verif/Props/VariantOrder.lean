import Verif.VariantOrder
import Verif.VariantOrderDe
import Verif.VariantOrderDerived
import Verif.VariantOrderApart
import Verif.DeriveExample
import Verif.Props.Hydrate
import Verif.Props.DeErrorCauses

/-!
# Property C101: the order and the names of variants do not matter
-/

set_option linter.unusedSectionVars false
set_option linter.unusedSimpArgs false

namespace Verif

variable {R : Type _} [DecidableEq R]

/-- Without unordered lists, trees that are alike are the same without their types. -/
theorem TypedValue.Alike.untype_eq {reg : Registry R} (hno : ∀ r u, reg r ≠ some (.unordered u)) {v v' : TypedValue R}
    (h : v.Alike reg v') : v.untype = v'.untype := by
  induction h with
  | literal => rfl
  | always => rfl
  | variant ty i j _ ih => simpa only [TypedValue.untype] using ih
  | @map m m' ty hk _ ih =>
    simp only [TypedValue.untype, TypedValue.untypeMap_eq, Value.map.injEq]
    have hl : m.length = m'.length := by simpa using congrArg List.length hk
    refine List.ext_getElem (by simp [hl]) fun i h1 h2 => ?_
    simp only [List.length_map] at h1 h2
    have hki : m[i].1 = m'[i].1 := by
      have := congrArg (fun l => l[i]?) hk
      simpa [h1, h2] using this
    simp only [List.getElem_map, Prod.mk.injEq]
    exact ⟨hki, ih i m[i] m'[i] (by simp [h1]) (by simp [h2])⟩
  | @list l l' ty hl _ ih =>
    simp only [TypedValue.untype, TypedValue.untypeList_eq, Value.list.injEq]
    refine List.ext_getElem (by simp [hl]) fun i h1 h2 => ?_
    simp only [List.length_map] at h1 h2
    simp only [List.getElem_map]
    exact ih i l[i] l'[i] (by simp [h1]) (by simp [h2])
  | set ty u _ _ hu => exact absurd hu (hno ty u)

theorem Registry.SameVariants.distinctKeys {reg reg' : Registry R} (h : reg.SameVariants reg') (hd : reg.DistinctKeys) :
    Registry.DistinctKeys reg' := by
  intro ref l hl
  rcases h ref with ⟨-, h2⟩ | ⟨m, m', h1, h2, h3⟩
  · rw [h2] at hl; exact nomatch hl
  · rw [h2] at hl
    cases hl
    cases h3
    exact hd ref l h1

theorem Registry.SameVariants.closed {reg reg' : Registry R} (h : reg.SameVariants reg') (hc : reg.Closed) : Registry.Closed reg' := by
  intro ref l hl
  rcases h ref with ⟨-, h2⟩ | ⟨m, m', h1, h2, h3⟩
  · rw [h2] at hl; exact nomatch hl
  · rw [h2] at hl
    cases hl
    have hm := hc ref m h1
    cases h3 with
    | refl => exact hm
    | @sum input _ dataset vs vs' hp =>
      refine ⟨hm.1, fun y hy => ?_⟩
      obtain ⟨x, hx, he⟩ := List.mem_map.1 (hp.symm.mem_iff.1 (List.mem_map_of_mem (f := Variant.nameless) hy))
      have := hm.2 x hx
      simp only [Variant.nameless, Prod.mk.injEq] at he
      rw [he.1, he.2.1, he.2.2] at this
      exact this

theorem Registry.SameVariants.symm {reg reg' : Registry R} (h : reg.SameVariants reg') : Registry.SameVariants reg' reg := by
  intro r
  rcases h r with ⟨h1, h2⟩ | ⟨l, l', h1, h2, h3⟩
  · exact .inl ⟨h2, h1⟩
  · refine .inr ⟨l', l, h2, h1, ?_⟩
    cases h3 with
    | refl => exact .refl _
    | sum input i dataset hp => exact .sum input i dataset hp.symm

/-- Variants that are told apart are told apart in any order. -/
theorem Registry.SameVariants.toldApart {c : HyCtx R} {reg' : Registry R} (h : c.reg.SameVariants reg') (hc : c.ToldApart) :
    HyCtx.ToldApart { c with reg := reg' } := by
  intro ref l' hl' g σ hσ i j x y τ τ' hx hy hm hm'
  rcases h ref with ⟨-, h2⟩ | ⟨m, m', h1, h2, h3⟩
  · exact absurd (h2.symm.trans hl') nofun
  · cases h2.symm.trans hl'
    cases h3 with
    | refl => exact hc ref l' h1 g σ hσ i j x y τ τ' hx hy hm hm'
    | @sum input k dataset vs vs' hp =>
      obtain ⟨f, b, -, h5, -, h7⟩ := nameless_index hp
      obtain ⟨u, hu, he⟩ := h7 i x hx
      obtain ⟨w, hw, he'⟩ := h7 j y hy
      simp only [Variant.nameless, Prod.mk.injEq] at he he'
      have := hc ref _ h1 g σ hσ (b i) (b j) u w τ τ' hu hw (by rw [he.1, he.2.2]; exact hm) (by rw [he'.1, he'.2.2]; exact hm')
      rw [← h5 i, ← h5 j, this]

theorem Registry.SameVariants.noVariantIntro {reg reg' : Registry R} (h : reg.SameVariants reg') (hc : reg.NoVariantIntro) :
    Registry.NoVariantIntro reg' := by
  intro ref l' hl' y hy
  rcases h ref with ⟨-, h2⟩ | ⟨m, m', h1, h2, h3⟩
  · exact absurd (h2.symm.trans hl') nofun
  · cases h2.symm.trans hl'
    cases h3 with
    | refl => exact hc ref l' h1 y hy
    | @sum input k dataset vs vs' hp =>
      obtain ⟨x, hx, he⟩ := List.mem_map.1 (hp.symm.mem_iff.1 (List.mem_map_of_mem (f := Variant.nameless) hy))
      simp only [Variant.nameless, Prod.mk.injEq] at he
      rw [← he.1]
      exact hc ref _ h1 x hx

namespace Props

open Verif.Hydrate

/-- **C101.** With the variants of sums in another order and under other names, hydration does not return another tree, nor does it
return an error instead of a tree. -/
theorem C101_hydrate_partial (c : HyCtx R) (reg' : Registry R) (hreg : c.reg.SameVariants reg') (n n' : Nat) (g : Option R) (ref : R)
    (inputs : List R) (v : TypedValue R) (h : hydrate c n g ref inputs = .ok v) :
    (∀ v', hydrate { c with reg := reg' } n' g ref inputs = .ok v' → v.Alike c.reg v') ∧
    ∀ e, hydrate { c with reg := reg' } n' g ref inputs ≠ .err e := by
  have hc := hydrate_compat hreg (max n n') g ref inputs
  rw [(hydrate_mono c n _ (Nat.le_max_left n n') g ref inputs).eq_of_ne (by rw [h]; exact nofun), h] at hc
  refine ⟨fun v' h' => ?_, fun e h' => ?_⟩
  · rw [(hydrate_mono _ n' _ (Nat.le_max_right n n') g ref inputs).eq_of_ne (by rw [h']; exact nofun), h'] at hc
    exact hc
  · rw [(hydrate_mono _ n' _ (Nat.le_max_right n n') g ref inputs).eq_of_ne (by rw [h']; exact nofun), h'] at hc
    exact hc

/-- **C101** (the same tree). If hydration does not panic, it returns the same tree, without unordered lists in the layouts, and
otherwise the same tree up to the order of the items of unordered lists. -/
theorem C101_same_tree_partial (c : HyCtx R) (reg' : Registry R) (hreg : c.reg.SameVariants reg') (n n' : Nat) (g : Option R) (ref : R)
    (inputs : List R) (v : TypedValue R) (h : hydrate c n g ref inputs = .ok v)
    (hp : hydrate { c with reg := reg' } n' g ref inputs ≠ .panic) (hf : hydrate { c with reg := reg' } n' g ref inputs ≠ .fuel) :
    ∃ v', hydrate { c with reg := reg' } n' g ref inputs = .ok v' ∧ v.Alike c.reg v' ∧
      ((∀ r u, c.reg r ≠ some (.unordered u)) → v.untype = v'.untype) := by
  obtain ⟨h1, h2⟩ := C101_hydrate_partial c reg' hreg n n' g ref inputs v h
  rcases h' : hydrate { c with reg := reg' } n' g ref inputs with v' | e | _ | _
  · exact ⟨v', rfl, h1 v' h', fun hno => (h1 v' h').untype_eq hno⟩
  · exact absurd h' (h2 e)
  · exact absurd h' hp
  · exact absurd h' hf

/-- **C101** (variants told apart). If the variants of sums declare no variables and are told apart by their patterns, then with the
variants in another order and under other names there is a tree if and only if there was one, with any bound and whatever panics there
may be. -/
theorem C101_told_apart (c : HyCtx R) (reg' : Registry R) (hsame : c.reg.SameVariants reg') (hreg : c.reg.Closed)
    (hno : c.reg.NoVariantIntro) (hds : c.ds.Nodup) (hsums : c.ToldApart) (n : Nat) (g : Option R) (ref : R) (inputs : List R) :
    (∀ v, hydrate c n g ref inputs = .ok v → ∃ v', hydrate { c with reg := reg' } n g ref inputs = .ok v' ∧ v.Alike c.reg v') ∧
    ∀ v', hydrate { c with reg := reg' } n g ref inputs = .ok v' → ∃ v, hydrate c n g ref inputs = .ok v ∧ v.Alike c.reg v' := by
  refine ⟨fun v h => hydrate_leads hsame hreg hno hds hsums n g ref inputs v h, fun v' h' => ?_⟩
  obtain ⟨v, h, -⟩ := hydrate_leads (c := { c with reg := reg' }) hsame.symm (hsame.closed hreg) (hsame.noVariantIntro hno) hds
    (hsame.toldApart hsums) n g ref inputs v' h'
  exact ⟨v, h, (C101_hydrate_partial c reg' hsame n n g ref inputs v h).1 v' h'⟩

/-- **C101** (variants told apart, the trees). Moreover, the trees are the same if there are no unordered lists. -/
theorem C101_told_apart_trees (c : HyCtx R) (reg' : Registry R) (hsame : c.reg.SameVariants reg') (hreg : c.reg.Closed)
    (hno : c.reg.NoVariantIntro) (hds : c.ds.Nodup) (hsums : c.ToldApart) (hlists : ∀ r u, c.reg r ≠ some (.unordered u)) (n : Nat)
    (g : Option R) (ref : R) (inputs : List R) (t : Value) :
    (∃ v, hydrate c n g ref inputs = .ok v ∧ v.untype = t) ↔
    ∃ v, hydrate { c with reg := reg' } n g ref inputs = .ok v ∧ v.untype = t := by
  obtain ⟨h1, h2⟩ := C101_told_apart c reg' hsame hreg hno hds hsums n g ref inputs
  constructor
  · rintro ⟨v, h, rfl⟩
    obtain ⟨v', h', ha⟩ := h1 v h
    exact ⟨v', h', (ha.untype_eq hlists).symm⟩
  · rintro ⟨v', h', rfl⟩
    obtain ⟨v, h, ha⟩ := h2 v' h'
    exact ⟨v, h, ha.untype_eq hlists⟩

/-- **C101** (derived deserialization). With the variants of enumerations in another order and under other names, the same trees are
read, always. -/
theorem C101_derived {R : Type} [DecidableEq R] (c : DsCtx R) (reg' : Registry R) (hreg : c.reg.SameVariants reg') (n : Nat) (g : Option R)
    (ref : R) (inputs : List R) (t : Value) :
    (∃ v, Derived.deserialize c n g ref inputs = .ok v ∧ v.untype = t) ↔
    ∃ v, Derived.deserialize { c with reg := reg' } n g ref inputs = .ok v ∧ v.untype = t := by
  have hno : ∀ r u, (fun _ => none : Registry R) r ≠ some (.unordered u) := nofun
  constructor
  · rintro ⟨v, h, rfl⟩
    obtain ⟨v', h1, h2⟩ := Derived.deserialize_leads hreg n g ref inputs v h
    exact ⟨v', h1, (h2.untype_eq hno).symm⟩
  · rintro ⟨v, h, rfl⟩
    obtain ⟨v', h1, h2⟩ := Derived.deserialize_leads (c := { c with reg := reg' }) hreg.symm n g ref inputs v h
    exact ⟨v', h1, (h2.untype_eq hno).symm⟩

open Verif.Dehydrate

/-- **C101** (dehydration). A tree that is written is not refused with the variants in another order and under other names, unless
different terms are assigned to a resource. -/
theorem C101_dehydrate_partial (c : DeCtx) (reg' : Registry Term) (hreg : c.reg.SameVariants reg') (hd : c.reg.DistinctKeys) (hc : c.reg.Closed)
    (n n' : Nat) (v : Value) (ref : Term) (o : DeOptions)
    (r : List (Quad Term) × List Term) (h : dehydrate c n v ref o = .ok r) (e : DeError)
    (he : dehydrate { c with reg := reg' } n' v ref o = .err e) : e = .termAmbiguity := by
  have hd' := hreg.distinctKeys hd
  have hc' := hreg.closed hc
  have hstart : startPlace { c with reg := reg' } v ref o = startPlace c v ref o := by
    unfold startPlace
    rcases hreg ref with ⟨h1, h2⟩ | ⟨l, l', h1, h2, h3⟩ <;> simp only [h1, h2]
    rw [h3.inputCount_eq]
  have ha := (C94_success_accepted c hd hc n v ref o r h).reorder hreg
  rcases C94_error_true { c with reg := reg' } hd' hc' n' v ref o e he with h' | ⟨h', -⟩
  · rw [hstart] at h'
    exact absurd h' (ha.not_fails e)
  · exact h'

namespace Witness

/-- The variants in reverse order, and renamed. -/
def reverseSum : Layout R → Layout R
  | .sum l => .sum { l with variants := l.variants.reverse.map fun x => { x with name := x.name ++ "'" } }
  | l => l

/-- The variants of all sums in reverse order, and renamed. -/
def reversed (reg : Registry R) : Registry R := fun r => (reg r).map reverseSum

theorem reversed_sameVariants (reg : Registry R) : reg.SameVariants (reversed reg) := by
  intro r
  cases h : reg r with
  | none => exact .inl ⟨rfl, by simp [reversed, h]⟩
  | some l =>
    refine .inr ⟨l, reverseSum l, rfl, by simp only [reversed, h, Option.map_some], ?_⟩
    cases l with
    | sum l =>
      refine .sum l.input l.intro l.dataset ?_
      rw [List.map_map]
      exact ((List.reverse_perm l.variants).map Variant.nameless).symm
    | _ => exact .refl _

/-- A sum of a sum and of anything. The inner sum has a variant with two matches, and two variants that apply. -/
def nestedReg (variants : List (Variant Nat)) : Registry Nat
  | 0 => some (.sum { input := 1, intro := 0, dataset := [], variants := [
        { name := "inner", intro := 0, value := ⟨2, [.var 0], none⟩, dataset := [] },
        { name := "any", intro := 0, value := ⟨1, [], none⟩, dataset := [] }] })
  | 1 => some .always
  | 2 => some (.sum { input := 1, intro := 1, dataset := [], variants })
  | _ => none

/-- A variant with a match for each value of the property 13. -/
def several : Variant Nat := { name := "several", intro := 0, value := ⟨1, [], none⟩, dataset := [⟨.var 0, .res 13, .var 1, none⟩] }

/-- A variant that applies. -/
def applies (name : String) : Variant Nat := { name, intro := 0, value := ⟨1, [], none⟩, dataset := [] }

end Witness

open Witness in
/-- **C101**: the order of the variants may decide between a tree and a panic. -/
theorem C101_order_decides_panic :
    hydrate (bareCtx (nestedReg [several, applies "a", applies "b"]) [⟨5, 13, 6, none⟩, ⟨5, 13, 7, none⟩]) 5 none 0 [5] =
      .ok (.variant (.always .unit) 0 1) ∧
    hydrate (bareCtx (nestedReg [applies "a", applies "b", several]) [⟨5, 13, 6, none⟩, ⟨5, 13, 7, none⟩]) 5 none 0 [5] = .panic := by
  constructor <;> decide +kernel

namespace Witness

/-- The layout `twice` in a sum that is in a sum. -/
def nestedTwice (variants : List (Variant Term)) : DeCtx :=
  { DeExample.ctx with
    reg := fun
      | .iri "outer" => some (.sum { input := 1, intro := 0, dataset := [], variants := [
          { name := "inner", intro := 0, value := DeExample.val "inner" 0, dataset := [] },
          { name := "any", intro := 0, value := ⟨.iri "any", [], none⟩, dataset := [] }] })
      | .iri "inner" => some (.sum { input := 1, intro := 0, dataset := [], variants })
      | .iri "any" => some .always
      | .iri "twice" => some (.product twice)
      | .iri "text" => some (.textString DeExample.text)
      | _ => none }

/-- The variant `twice`. -/
def inTwice : Variant Term := { name := "twice", intro := 0, value := DeExample.val "twice" 0, dataset := [] }

/-- A variant for anything. -/
def anything (name : String) : Variant Term := { name, intro := 0, value := ⟨.iri "any", [], none⟩, dataset := [] }

/-- A record with a key that `twice` does not have. -/
def thrice : Value := .map [(.text "a", .text "x"), (.text "b", .text "y"), (.text "c", .text "z")]

end Witness

open Witness in
/-- **C101**: the order of the variants may decide whether there is a term ambiguity, since a variant that fails leaves traces (C15), and
is not tried after two variants that apply. -/
theorem C101_order_decides_ambiguity :
    (∃ r, dehydrate (nestedTwice [anything "a", anything "b", inTwice]) 5 thrice (.iri "outer") DeExample.opts = .ok r) ∧
    dehydrate (nestedTwice [inTwice, anything "a", anything "b"]) 5 thrice (.iri "outer") DeExample.opts = .err .termAmbiguity := by
  refine ⟨⟨([], [.blank "input0"]), ?_⟩, ?_⟩ <;> decide +kernel

section

open Example Witness

-- the variant that was the second is the first
example : hydrate { ctx with reg := reversed reg } 5 none 4 [200] =
    .ok (.variant (.list [.literal (.textString "b" 1), .literal (.textString "a" 1)] 3) 4 0) := by decide +kernel

example := C101_same_tree_partial ctx (reversed reg) (reversed_sameVariants _) 5 5 none 4 [200] _ hydrate_sum (by decide +kernel)
  (by decide +kernel)

-- told apart by their types
example := C101_told_apart typedCtx (reversed _) (reversed_sameVariants _) typed_closed typed_noIntro (by decide +kernel) typed_toldApart 6
  none 4 [200]

/-- The lists and what is in them, without unordered lists. -/
def listsReg : Registry Nat := fun r => if r = 1 ∨ r = 3 ∨ r = 4 then typedCtx.reg r else none

theorem listsReg_of {r : Nat} {l : Layout Nat} (h : listsReg r = some l) : typedCtx.reg r = some l := by
  unfold listsReg at h
  split at h
  · exact h
  · exact nomatch h

theorem listsReg_lists (r : Nat) (u : UnorderedLayout Nat) : listsReg r ≠ some (.unordered u) := by
  intro h
  unfold listsReg at h
  split at h
  · rename_i hr
    rcases hr with rfl | rfl | rfl <;> exact nomatch h
  · exact nomatch h

example := C101_told_apart_trees { typedCtx with reg := listsReg } (reversed _) (reversed_sameVariants _)
  (fun r l h => typed_closed r l (listsReg_of h)) (fun r l h => typed_noIntro r l (listsReg_of h)) (by decide +kernel)
  (fun r l h => typed_toldApart r l (listsReg_of h)) listsReg_lists 6 none 4 [200]

example : hydrate { typedCtx with reg := listsReg } 6 none 4 [200] =
    .ok (.variant (.list [.literal (.textString "b" 1), .literal (.textString "a" 1)] 3) 4 1) := by decide +kernel

end

section

open Witness

example := (C101_derived DeriveExample.ctx (reversed _) (reversed_sameVariants _) 5 none 4 [100] _).1 ⟨_, DeriveExample.derived_person, rfl⟩

end

section

open DeExample Witness

example (e : DeError) (he : dehydrate { ctx with reg := reversed reg } 4 letters (.iri "either") opts = .err e) : e = .termAmbiguity := by
  exact C101_dehydrate_partial ctx (reversed reg) (reversed_sameVariants _) reg_distinctKeys reg_closed 4 4 letters (.iri "either") opts _
    dehydrate_letters e he

end

end Props

end Verif
