import Verif.Relabel
import Verif.RelabelDe
import Verif.DehydrateExample
import Verif.Props.Hydrate

/-!
# Property C102: the identifiers of layouts do not matter
-/

set_option linter.unusedSectionVars false
set_option linter.unusedSimpArgs false

namespace Verif

variable {R : Type _} [DecidableEq R]

theorem TypedLiteral.relabel_untype (f : R → R) (l : TypedLiteral R) :
    (TypedValue.literal (l.relabel f)).untype = (TypedValue.literal l).untype := by
  cases l <;> rfl

/-- Without unordered lists, the trees are the same without their annotations. -/
theorem TypedValue.Relabelled.untype_eq {reg : Registry R} {f : R → R} (hno : ∀ r u, reg r ≠ some (.unordered u)) {v v' : TypedValue R}
    (h : v.Relabelled reg f v') : v.untype = v'.untype := by
  induction h with
  | literal l => exact (TypedLiteral.relabel_untype f l).symm
  | always => rfl
  | variant ty i _ ih => simpa only [TypedValue.untype] using ih
  | @map m m' ty hk _ ih =>
    simp only [TypedValue.untype, TypedValue.untypeMap_eq, Value.map.injEq]
    have hl : m.length = m'.length := by simpa using congrArg List.length hk
    refine List.ext_getElem (by simp [hl]) fun i h1 h2 => ?_
    simp only [List.length_map] at h1 h2
    have hki : m[i].1 = m'[i].1 := by
      have := congrArg (fun l => l[i]?) hk
      simpa [h1, h2] using this
    simp only [List.getElem_map, Prod.mk.injEq]
    exact ⟨hki, ih i m[i] m'[i] (by simp [h1]) (by simp [h2])⟩
  | @list l l' ty hl _ ih =>
    simp only [TypedValue.untype, TypedValue.untypeList_eq, Value.list.injEq]
    refine List.ext_getElem (by simp [hl]) fun i h1 h2 => ?_
    simp only [List.length_map] at h1 h2
    simp only [List.getElem_map]
    exact ih i l[i] l'[i] (by simp [h1]) (by simp [h2])
  | set ty u _ _ hu => exact absurd hu (hno ty u)

namespace Props

open Verif.Hydrate

/-- **C102.** With the layouts under other identifiers, where identical layouts may get the same identifier, hydration returns the same
tree, annotated with the other identifiers and up to the order of the items of unordered lists, or the same error, or it fails in the
same way. -/
theorem C102_hydrate (c : HyCtx R) (f : R → R) (reg' : Registry R) (hreg : c.reg.Relabels f reg') (n : Nat) (g : Option R) (ref : R)
    (inputs : List R) :
    Out.Relabelled f (TypedValue.Relabelled c.reg f) (hydrate c n g ref inputs) (hydrate { c with reg := reg' } n g (f ref) inputs) :=
  hydrate_relabel hreg n g ref inputs

/-- **C102** (the same trees). Without unordered lists in the layouts, the same trees are read. -/
theorem C102_same_tree (c : HyCtx R) (f : R → R) (reg' : Registry R) (hreg : c.reg.Relabels f reg')
    (hlists : ∀ r u, c.reg r ≠ some (.unordered u)) (n : Nat) (g : Option R) (ref : R) (inputs : List R) (t : Value) :
    (∃ v, hydrate c n g ref inputs = .ok v ∧ v.untype = t) ↔
    ∃ v, hydrate { c with reg := reg' } n g (f ref) inputs = .ok v ∧ v.untype = t := by
  have h := C102_hydrate c f reg' hreg n g ref inputs
  constructor
  · rintro ⟨v, hv, rfl⟩
    rw [hv] at h
    generalize hydrate { c with reg := reg' } n g (f ref) inputs = b at h
    cases h with
    | ok h => exact ⟨_, rfl, (h.untype_eq hlists).symm⟩
  · rintro ⟨v, hv, rfl⟩
    rw [hv] at h
    generalize hydrate c n g ref inputs = a at h
    cases h with
    | ok h => exact ⟨_, rfl, h.untype_eq hlists⟩

/-- **C102** (dehydration). With the layouts under other identifiers, the same dataset is written, with the same terms for the inputs, or
there is the same error, or it fails in the same way. -/
theorem C102_dehydrate (c : DeCtx) (f : Term → Term) (reg' : Registry Term) (hreg : c.reg.Relabels f reg') (n : Nat) (v : Value)
    (ref : Term) (o : Dehydrate.DeOptions) :
    Dehydrate.dehydrate { c with reg := reg' } n v (f ref) o = (Dehydrate.dehydrate c n v ref o).mapErr (DeError.relabel f) :=
  Dehydrate.dehydrate_relabel hreg n v ref o

namespace Witness

/-- The layouts under the identifiers that `f` gives, of which `h` is the inverse. -/
def underOther (f h : R → R) (reg : Registry R) : Registry R := fun r => (reg (h r)).map (Layout.relabel f)

theorem relabels_underOther {f h : R → R} (hfh : ∀ r, h (f r) = r) (reg : Registry R) : reg.Relabels f (underOther f h reg) := by
  intro r
  rw [underOther, hfh]

/-- Exchange two identifiers. -/
def swapIds (a b r : R) : R := if r = a then b else if r = b then a else r

theorem swapIds_swapIds (a b r : R) : swapIds a b (swapIds a b r) = r := by
  unfold swapIds
  by_cases h1 : r = a
  · subst h1
    by_cases h2 : b = r <;> simp [h2]
  · by_cases h2 : r = b
    · subst h2; simp [h1]
    · simp [h1, h2]

/-- Two kinds of records, with the same text under `a` and different ones under `b`, in an unordered list. -/
def twoKinds : Registry Nat
  | 0 => some (.unordered { input := 1, intro := 0, dataset := [], item :=
      { intro := 1, value := ⟨1, [.var 1], none⟩, dataset := [⟨.var 0, .res 13, .var 1, none⟩] } })
  | 1 => some (.sum { input := 1, intro := 0, dataset := [], variants := [
      { name := "first", intro := 0, value := ⟨2, [.var 0], none⟩, dataset := [⟨.var 0, .res 10, .res 11, none⟩] },
      { name := "second", intro := 0, value := ⟨3, [.var 0], none⟩, dataset := [⟨.var 0, .res 10, .res 12, none⟩] }] })
  | 2 => some (.product { input := 1, intro := 0, dataset := [], fields := [
      (.text "a", { intro := 0, value := ⟨4, [.var 0], none⟩, dataset := [], required := true }),
      (.text "b", { intro := 0, value := ⟨6, [.var 0], none⟩, dataset := [], required := true })] })
  | 3 => some (.product { input := 1, intro := 0, dataset := [], fields := [
      (.text "a", { intro := 0, value := ⟨5, [.var 0], none⟩, dataset := [], required := true }),
      (.text "b", { intro := 0, value := ⟨7, [.var 0], none⟩, dataset := [], required := true })] })
  | 4 => some (.unit { input := 1, intro := 0, dataset := [], const := .text "x" })
  | 5 => some (.unit { input := 1, intro := 0, dataset := [], const := .text "x" })
  | 6 => some (.unit { input := 1, intro := 0, dataset := [], const := .text "y" })
  | 7 => some (.unit { input := 1, intro := 0, dataset := [], const := .text "z" })
  | _ => none

/-- One record of each kind. -/
def twoKindsCtx : HyCtx Nat := bareCtx twoKinds [⟨100, 13, 101, none⟩, ⟨100, 13, 102, none⟩, ⟨101, 10, 11, none⟩, ⟨102, 10, 12, none⟩]

/-- A record, without annotations. -/
def plainRecord (a b : String) : Value := .map [(.text "a", .text a), (.text "b", .text b)]

end Witness

open Witness in
/-- **C102**: the identifiers of layouts may decide the order in which the items of an unordered list are returned, since annotations are
compared too. -/
theorem C102_identifiers_decide_order :
    twoKindsCtx.reg.Relabels (swapIds 4 5) (underOther (swapIds 4 5) (swapIds 4 5) twoKinds) ∧
    (hydrate twoKindsCtx 9 none 0 [100]).map TypedValue.untype = .ok (.list [plainRecord "x" "y", plainRecord "x" "z"]) ∧
    (hydrate { twoKindsCtx with reg := underOther (swapIds 4 5) (swapIds 4 5) twoKinds } 9 none (swapIds 4 5 0) [100]).map
      TypedValue.untype = .ok (.list [plainRecord "x" "z", plainRecord "x" "y"]) := by
  refine ⟨relabels_underOther (swapIds_swapIds 4 5) _, ?_, ?_⟩ <;> decide +kernel

section

open Example Witness

-- the text layout `1` under the identifier `9`
example : hydrate { ctx with reg := underOther (swapIds 1 9) (swapIds 1 9) reg } 5 none 3 [200] =
    .ok (.list [.literal (.textString "b" 9), .literal (.textString "a" 9)] 3) := by decide +kernel

example := C102_hydrate ctx (swapIds 1 9) _ (relabels_underOther (swapIds_swapIds 1 9) _) 5 none 0 [100]

-- the two layouts of the text "x" are the same, and can be merged
example : twoKinds.Relabels (fun r => if r = 5 then 4 else r) (fun r => (twoKinds r).map (Layout.relabel fun r => if r = 5 then 4 else r)) := by
  intro r
  by_cases h : r = 5
  · subst h; rfl
  · simp [h]

/-- The layout of lists and the one of texts. -/
def onlyLists : Registry Nat := fun r => if r = 1 ∨ r = 3 then reg r else none

theorem onlyLists_lists (r : Nat) (u : UnorderedLayout Nat) : onlyLists r ≠ some (.unordered u) := by
  intro h
  unfold onlyLists at h
  split at h
  · rename_i hr
    rcases hr with rfl | rfl <;> exact nomatch h
  · exact nomatch h

example := (C102_same_tree { ctx with reg := onlyLists } (swapIds 1 9) _ (relabels_underOther (swapIds_swapIds 1 9) _) onlyLists_lists 5
  none 3 [200] (.list [.text "b", .text "a"])).1 
  ⟨.list [.literal (.textString "b" 1), .literal (.textString "a" 1)] 3, by decide +kernel, rfl⟩

end

section

open DeExample Witness

example := C102_dehydrate ctx (swapIds (.iri "either") (.iri "one of them")) _
  (relabels_underOther (swapIds_swapIds _ _) _) 4 letters (.iri "either") opts

end

end Props

end Verif
