import Verif.DeriveRename
import Verif.Props.Derive

/-!
# Property C98: derived deserialization does not depend on the names of resources
-/

set_option linter.unusedSectionVars false

namespace Verif

/-- The resource occurs in the dataset, in a layout (other than as a layout), as the current graph or among the inputs. -/
def DsCtx.Uses {R : Type} (c : DsCtx R) (g : Option R) (inputs : List R) (r : R) : Prop :=
  (∃ q ∈ c.ds, q.Has r) ∨ c.reg.HasConstant r ∨ g = some r ∨ r ∈ inputs

/-- The dataset with its resources renamed, with the given IRIs, blank node identifiers and literals. -/
def DsCtx.withData {R : Type} (c : DsCtx R) (ds : List (Quad R)) (irisOf blankIdsOf : R → List String)
    (literalsOf : R → List RdfLit) : DsCtx R :=
  { c with ds := ds, irisOf := irisOf, blankIdsOf := blankIdsOf, literalsOf := literalsOf }

namespace Props

open Verif.Derived

variable {R : Type} [DecidableEq R]

/-- **C98.** Renaming the resources of the dataset, the inputs and the graph in a way that does not merge resources in use, keeps
their IRIs, blank node identifiers and literals, and leaves alone the constants of the layouts, does not change what derived code
returns: the same value, the same error, the same panic. -/
theorem C98_rename (c : DsCtx R) (f : R → R) (irisOf blankIdsOf : R → List String) (literalsOf : R → List RdfLit) (g : Option R)
    (inputs : List R)
    (hinj : ∀ r r', c.Uses g inputs r → c.Uses g inputs r' → f r = f r' → r = r')
    (hconst : ∀ r, c.reg.HasConstant r → f r = r)
    (hiris : ∀ r, c.Uses g inputs r → irisOf (f r) = c.irisOf r)
    (hblank : ∀ r, c.Uses g inputs r → blankIdsOf (f r) = c.blankIdsOf r)
    (hlits : ∀ r, c.Uses g inputs r → literalsOf (f r) = c.literalsOf r) (n : Nat) (ref : R) :
    deserialize (c.withData (c.ds.map (Quad.map f)) irisOf blankIdsOf literalsOf) n (g.map f) ref (inputs.map f) =
      deserialize c n g ref inputs := by
  have E : Renamed f (c.Uses g inputs) c (c.withData (c.ds.map (Quad.map f)) irisOf blankIdsOf literalsOf) :=
    { reg := rfl, prim := rfl, known := rfl, datatypeIri := rfl, fromLiteral := rfl, parseInt := rfl
      iris := hiris, blankIds := hblank, literals := hlits, injective := hinj
      constants := fun r h => ⟨.inr (.inl h), hconst r h⟩
      quads := fun q hq r h => .inl ⟨q, hq, h⟩
      dataset := by
        change Enriched f (fun _ => False) c.ds (c.ds.map (Quad.map f))
        generalize c.ds = l
        induction l with
        | nil => exact .nil
        | cons q l ih => exact .keep q ih }
  exact deserialize_rename E n g ref inputs (fun r h => .inr (.inr (.inl h))) (fun r h => .inr (.inr (.inr h)))

/-! ## The hypotheses can be met, and are needed -/

namespace Witness

open DeriveExample

/-- The resources that the layouts do not mention have other names. -/
def move (r : Nat) : Nat := if r < 100 then r else r + 1000

/-- The inverse. -/
def back (r : Nat) : Nat := if r < 100 then r else r - 1000

theorem back_move (r : Nat) : back (move r) = r := by
  unfold back move
  split
  · rfl
  · split <;> omega

/-- The example with other names. -/
def moved : DsCtx Nat := ctx.withData (ds.map (Quad.map move)) (ctx.irisOf ∘ back) (ctx.blankIdsOf ∘ back) (ctx.literalsOf ∘ back)

theorem derive_constants (r : Nat) (h : ctx.reg.HasConstant r) : r < 100 := by
  obtain ⟨ref, l, hl, h⟩ := h
  change reg either ref = some l at hl
  unfold reg at hl
  split at hl <;> simp only [Option.some.injEq, reduceCtorEq] at hl <;> subst hl <;>
    simp [person, Example.text, Example.tags, Example.rdfList, age, ident, plainData, either, Layout.HasConstant, PatsHaveConstant,
      ValueFormat.HasConstant, Example.q] at h <;> omega

-- Alice, named `1100`
example : deserialize moved 5 none 4 [1100] = .ok (.variant personTree 4 0) := by
  have := C98_rename ctx move (ctx.irisOf ∘ back) (ctx.blankIdsOf ∘ back) (ctx.literalsOf ∘ back) none [100]
    (fun r r' _ _ h => by rw [← back_move r, ← back_move r', h])
    (fun r h => by simp [move, derive_constants r h])
    (fun r _ => by simp [back_move]) (fun r _ => by simp [back_move]) (fun r _ => by simp [back_move]) 5 4
  exact this.trans derived_person

/-- **C98** (condition). When two resources are merged, another value is read: the set of tags has one item. -/
theorem C98_merged :
    deserialize ctx 5 none 2 [100] = .ok (.list [.literal (.textString "b" 1), .literal (.textString "a" 1)] 2) ∧
    deserialize (ctx.withData ((ds.map (Quad.map fun r => if r = 103 then 102 else r)).dedup) ctx.irisOf ctx.blankIdsOf ctx.literalsOf)
      5 none 2 [100] = .ok (.list [.literal (.textString "b" 1)] 2) := by
  decide +kernel

end Witness

end Props

end Verif
