import Verif.RenameKeys
import Verif.Props.Relabel

/-!
# Property C107: the keys of records can be renamed
-/

set_option linter.unusedSectionVars false
set_option linter.unusedSimpArgs false

namespace Verif.Props

variable {R : Type _} [DecidableEq R]

open Verif.Hydrate

/-- **C107** (hydration). With other keys in the layouts, the tree that is read is the same with other keys. The order on trees, with which
unordered lists are sorted, is one for which the keys do not matter. -/
theorem C107_hydrate (c : HyCtx R) (f : Value → Value) (le' : TypedValue R → TypedValue R → Bool)
    (hle : ∀ a b, le' (a.renameKeys f) (b.renameKeys f) = c.le a b) (n : Nat) (g : Option R) (ref : R) (inputs : List R) (w : TypedValue R) :
    hydrate { c with reg := c.reg.renameKeys f, le := le' } n g ref inputs = .ok w ↔
    ∃ v, hydrate c n g ref inputs = .ok v ∧ w = v.renameKeys f := by
  have h := hydrate_keys hle n g ref inputs
  constructor
  · intro hw
    rw [hw] at h
    generalize hydrate c n g ref inputs = o at h
    cases h with
    | ok h => exact ⟨_, rfl, h⟩
  · rintro ⟨v, hv, rfl⟩
    rw [hv] at h
    generalize hydrate (withKeys c (c.reg.renameKeys f) le') n g ref inputs = o at h ⊢
    cases h with
    | ok h => rw [h]

/-- **C107** (hydration, without types). The same for the tree without its types. -/
theorem C107_untyped (c : HyCtx R) (f : Value → Value) (le' : TypedValue R → TypedValue R → Bool)
    (hle : ∀ a b, le' (a.renameKeys f) (b.renameKeys f) = c.le a b) (n : Nat) (g : Option R) (ref : R) (inputs : List R) (v : TypedValue R)
    (hv : hydrate c n g ref inputs = .ok v) :
    ∃ w, hydrate { c with reg := c.reg.renameKeys f, le := le' } n g ref inputs = .ok w ∧ w.untype = v.untype.renameKeys f :=
  ⟨_, (C107_hydrate c f le' hle n g ref inputs _).2 ⟨v, hv, rfl⟩, TypedValue.untype_renameKeys f v⟩

/-- **C107** (hydration, failures). With other keys in the layouts, an error remains an error, and a panic remains one. -/
theorem C107_hydrate_failures (c : HyCtx R) (f : Value → Value) (le' : TypedValue R → TypedValue R → Bool)
    (hle : ∀ a b, le' (a.renameKeys f) (b.renameKeys f) = c.le a b) (n : Nat) (g : Option R) (ref : R) (inputs : List R) :
    Out.Similar (fun v w => w = v.renameKeys f) (hydrate c n g ref inputs)
      (hydrate { c with reg := c.reg.renameKeys f, le := le' } n g ref inputs) := hydrate_keys hle n g ref inputs

/-- **C107** (dehydration). With other keys in the layouts and in the tree, different ones for different keys, the same dataset is written,
with the same terms for the inputs. -/
theorem C107_dehydrate (c : DeCtx) (f : Value → Value) (hf : Function.Injective f) (n : Nat) (v : Value) (ref : Term)
    (o : Dehydrate.DeOptions) (r : List (Quad Term) × List Term) :
    Dehydrate.dehydrate { c with reg := c.reg.renameKeys f } n (v.renameKeys f) ref o = .ok r ↔ Dehydrate.dehydrate c n v ref o = .ok r := by
  have h := Dehydrate.dehydrate_keys c hf n v ref o
  revert h
  generalize Dehydrate.dehydrate c n v ref o = a
  generalize Dehydrate.dehydrate { c with reg := c.reg.renameKeys f } n (v.renameKeys f) ref o = b
  intro h
  cases h with
  | ok h => rw [h]
  | _ => simp

/-- **C107** (dehydration, failures). An error remains an error, and a panic remains one. -/
theorem C107_dehydrate_failures (c : DeCtx) (f : Value → Value) (hf : Function.Injective f) (n : Nat) (v : Value) (ref : Term)
    (o : Dehydrate.DeOptions) :
    Out.Similar Eq (Dehydrate.dehydrate c n v ref o)
      (Dehydrate.dehydrate { c with reg := c.reg.renameKeys f } n (v.renameKeys f) ref o) := Dehydrate.dehydrate_keys c hf n v ref o

namespace Witness

/-- `label` for `name`. -/
def labels : Value → Value := swapIds (.text "name") (.text "label")

theorem labels_labels (k : Value) : labels (labels k) = k := swapIds_swapIds _ _ k

theorem labels_injective : Function.Injective labels := Function.LeftInverse.injective labels_labels

end Witness

section

open Example Witness

example : hydrate { ctx with reg := reg.renameKeys labels, le := fun a b => ctx.le (a.renameKeys labels) (b.renameKeys labels) }
    5 none 0 [100] =
    .ok (.map [(.text "label", .literal (.textString "Alice" 1)),
      (.text "tags", .list [.literal (.textString "a" 1), .literal (.textString "b" 1)] 2)] 0) :=
  (C107_hydrate ctx labels _ (fun a b => by
    rw [TypedValue.renameKeys_twice labels_labels, TypedValue.renameKeys_twice labels_labels]) 5 none 0 [100] _).2
    ⟨personTree, hydrate_person, by decide +kernel⟩

end

section

open DeExample Witness

example : alice.renameKeys labels = .map [(.text "age", .literal (.number 1)), (.text "id", .text "http://example.org/alice"),
    (.text "label", .text "Alice"), (.text "tags", .list [.text "a", .text "b"])] := by decide +kernel

example : ∃ r, Dehydrate.dehydrate { ctx with reg := reg.renameKeys labels } 4 (alice.renameKeys labels) (.iri "person") opts = .ok r := by
  have hok : (Dehydrate.dehydrate ctx 4 alice (.iri "person") opts).isOk = true := by decide +kernel
  cases hx : Dehydrate.dehydrate ctx 4 alice (.iri "person") opts with
  | ok r => exact ⟨r, (C107_dehydrate ctx labels labels_injective 4 alice (.iri "person") opts r).2 hx⟩
  | _ => rw [hx] at hok; exact nomatch hok

-- two keys that become one: the layouts with the fields `name` and `age` both called `x`
example : ¬ Function.Injective fun _ : Value => Value.text "x" :=
  fun h => absurd (h (a₁ := .text "name") (a₂ := .text "age") rfl) (by decide)

end

end Verif.Props
