import Verif.Layout

/-!
# Layouts with fewer required fields

Specification for C103. No further code is modelled.
-/

namespace Verif

variable {R : Type _}

/-- The same field, which may be optional instead of required. -/
def Field.Relaxed (a b : Field R) : Prop :=
  b.intro = a.intro ∧ b.value = a.value ∧ b.dataset = a.dataset ∧ (b.required = true → a.required = true)

/-- The same layout, but some fields of a record that were required may be optional. -/
inductive Layout.Relaxed : Layout R → Layout R → Prop
  | refl (l : Layout R) : Relaxed l l
  | product (input «intro» : Nat) (dataset : List (QuadPat R)) {fs fs' : List (Value × Field R)} :
      List.Forall₂ (fun a b => a.1 = b.1 ∧ a.2.Relaxed b.2) fs fs' →
      Relaxed (.product ⟨input, «intro», fs, dataset⟩) (.product ⟨input, «intro», fs', dataset⟩)

/-- The same layouts, but some fields of records that were required may be optional. -/
def Registry.Relaxed (reg reg' : Registry R) : Prop := ∀ r l, reg r = some l → ∃ l', reg' r = some l' ∧ l.Relaxed l'

end Verif
