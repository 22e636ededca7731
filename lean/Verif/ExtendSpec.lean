import Verif.LayoutSpec
import Verif.DehydrateSpec
import Verif.Derive

/-!
# Layouts with more optional fields

Specification for C104. No further code is modelled.
-/

namespace Verif

variable {R : Type _}

/-- The same fields in the same order, and more of them, anywhere, of which `P` holds. -/
inductive FieldsExtended (P : Value → Field R → Prop) : List (Value × Field R) → List (Value × Field R) → Prop
  | nil : FieldsExtended P [] []
  | keep (k : Value) (f : Field R) {fs fs' : List (Value × Field R)} :
      FieldsExtended P fs fs' → FieldsExtended P ((k, f) :: fs) ((k, f) :: fs')
  | add {k : Value} {f : Field R} {fs fs' : List (Value × Field R)} :
      P k f → FieldsExtended P fs fs' → FieldsExtended P fs ((k, f) :: fs')

/-- The same layout, but a record may have more fields, of which `P` holds; its first argument is the number of variables of the record. -/
inductive Layout.Extended (P : Nat → Value → Field R → Prop) : Layout R → Layout R → Prop
  | refl (l : Layout R) : Extended P l l
  | product (input «intro» : Nat) (dataset : List (QuadPat R)) {fs fs' : List (Value × Field R)} :
      FieldsExtended (P (input + «intro»)) fs fs' →
      Extended P (.product ⟨input, «intro», fs, dataset⟩) (.product ⟨input, «intro», fs', dataset⟩)

/-- The same layouts, but records may have more fields, and there may be more layouts. -/
def Registry.Extended (P : Nat → Value → Field R → Prop) (reg reg' : Registry R) : Prop :=
  ∀ r l, reg r = some l → ∃ l', reg' r = some l' ∧ l.Extended P l'

/-- The layouts that layouts refer to exist. -/
def Registry.Complete (reg : Registry R) : Prop := ∀ r l, reg r = some l → ∀ f ∈ l.formats, (reg f.layout).isSome = true

/-- The quad has the subject, the property and the object of the pattern, where these are constants. -/
def QuadPat.Resembles (p : QuadPat R) (q : Quad R) : Prop :=
  (∀ r, p.s = .res r → q.s = r) ∧ (∀ r, p.p = .res r → q.p = r) ∧ ∀ r, p.o = .res r → q.o = r

/-- The dataset does not mention some pattern: for example, it does not use its property. -/
def Unmentioned (ds : List (Quad R)) (pats : List (QuadPat R)) : Prop := ∃ p ∈ pats, ∀ q ∈ ds, ¬ p.Resembles q

/-- An optional field that the dataset does not mention. Its patterns use variables in scope. -/
def Field.Unmentioned (ds : List (Quad R)) (k : Nat) (f : Field R) : Prop :=
  f.required = false ∧ PatsBelow (k + f.intro) f.dataset ∧ Verif.Unmentioned ds f.dataset

/-- The interpretation used by derived code knows the constants in the patterns of the field. -/
def Field.Known {R : Type} (c : DsCtx R) (f : Field R) : Prop :=
  ∀ p ∈ f.dataset, (∀ r, p.s = .res r → c.known r = true) ∧ (∀ r, p.p = .res r → c.known r = true) ∧
    (∀ r, p.o = .res r → c.known r = true) ∧ ∀ r, p.g = some (.res r) → c.known r = true

/-- Some record in the tree has this key. -/
inductive Value.HasKey : Value → Value → Prop
  | here {m : List (Value × Value)} {k v : Value} : (k, v) ∈ m → HasKey (.map m) k
  | entry {m : List (Value × Value)} {k k' v : Value} : (k', v) ∈ m → HasKey v k → HasKey (.map m) k
  | item {vs : List Value} {k v : Value} : v ∈ vs → HasKey v k → HasKey (.list vs) k

/-- Some record in the typed tree has this key. -/
inductive TypedValue.HasKey : TypedValue R → Value → Prop
  | here {m : List (Value × TypedValue R)} {ref : R} {k : Value} {v : TypedValue R} : (k, v) ∈ m → HasKey (.map m ref) k
  | entry {m : List (Value × TypedValue R)} {ref : R} {k k' : Value} {v : TypedValue R} :
      (k', v) ∈ m → HasKey v k → HasKey (.map m ref) k
  | item {vs : List (TypedValue R)} {ref : R} {k : Value} {v : TypedValue R} : v ∈ vs → HasKey v k → HasKey (.list vs ref) k
  | variant {v : TypedValue R} {ref : R} {i : Nat} {k : Value} : HasKey v k → HasKey (.variant v ref i) k

end Verif
