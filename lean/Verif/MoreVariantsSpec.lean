import Verif.ExtendSpec
import Verif.DehydrateSpec

/-!
# Sums with more variants

Specification for C105. No further code is modelled.
-/

namespace Verif

variable {R : Type _}

/-- The same layout, but a sum may have more variants at the end, of which `P` holds; its first argument is the number of variables of the
sum. -/
inductive Layout.MoreVariants (P : Nat → Variant R → Prop) : Layout R → Layout R → Prop
  | refl (l : Layout R) : MoreVariants P l l
  | sum (input «intro» : Nat) (dataset : List (QuadPat R)) (vs new : List (Variant R)) : (∀ x ∈ new, P (input + «intro») x) →
      MoreVariants P (.sum ⟨input, «intro», vs, dataset⟩) (.sum ⟨input, «intro», vs ++ new, dataset⟩)

/-- The same layouts, but sums may have more variants at the end, and there may be more layouts. -/
def Registry.MoreVariants (P : Nat → Variant R → Prop) (reg reg' : Registry R) : Prop :=
  ∀ r l, reg r = some l → ∃ l', reg' r = some l' ∧ l.MoreVariants P l'

/-- A variant that the dataset does not mention. Its patterns use variables of the sum only (hydration does not declare those of the
variant). -/
def Variant.Unmentioned (ds : List (Quad R)) (k : Nat) (x : Variant R) : Prop := PatsBelow k x.dataset ∧ Verif.Unmentioned ds x.dataset

/-- The interpretation used by derived code knows the constants in the patterns of the variant. -/
def Variant.Known {R : Type} (c : DsCtx R) (x : Variant R) : Prop :=
  ∀ p ∈ x.dataset, (∀ r, p.s = .res r → c.known r = true) ∧ (∀ r, p.p = .res r → c.known r = true) ∧
    (∀ r, p.o = .res r → c.known r = true) ∧ ∀ r, p.g = some (.res r) → c.known r = true

/-- A tree and the trees in it. -/
inductive Value.Part : Value → Value → Prop
  | whole (v : Value) : Part v v
  | entry {m : List (Value × Value)} {k v w : Value} : (k, v) ∈ m → Part v w → Part (.map m) w
  | item {vs : List Value} {v w : Value} : v ∈ vs → Part v w → Part (.list vs) w

/-- A variant without variables of its own, whose layout accepts values of another kind than those in the tree. Its patterns use variables of
the sum only. -/
def Variant.OtherKind {R : Type _} (reg : Registry R) (v : Value) (k : Nat) (x : Variant R) : Prop :=
  x.intro = 0 ∧ PatsBelow k x.dataset ∧ x.value.Below k ∧ ∃ l, reg x.value.layout = some l ∧ ∀ w, v.Part w → l.HeadMismatch w

end Verif
