import Verif.Hydrate

/-!
# Layouts that differ in the order and names of their variants

Specification for C101. No further code is modelled.
-/

namespace Verif

variable {R : Type _}

/-- A variant without its name. -/
def Variant.nameless (x : Variant R) : Nat × ValueFormat R × List (QuadPat R) := (x.intro, x.value, x.dataset)

/-- The same layout, but for the order and the names of the variants of a sum. -/
inductive Layout.SameVariants : Layout R → Layout R → Prop
  | refl (l : Layout R) : SameVariants l l
  | sum (input «intro» : Nat) (dataset : List (QuadPat R)) {vs vs' : List (Variant R)} :
      (vs.map Variant.nameless).Perm (vs'.map Variant.nameless) →
      SameVariants (.sum ⟨input, «intro», vs, dataset⟩) (.sum ⟨input, «intro», vs', dataset⟩)

/-- The same layouts, but for the order and the names of the variants of sums. -/
def Registry.SameVariants (reg reg' : Registry R) : Prop :=
  ∀ r, (reg r = none ∧ reg' r = none) ∨ ∃ l l', reg r = some l ∧ reg' r = some l' ∧ l.SameVariants l'

/-- The same tree, but for the numbers of the variants, and for the order of the items of unordered lists. -/
inductive TypedValue.Alike (reg : Registry R) : TypedValue R → TypedValue R → Prop
  | literal (l : TypedLiteral R) : Alike reg (.literal l) (.literal l)
  | always (v : Value) : Alike reg (.always v) (.always v)
  | variant {v v' : TypedValue R} (ty : R) (i j : Nat) : Alike reg v v' → Alike reg (.variant v ty i) (.variant v' ty j)
  | map {m m' : List (Value × TypedValue R)} (ty : R) : m.map Prod.fst = m'.map Prod.fst →
      (∀ (i : Nat) (a b : Value × TypedValue R), m[i]? = some a → m'[i]? = some b → Alike reg a.2 b.2) →
      Alike reg (.map m ty) (.map m' ty)
  | list {l l' : List (TypedValue R)} (ty : R) : l.length = l'.length →
      (∀ (i : Nat) (a b : TypedValue R), l[i]? = some a → l'[i]? = some b → Alike reg a b) → Alike reg (.list l ty) (.list l' ty)
  | set {l l' : List (TypedValue R)} (ty : R) (u : UnorderedLayout R) (a b : List (TypedValue R)) : reg ty = some (.unordered u) →
      l.Perm a → b.Perm l' → a.length = b.length →
      (∀ (i : Nat) (x y : TypedValue R), a[i]? = some x → b[i]? = some y → Alike reg x y) → Alike reg (.list l ty) (.list l' ty)

end Verif
