import Verif.HydrateSpec
import Verif.DehydrateSpec
import Verif.RoundTripSpec

/-!
# What is kept of a tree that is written, then read again

`Kept whole apart reg isIri ref v w`: the tree `w`, read through the layout `ref`, has everything the tree `v`, written
through it, had. Literals are the same. Every field of a record is there, and keeps its value. Every item of a set is
there. The items of a list, or of a tuple, are at the same places. `w` may have more: other fields, other items of sets.

Two parts depend on conditions.
- `whole`: lists are not cut short. (They are if the end of the list is also the name of one of its nodes.)
- `apart`: the variants read are the variants written. Otherwise this is only said of variants the tree uniquely
  conforms to.

Nothing is said of what the `always` layout reads, nor of what is read where an empty list was written: nothing is
written for them.
-/

namespace Verif

/-- The tree read, `w`, has everything the tree written, `v`, had. -/
inductive Kept {R : Type _} (whole apart : Prop) (reg : Registry R) (isIri : String → Bool) :
    R → Value → TypedValue R → Prop
  /-- a literal, or an identifier, is read as it was written -/
  | value {ref} (l : TypedLiteral R) : Kept whole apart reg isIri ref l.untype (.literal l)
  /-- every field is there; the fields written were those of the layout, and the required ones were among them, and so
  are the fields read -/
  | record {ref l} (m : List (Value × Value)) (m' : List (Value × TypedValue R)) : reg ref = some (.product l) →
      (∀ k v, (k, v) ∈ m → ∃ f v', (k, f) ∈ l.fields ∧ (k, v') ∈ m') →
      (∀ k f, (k, f) ∈ l.fields → f.required = true → ∃ v, (k, v) ∈ m) →
      (m'.map Prod.fst).Sublist (l.fields.map Prod.fst) →
      (∀ k v f v', (k, v) ∈ m → (k, f) ∈ l.fields → (k, v') ∈ m' → Kept whole apart reg isIri f.value.layout v v') →
      Kept whole apart reg isIri ref (.map m) (.map m' ref)
  /-- every item of a set is there, at some place -/
  | set {ref l} (vs : List Value) (ws : List (TypedValue R)) (place : Nat → Nat) : reg ref = some (.unordered l) →
      (∀ i < vs.length, place i < ws.length) →
      (∀ (i : Nat) v w, vs[i]? = some v → ws[place i]? = some w →
        Kept whole apart reg isIri l.item.value.layout v w) →
      Kept whole apart reg isIri ref (.list vs) (.list ws ref)
  /-- the items of a list are at the same places -/
  | list {ref l} (vs : List Value) (ws : List (TypedValue R)) : reg ref = some (.ordered l) →
      (vs ≠ [] → ws.length ≤ vs.length) → (whole → vs ≠ [] → ws.length = vs.length) →
      (∀ (i : Nat) v w, vs[i]? = some v → ws[i]? = some w → Kept whole apart reg isIri l.node.value.layout v w) →
      Kept whole apart reg isIri ref (.list vs) (.list ws ref)
  /-- the items of a tuple are at the same places -/
  | tuple {ref l} (vs : List Value) (ws : List (TypedValue R)) : reg ref = some (.sized l) →
      vs.length = l.items.length → ws.length = l.items.length →
      (∀ (i : Nat) item v w, l.items[i]? = some item → vs[i]? = some v → ws[i]? = some w →
        Kept whole apart reg isIri item.value.layout v w) →
      Kept whole apart reg isIri ref (.list vs) (.list ws ref)
  /-- what the variant read has -/
  | variant {ref l j x v w} : reg ref = some (.sum l) → l.variants[j]? = some x →
      (apart ∨ UniquelyConforms reg isIri x.value.layout v → Kept whole apart reg isIri x.value.layout v w) →
      Kept whole apart reg isIri ref v (.variant w ref j)
  /-- anything -/
  | always {ref} (v : Value) (w : TypedValue R) : reg ref = some .always → Kept whole apart reg isIri ref v w

/-- The term ends the lists of some layout. -/
def Registry.EndsLists {R : Type _} (reg : Registry R) (t : R) : Prop :=
  ∃ ref l, reg ref = some (.ordered l) ∧ l.tail = .res t

/-- Lists end with constants, and these constants are only used for that: no list starts with one of them, and none
of them, nor the variable for the rest of a list, is the input of a layout. -/
structure Registry.EndsApart {R : Type _} (reg : Registry R) : Prop where
  tail : ∀ ref l, reg ref = some (.ordered l) → ∃ t, l.tail = .res t
  head : ∀ ref l, reg ref = some (.ordered l) → ∀ t, reg.EndsLists t → l.head ≠ .res t
  input : ∀ ref l, reg ref = some l → ∀ f ∈ l.formats, ∀ t, reg.EndsLists t → .res t ∉ f.input
  rest : ∀ ref l, reg ref = some (.ordered l) → .var (l.input + l.intro + 1) ∉ l.node.value.input

/-- The text `t` occurs in the tree (other than in a key). -/
inductive Value.HasText : Value → String → Prop
  | here (t : String) : HasText (.literal (.textString t)) t
  | map {m k v t} : (k, v) ∈ m → HasText v t → HasText (.map m) t
  | list {vs v t} : v ∈ vs → HasText v t → HasText (.list vs) t

/-- What is written with the layout determines what is read with it: it is not a set, all the fields of records are
required. -/
def Layout.Fixed {R : Type _} : Layout R → Prop
  | .product l => ∀ e ∈ l.fields, e.2.required = true
  | .unordered _ => False
  | .always => False
  | _ => True

/-- There is no empty list in the tree. -/
inductive Value.NoEmptyList : Value → Prop
  | literal (l : Literal) : NoEmptyList (.literal l)
  | map (m : List (Value × Value)) : (∀ e ∈ m, NoEmptyList e.2) → NoEmptyList (.map m)
  | list (vs : List Value) : vs ≠ [] → (∀ v ∈ vs, NoEmptyList v) → NoEmptyList (.list vs)

end Verif
