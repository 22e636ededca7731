import Verif.Hydrate
import Verif.Dehydrate

/-!
# Layouts under other identifiers

Specification for C102. No further code is modelled.
-/

namespace Verif

variable {R : Type _}

/-- The same format, with the layout under another identifier. -/
def ValueFormat.relabel (f : R → R) (fmt : ValueFormat R) : ValueFormat R := { fmt with layout := f fmt.layout }

/-- The same item layout, with the layout of items under another identifier. -/
def ItemLayout.relabel (f : R → R) (i : ItemLayout R) : ItemLayout R := { i with value := i.value.relabel f }

/-- The same field. -/
def Field.relabel (f : R → R) (x : Field R) : Field R := { x with value := x.value.relabel f }

/-- The same variant. -/
def Variant.relabel (f : R → R) (x : Variant R) : Variant R := { x with value := x.value.relabel f }

/-- The same layout, with the layouts it refers to under other identifiers. Resources are not renamed. -/
def Layout.relabel (f : R → R) : Layout R → Layout R
  | .product l => .product { l with fields := l.fields.map fun x => (x.1, x.2.relabel f) }
  | .unordered l => .unordered { l with item := l.item.relabel f }
  | .ordered l => .ordered { l with node := l.node.relabel f }
  | .sized l => .sized { l with items := l.items.map (ItemLayout.relabel f) }
  | .sum l => .sum { l with variants := l.variants.map (Variant.relabel f) }
  | l => l

/-- `reg'` has the layouts of `reg`, under the identifiers that `f` gives. Identifiers may be given to several layouts, if these are the
same. -/
def Registry.Relabels (reg : Registry R) (f : R → R) (reg' : Registry R) : Prop := ∀ r, reg' (f r) = (reg r).map (Layout.relabel f)

/-- A literal annotated with the other identifiers. -/
def TypedLiteral.relabel (f : R → R) : TypedLiteral R → TypedLiteral R
  | .unit v ty => .unit v (f ty)
  | .boolean b ty => .boolean b (f ty)
  | .number n ty => .number n (f ty)
  | .byteString b ty => .byteString b (f ty)
  | .textString s ty => .textString s (f ty)
  | .id s ty => .id s (f ty)

/-- The same tree, annotated with the other identifiers, but for the order of the items of unordered lists. -/
inductive TypedValue.Relabelled (reg : Registry R) (f : R → R) : TypedValue R → TypedValue R → Prop
  | literal (l : TypedLiteral R) : Relabelled reg f (.literal l) (.literal (l.relabel f))
  | always (v : Value) : Relabelled reg f (.always v) (.always v)
  | variant {v v' : TypedValue R} (ty : R) (i : Nat) : Relabelled reg f v v' → Relabelled reg f (.variant v ty i) (.variant v' (f ty) i)
  | map {m m' : List (Value × TypedValue R)} (ty : R) : m.map Prod.fst = m'.map Prod.fst →
      (∀ (i : Nat) (a b : Value × TypedValue R), m[i]? = some a → m'[i]? = some b → Relabelled reg f a.2 b.2) →
      Relabelled reg f (.map m ty) (.map m' (f ty))
  | list {l l' : List (TypedValue R)} (ty : R) : l.length = l'.length →
      (∀ (i : Nat) (a b : TypedValue R), l[i]? = some a → l'[i]? = some b → Relabelled reg f a b) →
      Relabelled reg f (.list l ty) (.list l' (f ty))
  | set {l l' : List (TypedValue R)} (ty : R) (u : UnorderedLayout R) (a b : List (TypedValue R)) : reg ty = some (.unordered u) →
      l.Perm a → b.Perm l' → a.length = b.length →
      (∀ (i : Nat) (x y : TypedValue R), a[i]? = some x → b[i]? = some y → Relabelled reg f x y) →
      Relabelled reg f (.list l ty) (.list l' (f ty))

mutual
/-- The same tree, annotated with the other identifiers. -/
def TypedValue.relabel (f : R → R) : TypedValue R → TypedValue R
  | .literal l => .literal (l.relabel f)
  | .variant v ty i => .variant (v.relabel f) (f ty) i
  | .map m ty => .map (TypedValue.relabelMap f m) (f ty)
  | .list l ty => .list (TypedValue.relabelList f l) (f ty)
  | .always v => .always v

/-- The same entries. -/
def TypedValue.relabelMap (f : R → R) : List (Value × TypedValue R) → List (Value × TypedValue R)
  | [] => []
  | (k, v) :: m => (k, v.relabel f) :: TypedValue.relabelMap f m

/-- The same items. -/
def TypedValue.relabelList (f : R → R) : List (TypedValue R) → List (TypedValue R)
  | [] => []
  | v :: l => v.relabel f :: TypedValue.relabelList f l
end

/-- The same part of a layout, under the other identifier. -/
def DataFragment.relabel (f : R → R) : DataFragment R → DataFragment R
  | .discriminant l => .discriminant (f l)
  | .variant l name => .variant (f l) name
  | .key l k => .key (f l) k
  | .orderedListNode l head tail => .orderedListNode (f l) head tail
  | .sizedListItem l i => .sizedListItem (f l) i

/-- The same error, about the layouts under the other identifiers. -/
def HyError.relabel (f : R → R) : HyError R → HyError R
  | .dataAmbiguity frag => .dataAmbiguity (frag.relabel f)
  | .missingData frag => .missingData (frag.relabel f)
  | .layoutNotFound l => .layoutNotFound (f l)
  | e => e

/-- What hydration returns with the other identifiers: the same tree, the same error, or the same failure. -/
inductive Out.Relabelled {α β : Type _} (f : R → R) (P : α → β → Prop) : Out (HyError R) α → Out (HyError R) β → Prop
  | ok {a : α} {b : β} : P a b → Relabelled f P (.ok a) (.ok b)
  | err (e : HyError R) : Relabelled f P (.err e) (.err (e.relabel f))
  | panic : Relabelled f P .panic .panic
  | fuel : Relabelled f P .fuel .fuel

/-- The same error of dehydration, about the layouts under the other identifiers. -/
def DeError.relabel (f : Term → Term) : DeError → DeError
  | .layoutNotFound l => .layoutNotFound (f l)
  | .missingRequiredKey l k m => .missingRequiredKey (f l) k m
  | e => e

end Verif
