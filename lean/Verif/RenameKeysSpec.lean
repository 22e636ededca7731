import Verif.Hydrate
import Verif.Dehydrate

/-!
# Other keys in records

Specification for C107. No further code is modelled.
-/

namespace Verif

variable {R : Type _}

mutual
/-- The tree with other keys in its records. -/
def Value.renameKeys (f : Value → Value) : Value → Value
  | .literal l => .literal l
  | .map m => .map (Value.renameMap f m)
  | .list l => .list (Value.renameList f l)

/-- The record with other keys. -/
def Value.renameMap (f : Value → Value) : List (Value × Value) → List (Value × Value)
  | [] => []
  | (k, v) :: m => (f k, v.renameKeys f) :: Value.renameMap f m

/-- The list with other keys in its records. -/
def Value.renameList (f : Value → Value) : List Value → List Value
  | [] => []
  | v :: l => v.renameKeys f :: Value.renameList f l
end

/-- The literal, where a constant has other keys. -/
def TypedLiteral.renameKeys (f : Value → Value) : TypedLiteral R → TypedLiteral R
  | .unit v ty => .unit (v.renameKeys f) ty
  | l => l

mutual
/-- The typed tree with other keys in its records. -/
def TypedValue.renameKeys (f : Value → Value) : TypedValue R → TypedValue R
  | .literal l => .literal (l.renameKeys f)
  | .variant v ty i => .variant (v.renameKeys f) ty i
  | .map m ty => .map (TypedValue.renameMap f m) ty
  | .list l ty => .list (TypedValue.renameList f l) ty
  | .always v => .always (v.renameKeys f)

/-- The typed record with other keys. -/
def TypedValue.renameMap (f : Value → Value) : List (Value × TypedValue R) → List (Value × TypedValue R)
  | [] => []
  | (k, v) :: m => (f k, v.renameKeys f) :: TypedValue.renameMap f m

/-- The typed list with other keys in its records. -/
def TypedValue.renameList (f : Value → Value) : List (TypedValue R) → List (TypedValue R)
  | [] => []
  | v :: l => v.renameKeys f :: TypedValue.renameList f l
end

/-- The layout with other keys for its fields, and in its constant. -/
def Layout.renameKeys (f : Value → Value) : Layout R → Layout R
  | .unit l => .unit { l with const := l.const.renameKeys f }
  | .product l => .product { l with fields := l.fields.map fun x => (f x.1, x.2) }
  | l => l

/-- All the layouts, with other keys. -/
def Registry.renameKeys (f : Value → Value) (reg : Registry R) : Registry R := fun r => (reg r).map (Layout.renameKeys f)

/-- The results are in relation, or both are errors, or both are the same failure. -/
inductive Out.Similar {ε α β : Type _} (P : α → β → Prop) : Out ε α → Out ε β → Prop
  | ok {a : α} {b : β} : P a b → Similar P (.ok a) (.ok b)
  | err (e e' : ε) : Similar P (.err e) (.err e')
  | panic : Similar P .panic .panic
  | fuel : Similar P .fuel .fuel

end Verif
