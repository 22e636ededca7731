import Verif.Basic

/-!
# Tree values

Models the data types of `layouts/src/value/mod.rs`: `Literal`, `Value`, `TypedLiteral`, `TypedValue`.

* `Number(BigRational)` is `Rat` (lowest terms, positive denominator).
* `BTreeMap<Value, _>` is the list of its entries in iteration order. Equality of maps is equality of these lists,
  which is what `BTreeMap`'s `PartialEq` computes (both lists are sorted by key).
-/

namespace Verif

/-- `Literal`. `layouts/src/value/mod.rs` L256-271. -/
inductive Literal where
  | unit
  | boolean (b : Bool)
  | number (n : Rat)
  | byteString (b : List UInt8)
  | textString (s : String)
  deriving DecidableEq, Repr

/-- `Value`. `layouts/src/value/mod.rs` L303-307. -/
inductive Value where
  | literal (l : Literal)
  | map (m : List (Value × Value))
  | list (l : List Value)
  deriving Repr

namespace Value

mutual
/-- Decidable equality of trees (`derive(PartialEq)`). -/
def decEq : (a b : Value) → Decidable (a = b)
  | .literal a, .literal b =>
    match (inferInstance : Decidable (a = b)) with
    | isTrue h => isTrue (by rw [h])
    | isFalse h => isFalse (by simpa using h)
  | .map a, .map b =>
    match decEqMap a b with
    | isTrue h => isTrue (by rw [h])
    | isFalse h => isFalse (by simpa using h)
  | .list a, .list b =>
    match decEqList a b with
    | isTrue h => isTrue (by rw [h])
    | isFalse h => isFalse (by simpa using h)
  | .literal _, .map _ => isFalse (by simp)
  | .literal _, .list _ => isFalse (by simp)
  | .map _, .literal _ => isFalse (by simp)
  | .map _, .list _ => isFalse (by simp)
  | .list _, .literal _ => isFalse (by simp)
  | .list _, .map _ => isFalse (by simp)

/-- Decidable equality of map entries. -/
def decEqMap : (a b : List (Value × Value)) → Decidable (a = b)
  | [], [] => isTrue rfl
  | [], _ :: _ => isFalse (by simp)
  | _ :: _, [] => isFalse (by simp)
  | (k, v) :: a, (k', v') :: b =>
    match decEq k k', decEq v v', decEqMap a b with
    | isTrue h₁, isTrue h₂, isTrue h₃ => isTrue (by rw [h₁, h₂, h₃])
    | isFalse h, _, _ => isFalse (by simp [h])
    | _, isFalse h, _ => isFalse (by simp [h])
    | _, _, isFalse h => isFalse (by simp [h])

/-- Decidable equality of lists of trees. -/
def decEqList : (a b : List Value) → Decidable (a = b)
  | [], [] => isTrue rfl
  | [], _ :: _ => isFalse (by simp)
  | _ :: _, [] => isFalse (by simp)
  | v :: a, v' :: b =>
    match decEq v v', decEqList a b with
    | isTrue h₂, isTrue h₃ => isTrue (by rw [h₂, h₃])
    | isFalse h, _ => isFalse (by simp [h])
    | _, isFalse h => isFalse (by simp [h])
end

instance : DecidableEq Value := decEq

/-- `Value::unit`. `layouts/src/value/mod.rs` L311-313. -/
def unit : Value := .literal .unit

/-- `Value::string`. `layouts/src/value/mod.rs` L321-323. -/
def text (s : String) : Value := .literal (.textString s)

end Value

/-- `TypedLiteral<R>`. `layouts/src/value/mod.rs` L573-591. A `Ref<_, R>` is its identifier `R`. -/
inductive TypedLiteral (R : Type _) where
  | unit (v : Value) (ty : R)
  | boolean (b : Bool) (ty : R)
  | number (n : Rat) (ty : R)
  | byteString (b : List UInt8) (ty : R)
  | textString (s : String) (ty : R)
  | id (s : String) (ty : R)
  deriving DecidableEq, Repr

/-- `TypedValue<R>`. `layouts/src/value/mod.rs` L622-644. -/
inductive TypedValue (R : Type _) where
  | literal (l : TypedLiteral R)
  | variant (v : TypedValue R) (ty : R) (index : Nat)
  | map (m : List (Value × TypedValue R)) (ty : R)
  | list (l : List (TypedValue R)) (ty : R)
  | always (v : Value)
  deriving Repr

variable {R : Type _}

namespace TypedValue

section
variable [DecidableEq R]
mutual
/-- Decidable equality of typed trees (`derive(PartialEq)`). -/
def decEq : (a b : TypedValue R) → Decidable (a = b)
  | .literal a, .literal b =>
    match (inferInstance : Decidable (a = b)) with
    | isTrue h => isTrue (by rw [h])
    | isFalse h => isFalse (by simpa using h)
  | .variant a r i, .variant b r' i' =>
    match decEq a b, (inferInstance : Decidable (r = r')), (inferInstance : Decidable (i = i')) with
    | isTrue h₁, isTrue h₂, isTrue h₃ => isTrue (by rw [h₁, h₂, h₃])
    | isFalse h, _, _ => isFalse (by simp [h])
    | _, isFalse h, _ => isFalse (by simp [h])
    | _, _, isFalse h => isFalse (by simp [h])
  | .map a r, .map b r' =>
    match decEqMap a b, (inferInstance : Decidable (r = r')) with
    | isTrue h, isTrue h' => isTrue (by rw [h, h'])
    | isFalse h, _ => isFalse (by simp [h])
    | _, isFalse h => isFalse (by simp [h])
  | .list a r, .list b r' =>
    match decEqList a b, (inferInstance : Decidable (r = r')) with
    | isTrue h, isTrue h' => isTrue (by rw [h, h'])
    | isFalse h, _ => isFalse (by simp [h])
    | _, isFalse h => isFalse (by simp [h])
  | .always a, .always b =>
    match (inferInstance : Decidable (a = b)) with
    | isTrue h => isTrue (by rw [h])
    | isFalse h => isFalse (by simpa using h)
  | .literal _, .variant .. => isFalse (by simp)
  | .literal _, .map .. => isFalse (by simp)
  | .literal _, .list .. => isFalse (by simp)
  | .literal _, .always .. => isFalse (by simp)
  | .variant .., .literal _ => isFalse (by simp)
  | .variant .., .map .. => isFalse (by simp)
  | .variant .., .list .. => isFalse (by simp)
  | .variant .., .always .. => isFalse (by simp)
  | .map .., .literal _ => isFalse (by simp)
  | .map .., .variant .. => isFalse (by simp)
  | .map .., .list .. => isFalse (by simp)
  | .map .., .always .. => isFalse (by simp)
  | .list .., .literal _ => isFalse (by simp)
  | .list .., .variant .. => isFalse (by simp)
  | .list .., .map .. => isFalse (by simp)
  | .list .., .always .. => isFalse (by simp)
  | .always .., .literal _ => isFalse (by simp)
  | .always .., .variant .. => isFalse (by simp)
  | .always .., .map .. => isFalse (by simp)
  | .always .., .list .. => isFalse (by simp)

/-- Decidable equality of typed map entries. -/
def decEqMap : (a b : List (Value × TypedValue R)) → Decidable (a = b)
  | [], [] => isTrue rfl
  | [], _ :: _ => isFalse (by simp)
  | _ :: _, [] => isFalse (by simp)
  | (k, v) :: a, (k', v') :: b =>
    match (inferInstance : Decidable (k = k')), decEq v v', decEqMap a b with
    | isTrue h₁, isTrue h₂, isTrue h₃ => isTrue (by rw [h₁, h₂, h₃])
    | isFalse h, _, _ => isFalse (by simp [h])
    | _, isFalse h, _ => isFalse (by simp [h])
    | _, _, isFalse h => isFalse (by simp [h])

/-- Decidable equality of lists of typed trees. -/
def decEqList : (a b : List (TypedValue R)) → Decidable (a = b)
  | [], [] => isTrue rfl
  | [], _ :: _ => isFalse (by simp)
  | _ :: _, [] => isFalse (by simp)
  | v :: a, v' :: b =>
    match decEq v v', decEqList a b with
    | isTrue h₂, isTrue h₃ => isTrue (by rw [h₂, h₃])
    | isFalse h, _ => isFalse (by simp [h])
    | _, isFalse h => isFalse (by simp [h])
end

instance : DecidableEq (TypedValue R) := decEq
end

/-- `TypedLiteral::into_untyped`. `layouts/src/value/mod.rs` L605-614. -/
def _root_.Verif.TypedLiteral.untype : TypedLiteral R → Value
  | .unit v _ => v
  | .boolean b _ => .literal (.boolean b)
  | .number n _ => .literal (.number n)
  | .byteString b _ => .literal (.byteString b)
  | .textString s _ => .literal (.textString s)
  | .id s _ => .literal (.textString s)

/-- `TypedLiteral::type_`. `layouts/src/value/mod.rs` L594-603. -/
def _root_.Verif.TypedLiteral.type : TypedLiteral R → R
  | .unit _ ty => ty
  | .boolean _ ty => ty
  | .number _ ty => ty
  | .byteString _ ty => ty
  | .textString _ ty => ty
  | .id _ ty => ty

/-- `TypedValue::type_`. `layouts/src/value/mod.rs` L652-660. -/
def type : TypedValue R → Option R
  | .literal t => some t.type
  | .variant _ ty _ => some ty
  | .map _ ty => some ty
  | .list _ ty => some ty
  | .always _ => none

mutual
/-- `TypedValue::into_untyped`. `layouts/src/value/mod.rs` L663-676. -/
def untype : TypedValue R → Value
  | .literal l => l.untype
  | .variant v _ _ => v.untype
  | .map m _ => .map (untypeMap m)
  | .list l _ => .list (untypeList l)
  | .always v => v

/-- `map.into_iter().map(|(k, v)| (k, v.into_untyped())).collect()`. `layouts/src/value/mod.rs` L667-671. -/
def untypeMap : List (Value × TypedValue R) → List (Value × Value)
  | [] => []
  | (k, v) :: m => (k, v.untype) :: untypeMap m

/-- `items.into_iter().map(TypedValue::into_untyped).collect()`. `layouts/src/value/mod.rs` L673. -/
def untypeList : List (TypedValue R) → List Value
  | [] => []
  | v :: l => v.untype :: untypeList l
end

theorem untypeMap_eq (m : List (Value × TypedValue R)) :
    untypeMap m = m.map fun e => (e.1, e.2.untype) := by
  induction m with
  | nil => rfl
  | cons e m ih => obtain ⟨k, v⟩ := e; simp [untypeMap, ih]

theorem untypeList_eq (l : List (TypedValue R)) : untypeList l = l.map untype := by
  induction l with
  | nil => rfl
  | cons v l ih => simp [untypeList, ih]

end TypedValue

example : Value.map [(.literal .unit, .list [])] ≠ .literal .unit := by decide
example : Value.map [(.literal .unit, .list [.literal (.number (1 / 2))])] =
    .map [(.literal .unit, .list [.literal (.number (2 / 4))])] := by decide +kernel

end Verif
