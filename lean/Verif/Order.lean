import Verif.Value
import Verif.HydrateSpec
import Mathlib.Algebra.Order.Ring.Unbundled.Rat

/-!
# The derived order on values

`#[derive(PartialOrd, Ord)]` compares the constructor first (declaration order) and then the fields from left to
right; `Vec` and `BTreeMap` compare lexicographically, a proper prefix being smaller; `String` compares by code
points; `BigRational` compares numerically. This is the lexicographic order of the following prefix-free encoding as a
sequence of numbers, where `1` announces one more element and `0` ends a sequence.

`layouts/src/value/mod.rs` L256, L303, L573, L622 (derives).
-/

set_option linter.unusedSimpArgs false

namespace Verif

/-- Lexicographic comparison of sequences of numbers. -/
def lexLe : List Rat → List Rat → Bool
  | [], _ => true
  | _ :: _, [] => false
  | a :: as, b :: bs => if a < b then true else if b < a then false else lexLe as bs

theorem lexLe_total (a b : List Rat) : lexLe a b = true ∨ lexLe b a = true := by
  induction a generalizing b with
  | nil => simp [lexLe]
  | cons x a ih =>
    cases b with
    | nil => simp [lexLe]
    | cons y b =>
      simp only [lexLe]
      rcases lt_trichotomy x y with h | h | h
      · simp [h]
      · subst h; simpa using ih b
      · simp [h]

theorem lexLe_antisymm (a b : List Rat) (h : lexLe a b = true) (h' : lexLe b a = true) : a = b := by
  induction a generalizing b with
  | nil => cases b <;> simp_all [lexLe]
  | cons x a ih =>
    cases b with
    | nil => simp [lexLe] at h
    | cons y b =>
      simp only [lexLe] at h h'
      rcases lt_trichotomy x y with hl | hl | hl
      · simp [hl, hl.asymm] at h'
      · subst hl; simp only [lt_self_iff_false, if_false] at h h'; rw [ih b h h']
      · simp [hl, hl.asymm] at h

theorem lexLe_trans (a b c : List Rat) (h : lexLe a b = true) (h' : lexLe b c = true) : lexLe a c = true := by
  induction a generalizing b c with
  | nil => simp [lexLe]
  | cons x a ih =>
    cases b with
    | nil => simp [lexLe] at h
    | cons y b =>
      cases c with
      | nil => simp [lexLe] at h'
      | cons z c =>
        simp only [lexLe] at h h' ⊢
        rcases lt_trichotomy x y with hl | hl | hl
        · rcases lt_trichotomy y z with hm | hm | hm
          · simp [hl.trans hm]
          · subst hm; simp [hl]
          · simp [hm, hm.asymm] at h'
        · subst hl
          rcases lt_trichotomy x z with hm | hm | hm
          · simp [hm]
          · subst hm
            simp only [lt_self_iff_false, if_false] at h h' ⊢
            exact ih b c h h'
          · simp [hm, hm.asymm] at h'
        · simp [hl, hl.asymm] at h

/-- Prefix-free encodings: reading an encoding off the front of a sequence is unambiguous. -/
def PrefixFree {α} (enc : α → List Rat) : Prop := ∀ a b s t, enc a ++ s = enc b ++ t → a = b ∧ s = t

/-- Encoding of a sequence. -/
def encList {α} (enc : α → List Rat) : List α → List Rat
  | [] => [0]
  | a :: l => 1 :: (enc a ++ encList enc l)

theorem PrefixFree.list {α} {enc : α → List Rat} (h : PrefixFree enc) : PrefixFree (encList enc) := by
  intro a
  induction a with
  | nil =>
    intro b s t e
    cases b with
    | nil => simpa [encList] using e
    | cons b l => simp [encList] at e
  | cons x a ih =>
    intro b s t e
    cases b with
    | nil => simp [encList] at e
    | cons y b =>
      simp only [encList, List.cons_append, List.append_assoc, List.cons.injEq, true_and] at e
      obtain ⟨rfl, e1⟩ := h _ _ _ _ e
      obtain ⟨rfl, rfl⟩ := ih _ _ _ e1
      exact ⟨rfl, rfl⟩

/-- Encoding of a Boolean: `false < true`. -/
def encBool (b : Bool) : List Rat := [if b then 1 else 0]

/-- Encoding of a byte. -/
def encByte (b : UInt8) : List Rat := [(b.toNat : Rat)]

/-- Encoding of a character by its code point. -/
def encChar (c : Char) : List Rat := [(c.toNat : Rat)]

/-- Encoding of a string. -/
def encString (s : String) : List Rat := encList encChar s.toList

theorem prefixFree_byte : PrefixFree encByte := by
  intro a b s t e
  simp only [encByte, List.cons_append, List.nil_append, List.cons.injEq, Rat.natCast_inj] at e
  exact ⟨UInt8.toNat_inj.1 e.1, e.2⟩

theorem prefixFree_char : PrefixFree encChar := by
  intro a b s t e
  simp only [encChar, List.cons_append, List.nil_append, List.cons.injEq, Rat.natCast_inj] at e
  exact ⟨Char.ext (UInt32.toNat_inj.1 e.1), e.2⟩

theorem prefixFree_string : PrefixFree encString := by
  intro a b s t e
  obtain ⟨h, h'⟩ := prefixFree_char.list _ _ _ _ e
  exact ⟨String.ext h, h'⟩

theorem prefixFree_bool : PrefixFree encBool := by
  intro a b s t e
  cases a <;> cases b <;> simp_all [encBool]

/-- Encoding of a literal. -/
def Literal.enc : Literal → List Rat
  | .unit => [0]
  | .boolean b => 1 :: encBool b
  | .number q => [2, q]
  | .byteString b => 3 :: encList encByte b
  | .textString s => 4 :: encString s

theorem Literal.prefixFree : PrefixFree Literal.enc := by
  intro a b s t e
  cases a <;> cases b <;> simp [Literal.enc] at e
  · exact ⟨rfl, e⟩
  · obtain ⟨rfl, rfl⟩ := prefixFree_bool _ _ _ _ e; exact ⟨rfl, rfl⟩
  · obtain ⟨h1, h2⟩ := e; exact ⟨by rw [h1], h2⟩
  · obtain ⟨rfl, rfl⟩ := prefixFree_byte.list _ _ _ _ e; exact ⟨rfl, rfl⟩
  · obtain ⟨rfl, rfl⟩ := prefixFree_string _ _ _ _ e; exact ⟨rfl, rfl⟩

mutual
/-- Encoding of a tree. -/
def Value.enc : Value → List Rat
  | .literal l => 0 :: l.enc
  | .map m => 1 :: Value.encMap m
  | .list l => 2 :: Value.encItems l

/-- Encoding of map entries. -/
def Value.encMap : List (Value × Value) → List Rat
  | [] => [0]
  | (k, v) :: m => 1 :: (Value.enc k ++ (Value.enc v ++ Value.encMap m))

/-- Encoding of list items. -/
def Value.encItems : List Value → List Rat
  | [] => [0]
  | v :: l => 1 :: (Value.enc v ++ Value.encItems l)
end

mutual
theorem Value.prefixFree : (a b : Value) → (s t : List Rat) → a.enc ++ s = b.enc ++ t → a = b ∧ s = t
  | .literal a, .literal b, s, t, e => by
    simp only [Value.enc, List.cons_append, List.cons.injEq, true_and] at e
    obtain ⟨rfl, rfl⟩ := Literal.prefixFree _ _ _ _ e
    exact ⟨rfl, rfl⟩
  | .map a, .map b, s, t, e => by
    simp only [Value.enc, List.cons_append, List.cons.injEq, true_and] at e
    obtain ⟨rfl, rfl⟩ := Value.prefixFreeMap a b s t e
    exact ⟨rfl, rfl⟩
  | .list a, .list b, s, t, e => by
    simp only [Value.enc, List.cons_append, List.cons.injEq, true_and] at e
    obtain ⟨rfl, rfl⟩ := Value.prefixFreeItems a b s t e
    exact ⟨rfl, rfl⟩
  | .literal _, .map _, s, t, e => by simp [Value.enc] at e
  | .literal _, .list _, s, t, e => by simp [Value.enc] at e
  | .map _, .literal _, s, t, e => by simp [Value.enc] at e
  | .map _, .list _, s, t, e => by simp [Value.enc] at e
  | .list _, .literal _, s, t, e => by simp [Value.enc] at e
  | .list _, .map _, s, t, e => by simp [Value.enc] at e

theorem Value.prefixFreeMap : (a b : List (Value × Value)) → (s t : List Rat) →
    Value.encMap a ++ s = Value.encMap b ++ t → a = b ∧ s = t
  | [], [], s, t, e => by simpa [Value.encMap] using e
  | [], (_, _) :: _, s, t, e => by simp [Value.encMap] at e
  | (_, _) :: _, [], s, t, e => by simp [Value.encMap] at e
  | (k, v) :: a, (k', v') :: b, s, t, e => by
    simp only [Value.encMap, List.cons_append, List.append_assoc, List.cons.injEq, true_and] at e
    obtain ⟨rfl, e1⟩ := Value.prefixFree k k' _ _ e
    obtain ⟨rfl, e2⟩ := Value.prefixFree v v' _ _ e1
    obtain ⟨rfl, rfl⟩ := Value.prefixFreeMap a b _ _ e2
    exact ⟨rfl, rfl⟩

theorem Value.prefixFreeItems : (a b : List Value) → (s t : List Rat) →
    Value.encItems a ++ s = Value.encItems b ++ t → a = b ∧ s = t
  | [], [], s, t, e => by simpa [Value.encItems] using e
  | [], _ :: _, s, t, e => by simp [Value.encItems] at e
  | _ :: _, [], s, t, e => by simp [Value.encItems] at e
  | v :: a, v' :: b, s, t, e => by
    simp only [Value.encItems, List.cons_append, List.append_assoc, List.cons.injEq, true_and] at e
    obtain ⟨rfl, e1⟩ := Value.prefixFree v v' _ _ e
    obtain ⟨rfl, rfl⟩ := Value.prefixFreeItems a b _ _ e1
    exact ⟨rfl, rfl⟩
end

/-- The derived order on trees. -/
def Value.le (a b : Value) : Bool := lexLe a.enc b.enc

variable {R : Type _}

/-- Encoding of a typed literal, given the encoding of resources. -/
def TypedLiteral.enc (code : R → List Rat) : TypedLiteral R → List Rat
  | .unit v ty => 0 :: (v.enc ++ code ty)
  | .boolean b ty => 1 :: (encBool b ++ code ty)
  | .number q ty => 2 :: q :: code ty
  | .byteString b ty => 3 :: (encList encByte b ++ code ty)
  | .textString s ty => 4 :: (encString s ++ code ty)
  | .id s ty => 5 :: (encString s ++ code ty)

theorem TypedLiteral.prefixFree {code : R → List Rat} (hc : PrefixFree code) :
    PrefixFree (TypedLiteral.enc code) := by
  intro a b s t e
  cases a <;> cases b <;> simp only [TypedLiteral.enc, List.cons_append, List.append_assoc, List.cons.injEq] at e <;>
    first
    | (exfalso; have h := e.1; revert h; decide)
    | skip
  · obtain ⟨rfl, e1⟩ := Value.prefixFree _ _ _ _ e.2
    obtain ⟨rfl, rfl⟩ := hc _ _ _ _ e1
    exact ⟨rfl, rfl⟩
  · obtain ⟨rfl, e1⟩ := prefixFree_bool _ _ _ _ e.2
    obtain ⟨rfl, rfl⟩ := hc _ _ _ _ e1
    exact ⟨rfl, rfl⟩
  · obtain ⟨-, rfl, e1⟩ := e
    obtain ⟨rfl, rfl⟩ := hc _ _ _ _ e1
    exact ⟨rfl, rfl⟩
  · obtain ⟨rfl, e1⟩ := prefixFree_byte.list _ _ _ _ e.2
    obtain ⟨rfl, rfl⟩ := hc _ _ _ _ e1
    exact ⟨rfl, rfl⟩
  · obtain ⟨rfl, e1⟩ := prefixFree_string _ _ _ _ e.2
    obtain ⟨rfl, rfl⟩ := hc _ _ _ _ e1
    exact ⟨rfl, rfl⟩
  · obtain ⟨rfl, e1⟩ := prefixFree_string _ _ _ _ e.2
    obtain ⟨rfl, rfl⟩ := hc _ _ _ _ e1
    exact ⟨rfl, rfl⟩

mutual
/-- Encoding of a typed tree. -/
def TypedValue.enc (code : R → List Rat) : TypedValue R → List Rat
  | .literal l => 0 :: l.enc code
  | .variant v ty i => 1 :: (TypedValue.enc code v ++ (code ty ++ [(i : Rat)]))
  | .map m ty => 2 :: (TypedValue.encMap code m ++ code ty)
  | .list l ty => 3 :: (TypedValue.encItems code l ++ code ty)
  | .always v => 4 :: v.enc

/-- Encoding of the entries of a typed map. -/
def TypedValue.encMap (code : R → List Rat) : List (Value × TypedValue R) → List Rat
  | [] => [0]
  | (k, v) :: m => 1 :: (k.enc ++ (TypedValue.enc code v ++ TypedValue.encMap code m))

/-- Encoding of the items of a typed list. -/
def TypedValue.encItems (code : R → List Rat) : List (TypedValue R) → List Rat
  | [] => [0]
  | v :: l => 1 :: (TypedValue.enc code v ++ TypedValue.encItems code l)
end

section
variable {code : R → List Rat} (hc : PrefixFree code)
include hc
mutual
theorem TypedValue.prefixFree : (a b : TypedValue R) → (s t : List Rat) →
    a.enc code ++ s = b.enc code ++ t → a = b ∧ s = t
  | .literal a, .literal b, s, t, e => by
    simp only [TypedValue.enc, List.cons_append, List.cons.injEq, true_and] at e
    obtain ⟨rfl, rfl⟩ := TypedLiteral.prefixFree hc _ _ _ _ e
    exact ⟨rfl, rfl⟩
  | .variant a ty i, .variant b ty' i', s, t, e => by
    simp only [TypedValue.enc, List.cons_append, List.append_assoc, List.cons.injEq, true_and] at e
    obtain ⟨rfl, e1⟩ := TypedValue.prefixFree a b _ _ e
    obtain ⟨rfl, e2⟩ := hc _ _ _ _ e1
    simp only [List.cons_append, List.nil_append, List.cons.injEq, Rat.natCast_inj] at e2
    obtain ⟨rfl, rfl⟩ := e2
    exact ⟨rfl, rfl⟩
  | .map a ty, .map b ty', s, t, e => by
    simp only [TypedValue.enc, List.cons_append, List.append_assoc, List.cons.injEq, true_and] at e
    obtain ⟨rfl, e1⟩ := TypedValue.prefixFreeMap a b _ _ e
    obtain ⟨rfl, rfl⟩ := hc _ _ _ _ e1
    exact ⟨rfl, rfl⟩
  | .list a ty, .list b ty', s, t, e => by
    simp only [TypedValue.enc, List.cons_append, List.append_assoc, List.cons.injEq, true_and] at e
    obtain ⟨rfl, e1⟩ := TypedValue.prefixFreeItems a b _ _ e
    obtain ⟨rfl, rfl⟩ := hc _ _ _ _ e1
    exact ⟨rfl, rfl⟩
  | .always a, .always b, s, t, e => by
    simp only [TypedValue.enc, List.cons_append, List.cons.injEq, true_and] at e
    obtain ⟨rfl, rfl⟩ := Value.prefixFree _ _ _ _ e
    exact ⟨rfl, rfl⟩
  | .literal _, .variant _ _ _, s, t, e => by simp [TypedValue.enc] at e
  | .literal _, .map _ _, s, t, e => by simp [TypedValue.enc] at e
  | .literal _, .list _ _, s, t, e => by simp [TypedValue.enc] at e
  | .literal _, .always _, s, t, e => by simp [TypedValue.enc] at e
  | .variant _ _ _, .literal _, s, t, e => by simp [TypedValue.enc] at e
  | .variant _ _ _, .map _ _, s, t, e => by simp [TypedValue.enc] at e
  | .variant _ _ _, .list _ _, s, t, e => by simp [TypedValue.enc] at e
  | .variant _ _ _, .always _, s, t, e => by simp [TypedValue.enc] at e
  | .map _ _, .literal _, s, t, e => by simp [TypedValue.enc] at e
  | .map _ _, .variant _ _ _, s, t, e => by simp [TypedValue.enc] at e
  | .map _ _, .list _ _, s, t, e => by simp [TypedValue.enc] at e
  | .map _ _, .always _, s, t, e => by simp [TypedValue.enc] at e
  | .list _ _, .literal _, s, t, e => by simp [TypedValue.enc] at e
  | .list _ _, .variant _ _ _, s, t, e => by simp [TypedValue.enc] at e
  | .list _ _, .map _ _, s, t, e => by simp [TypedValue.enc] at e
  | .list _ _, .always _, s, t, e => by simp [TypedValue.enc] at e
  | .always _, .literal _, s, t, e => by simp [TypedValue.enc] at e
  | .always _, .variant _ _ _, s, t, e => by simp [TypedValue.enc] at e
  | .always _, .map _ _, s, t, e => by simp [TypedValue.enc] at e
  | .always _, .list _ _, s, t, e => by simp [TypedValue.enc] at e

theorem TypedValue.prefixFreeMap : (a b : List (Value × TypedValue R)) → (s t : List Rat) →
    TypedValue.encMap code a ++ s = TypedValue.encMap code b ++ t → a = b ∧ s = t
  | [], [], s, t, e => by simpa [TypedValue.encMap] using e
  | [], (_, _) :: _, s, t, e => by simp [TypedValue.encMap] at e
  | (_, _) :: _, [], s, t, e => by simp [TypedValue.encMap] at e
  | (k, v) :: a, (k', v') :: b, s, t, e => by
    simp only [TypedValue.encMap, List.cons_append, List.append_assoc, List.cons.injEq, true_and] at e
    obtain ⟨rfl, e1⟩ := Value.prefixFree k k' _ _ e
    obtain ⟨rfl, e2⟩ := TypedValue.prefixFree v v' _ _ e1
    obtain ⟨rfl, rfl⟩ := TypedValue.prefixFreeMap a b _ _ e2
    exact ⟨rfl, rfl⟩

theorem TypedValue.prefixFreeItems : (a b : List (TypedValue R)) → (s t : List Rat) →
    TypedValue.encItems code a ++ s = TypedValue.encItems code b ++ t → a = b ∧ s = t
  | [], [], s, t, e => by simpa [TypedValue.encItems] using e
  | [], _ :: _, s, t, e => by simp [TypedValue.encItems] at e
  | _ :: _, [], s, t, e => by simp [TypedValue.encItems] at e
  | v :: a, v' :: b, s, t, e => by
    simp only [TypedValue.encItems, List.cons_append, List.append_assoc, List.cons.injEq, true_and] at e
    obtain ⟨rfl, e1⟩ := TypedValue.prefixFree v v' _ _ e
    obtain ⟨rfl, rfl⟩ := TypedValue.prefixFreeItems a b _ _ e1
    exact ⟨rfl, rfl⟩
end
end

/-- The derived order on typed trees, given the order on resources (through their encoding). -/
def TypedValue.le (code : R → List Rat) (a b : TypedValue R) : Bool := lexLe (a.enc code) (b.enc code)

/-- The derived order is total. -/
theorem TypedValue.le_totalOrder {code : R → List Rat} (hc : PrefixFree code) : TotalOrder (TypedValue.le code) where
  total a b := lexLe_total _ _
  trans a b c := lexLe_trans _ _ _
  antisymm a b h h' := by
    have := lexLe_antisymm _ _ h h'
    exact (TypedValue.prefixFree hc a b [] [] (by rw [this])).1

/-- Natural numbers as resources. -/
def natCode (n : Nat) : List Rat := [(n : Rat)]

theorem prefixFree_natCode : PrefixFree natCode := by
  intro a b s t e
  simpa [natCode, Rat.natCast_inj] using e

end Verif
