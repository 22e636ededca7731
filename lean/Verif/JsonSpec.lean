import Verif.Json
import Verif.Cbor
import Verif.NumberSpec

/-!
# Specification of the conversions to JSON, Serde and CBOR
-/

namespace Verif

/-- A tree all whose numbers satisfy `P`, in values and keys. -/
inductive Value.AllNumbers (P : Rat → Prop) : Value → Prop
  | unit : AllNumbers P (.literal .unit)
  | boolean (b) : AllNumbers P (.literal (.boolean b))
  | number (n) (h : P n) : AllNumbers P (.literal (.number n))
  | byteString (b) : AllNumbers P (.literal (.byteString b))
  | textString (s) : AllNumbers P (.literal (.textString s))
  | list (l : List Value) (h : ∀ v ∈ l, AllNumbers P v) : AllNumbers P (.list l)
  | map (m : List (Value × Value)) (hk : ∀ e ∈ m, AllNumbers P e.1) (hv : ∀ e ∈ m, AllNumbers P e.2) :
      AllNumbers P (.map m)

/-- A tree that fits in the JSON data model: no byte string, text keys only, and numbers that satisfy `P`. -/
inductive Value.JsonCompatible (P : Rat → Prop) : Value → Prop
  | unit : JsonCompatible P (.literal .unit)
  | boolean (b) : JsonCompatible P (.literal (.boolean b))
  | number (n) (h : P n) : JsonCompatible P (.literal (.number n))
  | textString (s) : JsonCompatible P (.literal (.textString s))
  | list (l : List Value) (h : ∀ v ∈ l, JsonCompatible P v) : JsonCompatible P (.list l)
  | map (m : List (Value × Value)) (hk : ∀ e ∈ m, ∃ s, e.1 = .literal (.textString s))
      (hv : ∀ e ∈ m, JsonCompatible P e.2) : JsonCompatible P (.map m)

/-- The numbers written in a JSON document. -/
inductive Json.Mentions : Json → List Char → Prop
  | here (s) : Mentions (.number s) s
  | array {l j s} : j ∈ l → Mentions j s → Mentions (.array l) s
  | object {m k j s} : (k, j) ∈ m → Mentions j s → Mentions (.object m) s

/-- The entries of a `BTreeMap` in iteration order: strictly increasing keys. -/
def StrictlyIncreasing {α : Type _} (m : List (Value × α)) : Prop :=
  m.Pairwise fun a b => Value.le a.1 b.1 = true ∧ a.1 ≠ b.1

/-- A tree that exists: its maps are the entries of a `BTreeMap`. -/
inductive Value.WF : Value → Prop
  | literal (l) : WF (.literal l)
  | list (l : List Value) (h : ∀ v ∈ l, WF v) : WF (.list l)
  | map (m : List (Value × Value)) (hs : StrictlyIncreasing m) (hk : ∀ e ∈ m, WF e.1) (hv : ∀ e ∈ m, WF e.2) :
      WF (.map m)

/-- The natural number denoted by a sequence of bytes, most significant byte first. -/
def beNat (b : List UInt8) : Nat := b.foldl (fun n d => 256 * n + d.toNat) 0

/-- The integer denoted by a CBOR data item. RFC 8949: major types 0 and 1 (section 3.1), bignums with tags 2 and 3
(section 3.4.3): tag 2 is the unsigned number `n` of the byte string, tag 3 is `-1 - n`. -/
inductive Cbor.DenotesInt {F : Type} : Cbor F → Int → Prop
  | integer (z) (h : -2 ^ 64 ≤ z) (h' : z < 2 ^ 64) : DenotesInt (.integer z) z
  | positive (b) : DenotesInt (.tag 2 (.bytes b)) (beNat b)
  | negative (b) : DenotesInt (.tag 3 (.bytes b)) (-1 - beNat b)

/-- A typed tree in which no unit layout has a constant. -/
inductive TypedValue.NoConstant {R : Type} : TypedValue R → Prop
  | unit (ty) : NoConstant (.literal (.unit (.literal .unit) ty))
  | boolean (b ty) : NoConstant (.literal (.boolean b ty))
  | number (n ty) : NoConstant (.literal (.number n ty))
  | byteString (b ty) : NoConstant (.literal (.byteString b ty))
  | textString (s ty) : NoConstant (.literal (.textString s ty))
  | id (s ty) : NoConstant (.literal (.id s ty))
  | variant (v ty i) (h : NoConstant v) : NoConstant (.variant v ty i)
  | map (m : List (Value × TypedValue R)) (ty) (h : ∀ e ∈ m, NoConstant e.2) : NoConstant (.map m ty)
  | list (l : List (TypedValue R)) (ty) (h : ∀ v ∈ l, NoConstant v) : NoConstant (.list l ty)
  | always (v) : NoConstant (.always v)

/-- `AddTags c c'`: `c'` is `c` with tags added around some of the values, keys of maps excepted. -/
inductive Cbor.AddTags {F : Type} : Cbor F → Cbor F → Prop
  | refl (c) : AddTags c c
  | array {l l' : List (Cbor F)} (h : List.Forall₂ AddTags l l') : AddTags (.array l) (.array l')
  | map {m m' : List (Cbor F × Cbor F)} (hk : m.map Prod.fst = m'.map Prod.fst)
      (hv : List.Forall₂ AddTags (m.map Prod.snd) (m'.map Prod.snd)) : AddTags (.map m) (.map m')
  | tag {c c'} (t) (h : AddTags c c') : AddTags c (.tag t c')

/-- Collecting entries into a map depends on their keys only. -/
def KeyBased {F : Type} (collect : List (Cbor F × Cbor F) → List (Cbor F × Cbor F)) : Prop :=
  ∀ (Q : Cbor F → Cbor F → Prop) (l l' : List (Cbor F × Cbor F)),
    List.Forall₂ (fun a b => a.1 = b.1 ∧ Q a.2 b.2) l l' →
    List.Forall₂ (fun a b => a.1 = b.1 ∧ Q a.2 b.2) (collect l) (collect l')

end Verif
