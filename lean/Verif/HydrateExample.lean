import Verif.HydrateOk
import Verif.Order

/-! # A concrete registry and dataset, used to show that the hypotheses of the hydration theorems can be met -/

namespace Verif.Example

/-- A small instance of the XSD functions, for examples only. -/
def xsd : Xsd where
  boolean := "xsd:boolean"
  isDecimal s := s = "xsd:decimal"
  parseBoolean s := if s = "true" then some true else if s = "false" then some false else none
  printBoolean b := if b then "true" else "false"
  parseDecimal s := if s = "1" then some 1 else if s = "0" then some 0 else none
  printDecimal q := if q = 1 then some "1" else if q = 0 then some "0" else none

theorem xsd_laws : XsdLaws xsd where
  bool b := by cases b <;> decide
  decimal q s h := by
    simp only [xsd] at h ⊢
    split at h
    · simp only [Option.some.injEq] at h; subst h; simp [*]
    · split at h
      · simp only [Option.some.injEq] at h; subst h; simp [*]
      · simp at h

/-- `var s p o` in the default graph. -/
def q (s p o : Pattern Nat) : QuadPat Nat := ⟨s, p, o, none⟩

/-- A person: a type triple, a required name, and any number of tags. -/
def person : Layout Nat := .product
  { input := 1, intro := 0,
    fields := [
      (.text "name", { intro := 1, value := ⟨1, [.var 1], none⟩, dataset := [q (.var 0) (.res 12) (.var 1)], required := true }),
      (.text "nick", { intro := 1, value := ⟨1, [.var 1], none⟩, dataset := [q (.var 0) (.res 15) (.var 1)], required := false }),
      (.text "tags", { intro := 0, value := ⟨2, [.var 0], none⟩, dataset := [], required := false })],
    dataset := [q (.var 0) (.res 10) (.res 11)] }

/-- A text literal of datatype `20`. -/
def text : Layout Nat := .textString
  { input := 1, intro := 0, dataset := [], resource := .var 0, datatype := 20, pattern := none }

/-- The set of tags. -/
def tags : Layout Nat := .unordered
  { input := 1, intro := 0, dataset := [],
    item := { intro := 1, value := ⟨1, [.var 1], none⟩, dataset := [q (.var 0) (.res 13) (.var 1)] } }

/-- An RDF list of texts. -/
def rdfList : Layout Nat := .ordered
  { input := 1, intro := 0, dataset := [], head := .var 0, tail := .res 30,
    node := { intro := 1, value := ⟨1, [.var 3], none⟩,
              dataset := [q (.var 1) (.res 31) (.var 3), q (.var 1) (.res 32) (.var 2)] } }

/-- A person or a list. -/
def either : Layout Nat := .sum
  { input := 1, intro := 0, dataset := [],
    variants := [
      { name := "person", intro := 0, value := ⟨0, [.var 0], none⟩, dataset := [q (.var 0) (.res 10) (.res 11)] },
      { name := "list", intro := 0, value := ⟨3, [.var 0], none⟩, dataset := [] }] }

/-- The registry: layouts `0` to `4`. -/
def reg : Registry Nat
  | 0 => some person
  | 1 => some text
  | 2 => some tags
  | 3 => some rdfList
  | 4 => some either
  | _ => none

/-- The dataset: a person `100` and a list starting at `200`. -/
def ds : List (Quad Nat) :=
  [⟨100, 10, 11, none⟩, ⟨100, 12, 101, none⟩, ⟨100, 13, 102, none⟩, ⟨100, 13, 103, none⟩,
   ⟨200, 31, 102, none⟩, ⟨200, 32, 201, none⟩, ⟨201, 31, 103, none⟩, ⟨201, 32, 30, none⟩]

/-- The literals. -/
def literalsOf : Nat → List RdfLit
  | 101 => [⟨"Alice", .any "xsd:string"⟩]
  | 102 => [⟨"b", .any "xsd:string"⟩]
  | 103 => [⟨"a", .any "xsd:string"⟩]
  | _ => []

/-- The IRIs. -/
def irisOf : Nat → List String
  | 20 => ["xsd:string"]
  | 100 => ["http://example.org/alice"]
  | _ => []

/-- The context. -/
def ctx : HyCtx Nat := { reg, irisOf, literalsOf, xsd, ds, le := TypedValue.le natCode }

theorem reg_closed : reg.Closed := by
  intro ref l h
  unfold reg at h
  split at h <;> simp only [Option.some.injEq, reduceCtorEq] at h <;> subst h <;>
    simp [person, text, tags, rdfList, either, Layout.Closed, ItemLayout.Closed, PatsBelow, patsVars, QuadPat.vars,
      Pattern.vars, ValueFormat.Below, Pattern.Below, q]

theorem reg_noVariantIntro : reg.NoVariantIntro := by
  intro ref l h
  unfold reg at h
  split at h <;> simp [person, text, tags, rdfList, either] at h
  subst h
  simp

theorem reg_distinctKeys : reg.DistinctKeys := by
  intro ref l h
  unfold reg at h
  split at h <;> simp [person, text, tags, rdfList, either] at h
  subst h
  simp [Value.text]

theorem ds_nodup : ds.Nodup := by decide

theorem le_total : TotalOrder ctx.le := TypedValue.le_totalOrder prefixFree_natCode

/-- The tree of the person. -/
def personTree : TypedValue Nat :=
  .map [(.text "name", .literal (.textString "Alice" 1)),
        (.text "tags", .list [.literal (.textString "a" 1), .literal (.textString "b" 1)] 2)] 0

theorem hydrate_person : Hydrate.hydrate ctx 5 none 0 [100] = .ok personTree := by decide +kernel

theorem hydrate_list : Hydrate.hydrate ctx 5 none 3 [200] =
    .ok (.list [.literal (.textString "b" 1), .literal (.textString "a" 1)] 3) := by decide +kernel

theorem hydrate_sum : Hydrate.hydrate ctx 5 none 4 [200] =
    .ok (.variant (.list [.literal (.textString "b" 1), .literal (.textString "a" 1)] 3) 4 1) := by decide +kernel

end Verif.Example
