import Verif.DeriveSpec
import Verif.DeriveSound
import Verif.DerivePanic
import Verif.HydrateExample
import Verif.RoundTripExample

/-! # Concrete contexts of derived code, used to show that the hypotheses of the theorems can be met -/

namespace Verif.DeriveExample

open Example (q)

/-- Three numbers. -/
def xsd : Xsd where
  boolean := "xsd:boolean"
  isDecimal s := s = xsdIri "unsignedByte"
  parseBoolean s := if s = "true" then some true else if s = "false" then some false else none
  printBoolean b := if b then "true" else "false"
  parseDecimal s := if s = "30" then some 30 else if s = "300" then some 300 else none
  printDecimal q := if q = 30 then some "30" else if q = 300 then some "300" else none

/-- The numbers are integers. -/
def parseInt (s : String) : Option Int := if s = "30" then some 30 else if s = "300" then some 300 else none

/-- A person: a type triple, a required name, an optional age, and any number of tags. -/
def person : Layout Nat := .product
  { input := 1, intro := 0,
    fields := [
      (.text "age", { intro := 1, value := ⟨5, [.var 1], none⟩, dataset := [q (.var 0) (.res 14) (.var 1)], required := false }),
      (.text "name", { intro := 1, value := ⟨1, [.var 1], none⟩, dataset := [q (.var 0) (.res 12) (.var 1)], required := true }),
      (.text "nick", { intro := 1, value := ⟨1, [.var 1], none⟩, dataset := [q (.var 0) (.res 15) (.var 1)], required := false }),
      (.text "tags", { intro := 0, value := ⟨2, [.var 0], none⟩, dataset := [], required := false })],
    dataset := [q (.var 0) (.res 10) (.res 11)] }

/-- A person or a list, told apart by their properties. -/
def either : Layout Nat := .sum
  { input := 1, intro := 0, dataset := [],
    variants := [
      { name := "person", intro := 0, value := ⟨0, [.var 0], none⟩, dataset := [q (.var 0) (.res 10) (.res 11)] },
      { name := "list", intro := 1, value := ⟨3, [.var 0], none⟩, dataset := [q (.var 0) (.res 31) (.var 1)] }] }

/-- The age, an unsigned byte. -/
def age : Layout Nat := .number (plainData 21)

/-- An identifier. -/
def ident : Layout Nat := .id { input := 1, intro := 0, dataset := [], pattern := none, resource := .var 0 }

/-- The layouts, with the given sum. -/
def reg (sum : Layout Nat) : Registry Nat
  | 0 => some person
  | 1 => some Example.text
  | 2 => some Example.tags
  | 3 => some Example.rdfList
  | 4 => some sum
  | 5 => some age
  | 6 => some ident
  | _ => none

/-- The persons `100` and `110` and a list starting at `200`. -/
def ds : List (Quad Nat) :=
  [⟨100, 10, 11, none⟩, ⟨100, 12, 101, none⟩, ⟨100, 13, 102, none⟩, ⟨100, 13, 103, none⟩, ⟨100, 14, 104, none⟩,
   ⟨200, 31, 102, none⟩, ⟨200, 32, 201, none⟩, ⟨201, 31, 103, none⟩, ⟨201, 32, 30, none⟩]

/-- The literals, `104` being the given number. -/
def literalsOf (number : String) : Nat → List RdfLit
  | 101 => [⟨"Alice", .any xsdString⟩]
  | 102 => [⟨"b", .any xsdString⟩]
  | 103 => [⟨"a", .any xsdString⟩]
  | 104 => [⟨number, .any (xsdIri "unsignedByte")⟩]
  | _ => []

/-- The IRIs. -/
def irisOf : Nat → List String
  | 20 => [xsdString]
  | 21 => [xsdIri "unsignedByte"]
  | 100 => ["http://example.org/alice"]
  | _ => []

/-- The context: `known` tells which resources are known, `sum` is the layout `4`, and `number` the age of Alice. -/
def ctxWith (known : Nat → Bool) (sum : Layout Nat) (number : String) : DsCtx Nat where
  reg := reg sum
  prim
    | 1 => some .string
    | 5 => some (.int (xsdIri "unsignedByte") 0 255)
    | 6 => some .id
    | _ => none
  known := known
  irisOf := irisOf
  blankIdsOf
    | 200 => ["_:list"]
    | _ => []
  literalsOf := literalsOf number
  datatypeIri
    | 20 => xsdString
    | 21 => xsdIri "unsignedByte"
    | _ => ""
  fromLiteral ref s :=
    match ref with
    | 1 => some (.textString s 1)
    | 5 => (xsd.parseDecimal s).map fun q => .number q 5
    | _ => none
  parseInt := parseInt
  ds := ds

/-- The context that meets every hypothesis. -/
def ctx : DsCtx Nat := ctxWith (fun _ => true) either "30"

theorem reg_cases {P : Nat → Layout Nat → Prop} (s : Layout Nat) (h1 : P 0 person) (h2 : P 1 Example.text)
    (h3 : P 2 Example.tags) (h4 : P 3 Example.rdfList) (h5 : P 4 s) (h6 : P 5 age) (h7 : P 6 ident) :
    ∀ ref l, reg s ref = some l → P ref l := by
  intro ref l h
  unfold reg at h
  split at h <;> simp only [Option.some.injEq, reduceCtorEq] at h <;> subst h <;> assumption

theorem reg_closed (s : Layout Nat) (hs : s.Closed) : (reg s).Closed := by
  unfold Registry.Closed
  refine reg_cases s ?_ ?_ ?_ ?_ hs ?_ ?_ <;>
    simp [person, Example.text, Example.tags, Example.rdfList, age, ident, plainData, Layout.Closed, ItemLayout.Closed,
      PatsBelow, patsVars, QuadPat.vars, Pattern.vars, ValueFormat.Below, Pattern.Below, q]

theorem either_closed : either.Closed := by
  simp [either, Layout.Closed, PatsBelow, patsVars, QuadPat.vars, Pattern.vars, ValueFormat.Below, Pattern.Below, q]

theorem loose_closed : Example.either.Closed := by
  simp [Example.either, Layout.Closed, PatsBelow, patsVars, QuadPat.vars, Pattern.vars, ValueFormat.Below, Pattern.Below, q]

theorem reg_wellTyped : (reg either).WellTyped := by
  unfold Registry.WellTyped
  refine reg_cases either ?_ ?_ ?_ ?_ ?_ ?_ ?_ <;>
    simp [person, Example.text, Example.tags, Example.rdfList, age, ident, either, plainData, Layout.formats, reg,
      Layout.inputCount]

theorem ds_nodup : ds.Nodup := by decide

theorem laws : DsLaws ctx xsd where
  prim := by
    intro ref p h
    simp only [ctx, ctxWith] at h
    split at h <;> simp only [Option.some.injEq, reduceCtorEq] at h <;> subst h
    · exact ⟨Example.text, rfl, 20, rfl, rfl⟩
    · exact ⟨age, rfl, 21, rfl, rfl⟩
    · exact ⟨ident, rfl, rfl⟩
  datatype := by
    intro ref l d h
    have := reg_cases (P := fun _ l => ∀ d, l.datatype? = some d →
      ctx.irisOf d = [ctx.datatypeIri d] ∧ ctx.datatypeIri d ≠ "http://www.w3.org/1999/02/22-rdf-syntax-ns#langString") either (by simp [person, Layout.datatype?])
      (by rintro d ⟨⟩; exact ⟨rfl, by decide +kernel⟩) (by simp [Example.tags, Layout.datatype?])
      (by simp [Example.rdfList, Layout.datatype?]) (by simp [either, Layout.datatype?])
      (by rintro d ⟨⟩; exact ⟨rfl, by decide +kernel⟩) (by simp [ident, Layout.datatype?]) ref l h
    exact this d
  boolType := by
    intro ref l h
    have := reg_cases (P := fun _ l => ∀ d, l ≠ .boolean d) either (by simp [person]) (by simp [Example.text])
      (by simp [Example.tags]) (by simp [Example.rdfList]) (by simp [either]) (by simp [age]) (by simp [ident]) ref _ h
    exact absurd rfl (this _)
  numType := by
    intro ref l h
    have := reg_cases (P := fun _ l => ∀ d, l = .number d → xsd.isDecimal (ctx.datatypeIri d.datatype) = true) either
      (by simp [person]) (by simp [Example.text])
      (by simp [Example.tags]) (by simp [Example.rdfList]) (by simp [either]) (by rintro d ⟨⟩; decide +kernel)
      (by simp [ident]) ref _ h
    exact this _ rfl
  boolean := by
    intro ref l s lit h
    have := reg_cases (P := fun _ l => ∀ d, l ≠ .boolean d) either (by simp [person]) (by simp [Example.text])
      (by simp [Example.tags]) (by simp [Example.rdfList]) (by simp [either]) (by simp [age]) (by simp [ident]) ref _ h
    exact absurd rfl (this _)
  number := by
    intro ref l s lit h h'
    have := reg_cases (P := fun r l => ∀ d, l = .number d → r = 5) either
      (by simp [person]) (by simp [Example.text])
      (by simp [Example.tags]) (by simp [Example.rdfList]) (by simp [either]) (by simp)
      (by simp [ident]) ref _ h
    have := this _ rfl
    subst this
    simp only [ctx, ctxWith, Option.map_eq_some_iff] at h'
    obtain ⟨q, hq, rfl⟩ := h'
    exact ⟨q, hq, rfl⟩
  bytes := by
    intro ref l s h
    have := reg_cases (P := fun _ l => ∀ d, l ≠ .byteString d) either (by simp [person]) (by simp [Example.text])
      (by simp [Example.tags]) (by simp [Example.rdfList]) (by simp [either]) (by simp [age]) (by simp [ident]) ref _ h
    exact absurd rfl (this _)
  text := by
    intro ref l s lit h h'
    have := reg_cases (P := fun r l => ∀ d, l = .textString d → r = 1) either
      (by simp [person]) (by simp)
      (by simp [Example.tags]) (by simp [Example.rdfList]) (by simp [either]) (by simp [age])
      (by simp [ident]) ref _ h
    have := this _ rfl
    subst this
    simp only [ctx, ctxWith, Option.some.injEq] at h'
    exact h'.symm
  int := by
    intro s z h
    simp only [ctx, ctxWith, parseInt, xsd] at h ⊢
    split at h
    · simp only [Option.some.injEq] at h; subst h; simp [*]
    · split at h
      · simp only [Option.some.injEq] at h; subst h; simp [*]
      · simp at h
  single := by
    intro r
    simp only [ctx, ctxWith, literalsOf]
    split <;> simp

theorem match_prop {σ τ : Subst Nat} {g : Option Nat} {p : Nat} {o : Pattern Nat} {a : Nat}
    (h : IsMatch ds σ (inGraph g [q (.var 0) (.res p) o]) τ) (ha : σ.get 0 = some a) :
    ∃ e ∈ ds, e.s = a ∧ e.p = p := by
  have h0 := h.keeps 0 a ha
  have h1 : ∃ e ∈ ds, (Pattern.var 0 : Pattern Nat).Denotes τ.get e.s ∧ (Pattern.res p : Pattern Nat).Denotes τ.get e.p := by
    cases g with
    | none =>
      obtain ⟨e, he, hd⟩ := h.sat (q (.var 0) (.res p) o) (by simp [inGraph, q])
      exact ⟨e, he, hd.1, hd.2.1⟩
    | some g =>
      obtain ⟨e, he, hd⟩ := h.sat { q (.var 0) (.res p) o with g := some (.res g) } (by simp [inGraph, q])
      exact ⟨e, he, hd.1, hd.2.1⟩
  obtain ⟨e, he, hs, hp⟩ := h1
  simp only [Pattern.Denotes] at hs hp
  rw [h0] at hs
  exact ⟨e, he, by simpa using hs.symm, by first | exact hp | exact hp.symm⟩

theorem total : DsTotal ctx xsd where
  known _ := rfl
  boolean := by
    intro ref l s b h
    have := reg_cases (P := fun _ l => ∀ d, l ≠ .boolean d) either (by simp [person]) (by simp [Example.text])
      (by simp [Example.tags]) (by simp [Example.rdfList]) (by simp [either]) (by simp [age]) (by simp [ident]) ref _ h
    exact absurd rfl (this _)
  text := by
    intro ref l s h
    have := reg_cases (P := fun r l => ∀ d, l = .textString d → r = 1) either
      (by simp [person]) (by simp)
      (by simp [Example.tags]) (by simp [Example.rdfList]) (by simp [either]) (by simp [age])
      (by simp [ident]) ref _ h
    have := this _ rfl
    subst this
    exact ⟨_, rfl⟩
  number := by
    intro ref l h r lit hlit hty q hq
    have := reg_cases (P := fun r l => ∀ d, l = .number d → r = 5 ∧ d = plainData 21) either
      (by simp [person]) (by simp [Example.text])
      (by simp [Example.tags]) (by simp [Example.rdfList]) (by simp [either]) (by simp [age])
      (by simp [ident]) ref _ h
    obtain ⟨rfl, rfl⟩ := this _ rfl
    simp only [ctx, ctxWith, literalsOf] at hlit
    split at hlit <;> simp only [List.mem_singleton, List.not_mem_nil] at hlit
    all_goals first
      | exact absurd hty (by subst hlit; decide +kernel)
      | (subst hlit; exact ⟨30, by decide +kernel, by decide, by decide⟩)
  discriminated := by
    intro ref l h g ins σ τ τ' i j v w hi hu hv hw hm hm'
    have := reg_cases (P := fun r l => ∀ s, l = .sum s → .sum s = either) either
      (by simp [person]) (by simp [Example.text])
      (by simp [Example.tags]) (by simp [Example.rdfList]) (by intro s h; exact h.symm) (by simp [age])
      (by simp [ident]) ref _ h
    have := this _ rfl
    unfold either at this
    injection this with this
    subst this
    obtain ⟨a, rfl⟩ := List.length_eq_one_iff.1 hi
    have ha : σ.get 0 = some a := hu.1.keeps 0 a rfl
    have hget : ∀ k : Nat, Subst.get (σ ++ List.replicate k none) 0 = some a := by
      intro k
      cases σ with
      | nil => simp [Subst.get] at ha
      | cons b σ => exact ha
    have hex : ¬ ((∃ e ∈ ds, e.s = a ∧ e.p = 10) ∧ (∃ e ∈ ds, e.s = a ∧ e.p = 31)) := by
      rintro ⟨⟨e, he, rfl, h1⟩, ⟨e', he', h2, h3⟩⟩
      have : ∀ e ∈ ds, ∀ e' ∈ ds, e'.s = e.s → e.p = 10 → e'.p ≠ 31 := by decide
      exact this e he e' he' h2 h1 h3
    match i, j with
    | 0, 0 => rfl
    | 1, 1 => rfl
    | 0, 1 =>
      simp only [List.getElem?_cons_zero, List.getElem?_cons_succ, Option.some.injEq] at hv hw
      subst hv; subst hw
      exact absurd ⟨match_prop hm (hget _), match_prop hm' (hget _)⟩ hex
    | 1, 0 =>
      simp only [List.getElem?_cons_zero, List.getElem?_cons_succ, Option.some.injEq] at hv hw
      subst hv; subst hw
      exact absurd ⟨match_prop hm' (hget _), match_prop hm (hget _)⟩ hex
    | i + 2, _ => simp at hv
    | 0, j + 2 => simp at hw
    | 1, j + 2 => simp at hw
  noAlways := by
    intro ref h
    have := reg_cases (P := fun _ l => l ≠ .always) either (by simp [person]) (by simp [Example.text])
      (by simp [Example.tags]) (by simp [Example.rdfList]) (by simp [either]) (by simp [age]) (by simp [ident]) ref _ h
    exact this rfl

/-- What is derived for the person. -/
def personTree : TypedValue Nat :=
  .map [(.text "age", .literal (.number 30 5)), (.text "name", .literal (.textString "Alice" 1)),
    (.text "tags", .list [.literal (.textString "b" 1), .literal (.textString "a" 1)] 2)] 0

/-- What is hydrated for the person: the tags are sorted. -/
def personSorted : TypedValue Nat :=
  .map [(.text "age", .literal (.number 30 5)), (.text "name", .literal (.textString "Alice" 1)),
    (.text "tags", .list [.literal (.textString "a" 1), .literal (.textString "b" 1)] 2)] 0

theorem le_total : TotalOrder (TypedValue.le natCode) := TypedValue.le_totalOrder prefixFree_natCode

theorem derived_person : Derived.deserialize ctx 5 none 4 [100] = .ok (.variant personTree 4 0) := by decide +kernel

theorem hydrated_person :
    Hydrate.hydrate (ctx.toHy xsd (TypedValue.le natCode)) 5 none 4 [100] = .ok (.variant personSorted 4 0) := by
  decide +kernel

end Verif.DeriveExample
