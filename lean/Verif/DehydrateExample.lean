import Verif.HydrateExample
import Verif.DehydrateSpec

/-! # A concrete registry of layouts over terms, used to show that the hypotheses of the dehydration theorems can be
met -/

namespace Verif.DeExample

open Dehydrate

/-- An IRI. -/
def c (s : String) : Pattern Term := .res (.iri s)

/-- A quad pattern in the default graph. -/
def q (s p o : Pattern Term) : QuadPat Term := ⟨s, p, o, none⟩

/-- A value built by the given layout from the given variable. -/
def val (layout : String) (x : Nat) : ValueFormat Term := ⟨.iri layout, [.var x], none⟩

/-- A person: a type triple, an identifier, a required name, an optional age, and any number of tags. -/
def person : ProductLayout Term :=
  { input := 1, intro := 0,
    fields := [
      (.text "age", { intro := 1, value := val "number" 1, dataset := [q (.var 0) (c "age") (.var 1)], required := false }),
      (.text "id", { intro := 0, value := val "id" 0, dataset := [], required := false }),
      (.text "name", { intro := 1, value := val "text" 1, dataset := [q (.var 0) (c "name") (.var 1)], required := true }),
      (.text "tags", { intro := 0, value := val "tags" 0, dataset := [], required := false })],
    dataset := [q (.var 0) (c "type") (c "Person")] }

/-- A text literal. -/
def text : TextLayout Term :=
  { input := 1, intro := 0, dataset := [], resource := .var 0, datatype := .iri "xsd:string", pattern := none }

/-- A number. -/
def number : DataLayout Term :=
  { input := 1, intro := 0, dataset := [], resource := .var 0, datatype := .iri "xsd:decimal" }

/-- An identifier. -/
def ident : IdLayout Term := { input := 1, intro := 0, dataset := [], resource := .var 0, pattern := none }

/-- The set of tags. -/
def tags : UnorderedLayout Term :=
  { input := 1, intro := 0, dataset := [],
    item := { intro := 1, value := val "text" 1, dataset := [q (.var 0) (c "tag") (.var 1)] } }

/-- An RDF list of texts. -/
def rdfList : OrderedLayout Term :=
  { input := 1, intro := 0, dataset := [], head := .var 0, tail := c "nil",
    node := { intro := 1, value := val "text" 3,
              dataset := [q (.var 1) (c "first") (.var 3), q (.var 1) (c "rest") (.var 2)] } }

/-- A person or a list. -/
def either : SumLayout Term :=
  { input := 1, intro := 0, dataset := [q (.var 0) (c "type") (c "Thing")],
    variants := [
      { name := "person", intro := 0, value := val "person" 0, dataset := [] },
      { name := "list", intro := 1, value := val "list" 0, dataset := [q (.var 0) (c "note") (.var 1)] }] }

/-- The registry. -/
def reg : Registry Term
  | .iri "person" => some (.product person)
  | .iri "text" => some (.textString text)
  | .iri "number" => some (.number number)
  | .iri "id" => some (.id ident)
  | .iri "tags" => some (.unordered tags)
  | .iri "list" => some (.ordered rdfList)
  | .iri "either" => some (.sum either)
  | _ => none

/-- The context. -/
def ctx : DeCtx := { reg, isIri := fun s => s = "http://example.org/alice", xsd := Example.xsd }

/-- Options: inputs and generated names are numbered blank nodes. -/
def opts : DeOptions :=
  { inputCount := none,
    inputTerm := fun i => .blank (if i = 0 then "input0" else "input"),
    generator := fun i => .blank (String.ofList (List.replicate (i + 1) 'b')),
    order := id }

/-- A person. -/
def alice : Value := .map [(.text "age", .literal (.number 1)), (.text "id", .text "http://example.org/alice"),
  (.text "name", .text "Alice"), (.text "tags", .list [.text "a", .text "b"])]

/-- A list. -/
def letters : Value := .list [.text "a", .text "b"]

theorem reg_cases {P : Layout Term → Prop} (h1 : P (.product person)) (h2 : P (.textString text))
    (h3 : P (.number number)) (h4 : P (.id ident)) (h5 : P (.unordered tags)) (h6 : P (.ordered rdfList))
    (h7 : P (.sum either)) : ∀ ref l, reg ref = some l → P l := by
  intro ref l h
  unfold reg at h
  split at h <;> simp only [Option.some.injEq, reduceCtorEq] at h <;> subst h <;> assumption

theorem reg_closed : reg.Closed := by
  unfold Registry.Closed
  refine reg_cases ?_ ?_ ?_ ?_ ?_ ?_ ?_ <;>
    simp [person, text, number, ident, tags, rdfList, either, Layout.Closed, ItemLayout.Closed, PatsBelow, patsVars,
      QuadPat.vars, Pattern.vars, ValueFormat.Below, Pattern.Below, q, val, c]

theorem reg_distinctKeys : reg.DistinctKeys := by
  intro ref l h
  have := reg_cases (P := fun l => ∀ p, l = .product p → (p.fields.map Prod.fst).Nodup)
    (by rintro p ⟨⟩; decide +kernel) (by simp) (by simp) (by simp) (by simp) (by simp) (by simp) ref _ h
  exact this l rfl

theorem reg_wellTyped : reg.WellTyped := by
  unfold Registry.WellTyped
  refine reg_cases ?_ ?_ ?_ ?_ ?_ ?_ ?_ <;>
    simp [person, text, number, ident, tags, rdfList, either, Layout.formats, val, reg, Layout.inputCount]

theorem reg_acyclicSums : reg.AcyclicSums := by
  refine ⟨fun t => if t = .iri "either" then 1 else 0, fun ref l h => ?_⟩
  unfold reg at h
  split at h <;> simp only [Option.some.injEq, reduceCtorEq] at h
  simp only [Layout.sum.injEq] at h
  subst h
  simp [either, val]

theorem ctx_supported : ctx.Supported := by
  unfold DeCtx.Supported
  refine reg_cases ?_ ?_ ?_ ?_ ?_ ?_ ?_ <;>
    simp [person, text, number, ident, tags, rdfList, either, Layout.Supported, ctx, Example.xsd]

theorem alice_printable : alice.Printable Example.xsd := by
  have : ∀ v q, Value.HasNumber v q → (v = alice → q = 1) := by
    intro v q h e
    subst e
    cases h with
    | map hm h =>
      simp only [List.mem_cons, Prod.mk.injEq, List.not_mem_nil, or_false] at hm
      rcases hm with ⟨-, rfl⟩ | ⟨-, rfl⟩ | ⟨-, rfl⟩ | ⟨-, rfl⟩
      · cases h; rfl
      · cases h
      · cases h
      · cases h with
        | list hm h =>
          simp only [List.mem_cons, List.not_mem_nil, or_false] at hm
          rcases hm with rfl | rfl <;> cases h
  intro q h
  rw [this _ _ h rfl]
  exact ⟨"1", rfl⟩

theorem letters_printable : letters.Printable Example.xsd := by
  intro q h
  cases h with
  | list hm h =>
    simp only [List.mem_cons, List.not_mem_nil, or_false] at hm
    rcases hm with rfl | rfl <;> cases h

theorem alice_conforms : UniquelyConforms reg ctx.isIri (.iri "person") alice := by
  refine .product (l := person) _ rfl ?_ ?_ ?_
  · intro k v h
    simp only [List.mem_cons, Prod.mk.injEq, List.not_mem_nil, or_false] at h
    rcases h with ⟨rfl, -⟩ | ⟨rfl, -⟩ | ⟨rfl, -⟩ | ⟨rfl, -⟩ <;> simp [person, Value.text]
  · intro k v f h hf
    simp only [List.mem_cons, Prod.mk.injEq, List.not_mem_nil, or_false] at h
    simp only [person, List.mem_cons, Prod.mk.injEq, List.not_mem_nil, or_false] at hf
    rcases h with ⟨rfl, rfl⟩ | ⟨rfl, rfl⟩ | ⟨rfl, rfl⟩ | ⟨rfl, rfl⟩ <;>
      simp [Value.text] at hf <;> subst hf
    · exact .number (l := number) _ rfl
    · exact .id (l := ident) _ rfl (by simp [ctx])
    · exact .textString (l := text) _ rfl
    · refine .unordered (l := tags) _ rfl ?_
      intro v hv
      simp only [List.mem_cons, List.not_mem_nil, or_false] at hv
      rcases hv with rfl | rfl <;> exact .textString (l := text) _ rfl
  · intro k f hf hr
    simp only [person, List.mem_cons, Prod.mk.injEq, List.not_mem_nil, or_false] at hf
    rcases hf with ⟨rfl, rfl⟩ | ⟨rfl, rfl⟩ | ⟨rfl, rfl⟩ | ⟨rfl, rfl⟩ <;> simp [Value.text] at hr ⊢

theorem person_map (v : Value) (h : Conforms reg ctx.isIri (.iri "person") v) : ∃ m, v = .map m := by
  have hreg : reg (.iri "person") = some (.product person) := rfl
  cases h with
  | product m => exact ⟨m, rfl⟩
  | unit hl => rw [hreg] at hl; simp at hl
  | boolean _ hl => rw [hreg] at hl; simp at hl
  | number _ hl => rw [hreg] at hl; simp at hl
  | byteString _ hl => rw [hreg] at hl; simp at hl
  | textString _ hl => rw [hreg] at hl; simp at hl
  | id _ hl => rw [hreg] at hl; simp at hl
  | unordered _ hl => rw [hreg] at hl; simp at hl
  | ordered _ hl => rw [hreg] at hl; simp at hl
  | sized _ hl => rw [hreg] at hl; simp at hl
  | sum _ _ hl => rw [hreg] at hl; simp at hl
  | always _ hl => rw [hreg] at hl; simp at hl

theorem letters_conforms : UniquelyConforms reg ctx.isIri (.iri "either") letters := by
  refine .sum (l := either) [either.variants[0]] [] either.variants[1] _ rfl rfl ?_ ?_
  · refine .ordered (l := rdfList) _ rfl ?_
    intro v hv
    simp only [List.mem_cons, List.not_mem_nil, or_false] at hv
    rcases hv with rfl | rfl <;> exact .textString (l := text) _ rfl
  · intro x hx h
    simp only [List.append_nil, List.mem_singleton] at hx
    subst hx
    obtain ⟨m, hm⟩ := person_map _ h
    simp [letters] at hm

/-- The dataset of the person. -/
def aliceQuads : List (Quad Term) :=
  let a := Term.iri "http://example.org/alice"
  let s := fun t => Term.literal ⟨t, .any "xsd:string"⟩
  [⟨a, .iri "type", .iri "Person", none⟩, ⟨a, .iri "age", .literal ⟨"1", .any "xsd:decimal"⟩, none⟩,
   ⟨a, .iri "name", s "Alice", none⟩, ⟨a, .iri "tag", s "a", none⟩, ⟨a, .iri "tag", s "b", none⟩]

theorem dehydrate_alice :
    dehydrate ctx 4 alice (.iri "person") opts = .ok (aliceQuads, [.iri "http://example.org/alice"]) := by
  decide +kernel

/-- The dataset of the list. -/
def letterQuads : List (Quad Term) :=
  let s := fun t => Term.literal ⟨t, .any "xsd:string"⟩
  [⟨.blank "input0", .iri "type", .iri "Thing", none⟩,
   ⟨.blank "input0", .iri "first", s "a", none⟩, ⟨.blank "input0", .iri "rest", .blank "b", none⟩,
   ⟨.blank "b", .iri "first", s "b", none⟩, ⟨.blank "b", .iri "rest", .iri "nil", none⟩,
   ⟨.blank "input0", .iri "note", .blank "bb", none⟩]

theorem dehydrate_letters :
    dehydrate ctx 4 letters (.iri "either") opts = .ok (letterQuads, [.blank "input0"]) := by
  decide +kernel

end Verif.DeExample
