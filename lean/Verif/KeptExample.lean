import Verif.KeptSpec
import Verif.ReproduceExample

/-! # A layout with two inputs, introduced variables and a list, used to show that the hypotheses of C85 can be met -/

set_option linter.unusedSimpArgs false

namespace Verif.KeptExample

open DeExample Dehydrate

/-- An offer made by the first input to the second one. The price is that of the item offered, and the steps are a list. -/
def offer : ProductLayout Term :=
  { input := 2, intro := 1,
    fields := [
      (.text "price", { intro := 1, value := val "number" 3, dataset := [q (.var 2) (c "price") (.var 3)], required := true }),
      (.text "steps", { intro := 1, value := val "list" 3, dataset := [q (.var 2) (c "steps") (.var 3)], required := true })],
    dataset := [q (.var 0) (c "offers") (.var 2), q (.var 2) (c "to") (.var 1)] }

/-- The registry. -/
def reg : Registry Term
  | .iri "offer" => some (.product offer)
  | .iri "text" => some (.textString text)
  | .iri "number" => some (.number number)
  | .iri "list" => some (.ordered rdfList)
  | _ => none

/-- The context. -/
def ctx : DeCtx := { reg, isIri := fun _ => true, xsd := Example.xsd }

/-- An offer. -/
def tree : Value := .map [(.text "price", .literal (.number 1)), (.text "steps", .list [.text "a", .text "b"])]

/-- What is written. -/
def quads : List (Quad Term) := [
  ⟨.blank "input0", .iri "offers", .blank "b", none⟩,
  ⟨.blank "b", .iri "to", .blank "input", none⟩,
  ⟨.blank "b", .iri "price", .literal ⟨"1", .any "xsd:decimal"⟩, none⟩,
  ⟨.blank "b", .iri "steps", .blank "bb", none⟩,
  ⟨.blank "bb", .iri "first", .literal ⟨"a", .any "xsd:string"⟩, none⟩,
  ⟨.blank "bb", .iri "rest", .blank "bbb", none⟩,
  ⟨.blank "bbb", .iri "first", .literal ⟨"b", .any "xsd:string"⟩, none⟩,
  ⟨.blank "bbb", .iri "rest", .iri "nil", none⟩]

/-- What is read: other things are said of the same resources. -/
def dataset : List (Quad Term) := quads ++ [
  ⟨.blank "input", .iri "offers", .blank "z", none⟩,
  ⟨.blank "bb", .iri "note", .iri "nil", none⟩]

/-- What is read. -/
def result : TypedValue Term := .map [
  (.text "price", .literal (.number 1 (.iri "number"))),
  (.text "steps", .list [.literal (.textString "a" (.iri "text")), .literal (.textString "b" (.iri "text"))] (.iri "list"))]
  (.iri "offer")

theorem write : dehydrate ctx 4 tree (.iri "offer") opts = .ok (quads, [.blank "input0", .blank "input"]) := by
  decide +kernel

theorem read : Hydrate.hydrate (HyCtx.ofTerms reg Example.xsd ReproduceExample.le dataset) 4 none (.iri "offer")
    [.blank "input0", .blank "input"] = .ok result := by
  decide +kernel

theorem reg_cases {P : Layout Term → Prop} (h1 : P (.product offer)) (h2 : P (.textString text)) (h3 : P (.number number))
    (h4 : P (.ordered rdfList)) : ∀ ref l, reg ref = some l → P l := by
  intro ref l h
  unfold reg at h
  split at h <;> simp only [Option.some.injEq, reduceCtorEq] at h <;> subst h <;> assumption

theorem reg_closed : reg.Closed := by
  unfold Registry.Closed
  refine reg_cases ?_ ?_ ?_ ?_ <;>
    simp [offer, text, number, rdfList, Layout.Closed, ItemLayout.Closed, PatsBelow, patsVars,
      QuadPat.vars, Pattern.vars, ValueFormat.Below, Pattern.Below, q, val, c]

theorem reg_sorted : reg.Sorted := by
  intro ref l h
  have := reg_cases (P := fun l => ∀ p, l = .product p → SortedKeys p.fields)
    (by rintro p ⟨⟩; unfold SortedKeys; decide +kernel) (by simp) (by simp) (by simp) ref _ h
  exact this l rfl

theorem reg_wellTyped : reg.WellTyped := by
  unfold Registry.WellTyped
  refine reg_cases ?_ ?_ ?_ ?_ <;>
    simp [offer, text, number, rdfList, Layout.formats, val, reg, Layout.inputCount]

theorem reg_graph : ∀ ref l, reg ref = some l → ∀ f ∈ l.formats, ∀ p, f.graph ≠ some (some p) := by
  refine reg_cases ?_ ?_ ?_ ?_ <;> simp [offer, text, number, rdfList, Layout.formats, val]

theorem ends {t : Term} (h : reg.EndsLists t) : t = .iri "nil" := by
  obtain ⟨ref, l, hl, ht⟩ := h
  have := reg_cases (P := fun l => ∀ p, l = .ordered p → p.tail = .res (.iri "nil"))
    (by simp) (by simp) (by simp) (by rintro p ⟨⟩; rfl) ref _ hl l rfl
  rw [this] at ht
  injection ht with ht
  exact ht.symm

theorem reg_ends : reg.EndsApart where
  tail ref l h := ⟨.iri "nil", reg_cases (P := fun l => ∀ p, l = .ordered p → p.tail = .res (.iri "nil"))
    (by simp) (by simp) (by simp) (by rintro p ⟨⟩; rfl) ref _ h l rfl⟩
  head ref l h t ht := by
    rw [ends ht]
    exact reg_cases (P := fun l => ∀ p, l = .ordered p → p.head ≠ .res (.iri "nil"))
      (by simp) (by simp) (by simp) (by rintro p ⟨⟩; simp [rdfList]) ref _ h l rfl
  input ref l h f hf t ht := by
    rw [ends ht]
    revert f
    revert h
    revert l
    revert ref
    refine reg_cases ?_ ?_ ?_ ?_ <;> simp [offer, text, number, rdfList, Layout.formats, val]
  rest ref l h := reg_cases (P := fun l => ∀ p, l = .ordered p → .var (p.input + p.intro + 1) ∉ p.node.value.input)
      (by simp) (by simp) (by simp) (by rintro p ⟨⟩; simp [rdfList, val]) ref _ h l rfl

theorem reg_fixed : ∀ ref l, reg ref = some l → l.Fixed := by
  refine reg_cases ?_ ?_ ?_ ?_ <;> simp [offer, Layout.Fixed]

theorem tree_sorted : tree.Sorted := by
  refine .map _ (by unfold SortedKeys; decide +kernel) ?_
  simp only [List.mem_cons, List.not_mem_nil, or_false, forall_eq_or_imp, forall_eq]
  refine ⟨.literal _, .list _ ?_⟩
  simp only [List.mem_cons, List.not_mem_nil, or_false, forall_eq_or_imp, forall_eq]
  exact ⟨.literal _, .literal _⟩

theorem tree_noEmptyList : tree.NoEmptyList := by
  refine .map _ ?_
  simp only [List.mem_cons, List.not_mem_nil, or_false, forall_eq_or_imp, forall_eq]
  refine ⟨.literal _, .list _ (by simp) ?_⟩
  simp only [List.mem_cons, List.not_mem_nil, or_false, forall_eq_or_imp, forall_eq]
  exact ⟨.literal _, .literal _⟩

theorem tree_text {i : String} (h : tree.HasText i) : i = "a" ∨ i = "b" := by
  cases h with
  | map hm h =>
    simp only [List.mem_cons, Prod.mk.injEq, List.not_mem_nil, or_false] at hm
    rcases hm with ⟨-, rfl⟩ | ⟨-, rfl⟩
    · cases h
    · cases h with
      | list hm h =>
        simp only [List.mem_cons, List.not_mem_nil, or_false] at hm
        rcases hm with rfl | rfl
        · cases h; exact .inl rfl
        · cases h; exact .inr rfl

end Verif.KeptExample
