import Verif.DeErrorSites
import Verif.Props.Dehydrate

/-!
# Property C94: what an error of dehydration says is true of the tree

What each error says (`DeFails`) and which trees are accepted (`DeAccepts`) are in `Verif/DeErrorSpec.lean`.
-/

set_option linter.unusedSectionVars false

namespace Verif.Props

open Verif.Dehydrate

/-- Where dehydration begins: the layout it is given, with the number of inputs it expects, or else the one of the options. -/
def startPlace (c : DeCtx) (v : Value) (ref : Term) (o : DeOptions) : DePlace :=
  ⟨ref, match c.reg ref with
    | some l => l.inputCount.getD (o.inputCount.getD 1)
    | none => o.inputCount.getD 1, v⟩

/-- **C94** (errors are true). When dehydration returns an error, what the error says is true of the tree, or of one of its components;
or the error is that different terms were assigned to a resource, which is true of the resources, and the tree is accepted. -/
theorem C94_error_true (c : DeCtx) (hd : c.reg.DistinctKeys) (hc : c.reg.Closed) (n : Nat) (v : Value) (ref : Term) (o : DeOptions)
    (e : DeError) (h : dehydrate c n v ref o = .err e) :
    DeFails c (startPlace c v ref o) e ∨
    e = .termAmbiguity ∧ DeAccepts c (startPlace c v ref o) ∧ ∃ count s,
      dehydrateWith c n v none ref ((List.range count).map .input) ⟨[], [], 0⟩ = (.ok (), s) ∧ Conflict s := by
  unfold dehydrate at h
  unfold startPlace
  cases hl : c.reg ref with
  | none =>
    rw [hl] at h
    cases h
    exact .inl (.notFound hl)
  | some l =>
    rw [hl] at h
    simp only at h
    have ht := truthful c hd hc n ⟨ref, l.inputCount.getD (o.inputCount.getD 1), v⟩ none
      ((List.range (l.inputCount.getD (o.inputCount.getD 1))).map .input) ⟨[], [], 0⟩ (by simp)
    split at h
    · rename_i s hr
      split at h
      · rename_i hamb
        cases h
        exact .inr ⟨rfl, ht.1 _ hr, _, s, hr, (ambiguous_iff s).1 hamb⟩
      · cases h
    · rename_i hr
      cases h
      exact .inl (ht.2 _ _ hr)
    · cases h
    · cases h

/-- **C94** (what succeeds is accepted). -/
theorem C94_success_accepted (c : DeCtx) (hd : c.reg.DistinctKeys) (hc : c.reg.Closed) (n : Nat) (v : Value) (ref : Term) (o : DeOptions)
    (r : List (Quad Term) × List Term) (h : dehydrate c n v ref o = .ok r) : DeAccepts c (startPlace c v ref o) := by
  unfold dehydrate at h
  unfold startPlace
  cases hl : c.reg ref with
  | none =>
    rw [hl] at h
    cases h
  | some l =>
    rw [hl] at h
    simp only at h
    have ht := truthful c hd hc n ⟨ref, l.inputCount.getD (o.inputCount.getD 1), v⟩ none
      ((List.range (l.inputCount.getD (o.inputCount.getD 1))).map .input) ⟨[], [], 0⟩ (by simp)
    split at h
    · rename_i s hr
      exact ht.1 _ hr
    · cases h
    · cases h
    · cases h

/-- **C94** (no contradiction). What an error says is not true of a tree that is accepted. -/
theorem C94_exclusive (c : DeCtx) (p : DePlace) (h : DeAccepts c p) (e : DeError) : ¬ DeFails c p e := h.not_fails e

/-- **C94** (what errors say prevents dehydration). If what some error says is true of the tree, or of one of its components, nothing is
written. -/
theorem C94_causes_prevent (c : DeCtx) (hd : c.reg.DistinctKeys) (hc : c.reg.Closed) (n : Nat) (v : Value) (ref : Term) (o : DeOptions)
    (e : DeError) (hf : DeFails c (startPlace c v ref o) e) (r : List (Quad Term) × List Term) : dehydrate c n v ref o ≠ .ok r :=
  fun h => hf.not_accepts (C94_success_accepted c hd hc n v ref o r h)

/-- **C94** (which trees are accepted). If sums are not cyclic and the literals are implemented, then the trees that are accepted are
exactly those on which dehydration into a dataset succeeds, for any state, any graph and any inputs, with a sufficient bound. -/
theorem C94_accepted_iff (c : DeCtx) (hd : c.reg.DistinctKeys) (hc : c.reg.Closed) (ha : c.reg.AcyclicSums) (hs : c.Supported)
    (p : DePlace) (hp : p.value.Printable c.xsd) :
    DeAccepts c p ↔ ∃ N, ∀ n, N ≤ n → ∀ (g : Option IRes) (ins : List IRes) (s : DeState), ins.length = p.inputs →
      ∃ s', dehydrateWith c n p.value g p.layout ins s = (.ok (), s') := by
  constructor
  · intro hacc
    obtain ⟨N, hN⟩ := dehydrateWith_terminates c ha p.value p.layout
    refine ⟨N, fun n hn g ins s hi => ?_⟩
    have h1 := hN n hn g ins s
    have h3 := dehydrateWith_ne_panic c hc hs n p.value hp g p.layout ins s
    rcases h : dehydrateWith c n p.value g p.layout ins s with ⟨a | e | _ | _, s'⟩ <;> rw [h] at h1 h3
    · exact ⟨s', rfl⟩
    · exact absurd ((truthful c hd hc n p g ins s hi).2 e s' h) (hacc.not_fails e)
    · exact absurd trivial h3
    · exact absurd rfl h1
  · rintro ⟨N, hN⟩
    obtain ⟨s', h⟩ := hN N (Nat.le_refl N) none (List.replicate p.inputs (.input 0)) ⟨[], [], 0⟩ (by simp)
    exact (truthful c hd hc N p none _ _ (by simp)).1 s' h

/-- **C94** (each tree is accepted, or there is something to say against it). -/
theorem C94_dichotomy (c : DeCtx) (hd : c.reg.DistinctKeys) (hc : c.reg.Closed) (ha : c.reg.AcyclicSums) (hs : c.Supported)
    (p : DePlace) (hp : p.value.Printable c.xsd) : DeAccepts c p ∨ ∃ e, DeFails c p e := by
  obtain ⟨N, hN⟩ := dehydrateWith_terminates c ha p.value p.layout
  let ins : List IRes := List.replicate p.inputs (.input 0)
  have h1 := hN N (Nat.le_refl N) none ins ⟨[], [], 0⟩
  have h3 := dehydrateWith_ne_panic c hc hs N p.value hp none p.layout ins ⟨[], [], 0⟩
  have ht := truthful c hd hc N p none ins ⟨[], [], 0⟩ (by simp [ins])
  rcases h : dehydrateWith c N p.value none p.layout ins ⟨[], [], 0⟩ with ⟨a | e | _ | _, s'⟩ <;> rw [h] at h1 h3
  · exact .inl (ht.1 s' h)
  · exact .inr ⟨e, ht.2 e s' h⟩
  · exact absurd trivial h3
  · exact absurd rfl h1

/-- **C94** (the shape). A tree that is accepted conforms to its layout. -/
theorem C94_accepted_conforms (c : DeCtx) (p : DePlace) (h : DeAccepts c p) : Conforms c.reg c.isIri p.layout p.value :=
  h.conforms

namespace DeErrorWitness

open DeExample

/-- A person without name. -/
def nameless : Value := .map [(.text "age", .literal (.number 1))]

/-- A person with a shoe size. -/
def shoe : Value := .map [(.text "name", .text "Alice"), (.text "shoe", .literal (.number 42))]

/-- A list of numbers, as a person or a list. -/
def numbers : Value := .list [.literal (.number 1)]

/-- A text, or an identifier: an IRI is both. -/
def both : SumLayout Term :=
  { input := 1, intro := 0, dataset := [],
    variants := [
      { name := "a", intro := 0, value := val "text" 0, dataset := [] },
      { name := "b", intro := 0, value := val "id" 0, dataset := [] }] }

/-- A record with a field in `both`, one with too many inputs, and one the layout of which is not defined. -/
def boxed : ProductLayout Term :=
  { input := 1, intro := 0, dataset := [],
    fields := [
      (.text "count", { intro := 1, value := ⟨.iri "text", [.var 0, .var 1], none⟩, dataset := [], required := false }),
      (.text "in", { intro := 1, value := val "both" 1, dataset := [], required := false }),
      (.text "lost", { intro := 1, value := val "lost" 1, dataset := [], required := false })] }

/-- These layouts. -/
def boxReg : Registry Term
  | .iri "box" => some (.product boxed)
  | .iri "both" => some (.sum both)
  | .iri "text" => some (.textString text)
  | .iri "id" => some (.id ident)
  | _ => none

def boxCtx : DeCtx := { ctx with reg := boxReg }

theorem boxReg_cases {P : Layout Term → Prop} (h1 : P (.product boxed)) (h2 : P (.sum both)) (h3 : P (.textString text))
    (h4 : P (.id ident)) : ∀ ref l, boxReg ref = some l → P l := by
  intro ref l h
  unfold boxReg at h
  split at h <;> simp only [Option.some.injEq, reduceCtorEq] at h <;> subst h <;> assumption

theorem boxReg_closed : boxReg.Closed := by
  refine boxReg_cases ?_ ?_ ?_ ?_ <;>
    simp [Layout.Closed, boxed, both, text, DeExample.ident, PatsBelow, patsVars, ValueFormat.Below, Pattern.Below, Pattern.vars, val]

theorem boxReg_distinctKeys : boxReg.DistinctKeys := by
  intro ref l h
  have := boxReg_cases (P := fun l => ∀ l', l = .product l' → (l'.fields.map Prod.fst).Nodup)
    (by rintro _ ⟨⟩; decide) (by simp) (by simp) (by simp) ref _ h
  exact this l rfl

/-- An IRI in a box. -/
def boxedIri : Value := .map [(.text "in", .text "http://example.org/alice")]

end DeErrorWitness

open DeExample DeErrorWitness

example := C94_error_true ctx reg_distinctKeys reg_closed 5 nameless (.iri "person") opts
  (.missingRequiredKey (.iri "person") (.text "name") [(.text "age", .literal (.number 1))]) (by decide +kernel)
example := C94_error_true ctx reg_distinctKeys reg_closed 5 shoe (.iri "person") opts .incompatibleLayout (by decide +kernel)
example := C94_error_true ctx reg_distinctKeys reg_closed 5 numbers (.iri "either") opts .incompatibleLayout (by decide +kernel)
example := C94_error_true ctx reg_distinctKeys reg_closed 5 numbers (.iri "nothing") opts (.layoutNotFound (.iri "nothing"))
  (by decide +kernel)

-- the errors come from components
example := C94_error_true boxCtx boxReg_distinctKeys boxReg_closed 5 boxedIri (.iri "box") opts .dataAmbiguity (by decide +kernel)
example := C94_error_true boxCtx boxReg_distinctKeys boxReg_closed 5 (.map [(.text "lost", .text "a")]) (.iri "box") opts
  (.layoutNotFound (.iri "lost")) (by decide +kernel)
example := C94_error_true boxCtx boxReg_distinctKeys boxReg_closed 5 (.map [(.text "count", .text "a")]) (.iri "box") opts
  (.invalidInputCount 1 2) (by decide +kernel)

-- a text that is not an IRI is accepted by one of the variants only
example := C94_success_accepted boxCtx boxReg_distinctKeys boxReg_closed 5 (.map [(.text "in", .text "a")]) (.iri "box") opts
  ([], [.blank "input0"]) (by decide +kernel)

example := C94_success_accepted ctx reg_distinctKeys reg_closed 4 _ _ _ _ dehydrate_alice
example := C94_exclusive ctx _ (C94_success_accepted ctx reg_distinctKeys reg_closed 4 _ _ _ _ dehydrate_alice)
example := C94_accepted_conforms ctx _ (C94_success_accepted ctx reg_distinctKeys reg_closed 4 _ _ _ _ dehydrate_alice)
example := (C94_accepted_iff ctx reg_distinctKeys reg_closed reg_acyclicSums ctx_supported (startPlace ctx alice (.iri "person") opts)
  alice_printable).1 (C94_success_accepted ctx reg_distinctKeys reg_closed 4 _ _ _ _ dehydrate_alice)
example := C94_dichotomy ctx reg_distinctKeys reg_closed reg_acyclicSums ctx_supported (startPlace ctx alice (.iri "person") opts)
  alice_printable

-- what an error says prevents dehydration with any bound
example : ∀ n r, dehydrate ctx n nameless (.iri "person") opts ≠ .ok r := by
  rcases C94_error_true ctx reg_distinctKeys reg_closed 5 nameless (.iri "person") opts
    (.missingRequiredKey (.iri "person") (.text "name") [(.text "age", .literal (.number 1))]) (by decide +kernel) with h | ⟨h, -⟩
  · exact fun n r => C94_causes_prevent ctx reg_distinctKeys reg_closed n nameless (.iri "person") opts _ h r
  · cases h

end Verif.Props
