import Verif.RustAttrs

/-!
# C44: Rust types generated from layouts

The specification: what the generator and the derive macros of a layout should agree on. References to other layouts are replaced
by references to Rust types, so two layouts are compared up to these (`withRefs`), and the types are those of the layouts referred
to.
-/

set_option linter.unusedSectionVars false
set_option linter.unusedSimpArgs false

namespace Verif.Props

open Verif.Rust

variable {R : Type} [DecidableEq R]

/-- The value with another reference. -/
def ValueFormat.withRef (d : R) (v : ValueFormat R) : ValueFormat R := { v with layout := d }

/-- The item with another reference. -/
def ItemLayout.withRef (d : R) (i : ItemLayout R) : ItemLayout R := { i with value := ValueFormat.withRef d i.value }

/-- The layout, with every reference replaced by `d`. -/
def withRefs (d : R) : Layout R → Layout R
  | .product l =>
    .product { l with fields := l.fields.map fun e => (e.1, { e.2 with value := ValueFormat.withRef d e.2.value }) }
  | .sum l => .sum { l with variants := l.variants.map fun v => { v with value := ValueFormat.withRef d v.value } }
  | .unordered l => .unordered { l with item := ItemLayout.withRef d l.item }
  | .ordered l => .ordered { l with node := ItemLayout.withRef d l.node }
  | .sized l => .sized { l with items := l.items.map (ItemLayout.withRef d) }
  | l => l

/-- The datasets and maps of the layout are in strictly increasing order, as `BTreeDataset` and `BTreeMap` are. -/
def InOrder (c : BuildCtx R) : Layout R → Prop
  | .unit l => SortedDs c l.dataset
  | .boolean l => SortedDs c l.dataset
  | .number l => SortedDs c l.dataset
  | .byteString l => SortedDs c l.dataset
  | .textString l => SortedDs c l.dataset
  | .id l => SortedDs c l.dataset
  | .product l => SortedDs c l.dataset ∧ (∀ e ∈ l.fields, SortedDs c e.2.dataset) ∧
      (l.fields.map (·.1)).Pairwise fun a b => Value.le a b = true ∧ a ≠ b
  | .sum l => SortedDs c l.dataset ∧ (∀ v ∈ l.variants, SortedDs c v.dataset) ∧
      (l.variants.map (·.name)).Pairwise fun a b => strLe a b = true ∧ a ≠ b
  | .unordered l => SortedDs c l.dataset ∧ SortedDs c l.item.dataset
  | .ordered l => SortedDs c l.dataset ∧ SortedDs c l.node.dataset
  | .sized l => SortedDs c l.dataset ∧ ∀ i ∈ l.items, SortedDs c i.dataset
  | .never => True
  | .always => True

/-- Fields and variants have names that Rust identifiers can have; literal layouts have an input. -/
def RustNames (g : GenCtx R) : Layout R → Prop
  | .product l => ∀ e ∈ l.fields, ∃ name, e.1 = .text name ∧ g.parseIdent name = some name
  | .sum l => ∀ v ∈ l.variants, g.parseIdent v.name = some v.name
  | .unit l => 1 ≤ l.input
  | .boolean l => 1 ≤ l.input
  | .number l => 1 ≤ l.input
  | .byteString l => 1 ≤ l.input
  | .textString l => 1 ≤ l.input
  | .id l => 1 ≤ l.input
  | _ => True

/-- The layouts that survive: constants other than unit, patterns and resources of identifiers, and optional fields do not, nor do
sets and literals. -/
def Expressible : Layout R → Prop
  | .unit l => l.const = .unit
  | .id l => l.pattern = none ∧ l.resource = .var 0
  | .product l => ∀ e ∈ l.fields, e.2.required = true
  | .sum _ => True
  | .ordered _ => True
  | .sized _ => True
  | _ => False

theorem patsBelow_mono {m n : Nat} (h : m ≤ n) {ds : List (QuadPat R)} (hb : PatsBelow m ds) : PatsBelow n ds :=
  fun x hx => Nat.lt_of_lt_of_le (hb x hx) h

theorem fieldsWith_refs (c : BuildCtx R) (d : R) (k : Nat) (fs : List (Value × Field R)) :
    (fieldsWith c k fs).map (fun e => (e.1, { e.2 with value := ValueFormat.withRef d e.2.value })) =
      fs.map fun e => (e.1, { e.2 with value := ValueFormat.withRef d e.2.value, required := true }) := by
  induction fs generalizing k with
  | nil => rfl
  | cons e fs ih => simp only [fieldsWith, List.map_cons, ih]; rfl

theorem variantsWith_refs (c : BuildCtx R) (d : R) (k : Nat) (vs : List (Variant R)) :
    (variantsWith c k vs).map (fun v => { v with value := ValueFormat.withRef d v.value }) =
      vs.map fun v => { v with value := ValueFormat.withRef d v.value } := by
  induction vs generalizing k with
  | nil => rfl
  | cons e fs ih => simp only [variantsWith, List.map_cons, ih]; rfl

theorem itemsWith_refs (c : BuildCtx R) (d : R) (k : Nat) (is : List (ItemLayout R)) :
    (itemsWith c k is).map (ItemLayout.withRef d) = is.map (ItemLayout.withRef d) := by
  induction is generalizing k with
  | nil => rfl
  | cons e fs ih => simp [itemsWith, ih, ItemLayout.withRef, ValueFormat.withRef, withType]

theorem fieldsWith_deps (c : BuildCtx R) (k : Nat) (fs : List (Value × Field R)) :
    (fieldsWith c k fs).map (fun f => f.2.value.layout) = (List.range' k fs.length).map fun i => c.iri (typeIri i) := by
  induction fs generalizing k with
  | nil => rfl
  | cons e fs ih => simp [fieldsWith, ih, withType, List.range'_succ]

theorem variantsWith_deps (c : BuildCtx R) (k : Nat) (vs : List (Variant R)) :
    (variantsWith c k vs).map (fun v => v.value.layout) = (List.range' k vs.length).map fun i => c.iri (typeIri i) := by
  induction vs generalizing k with
  | nil => rfl
  | cons e fs ih => simp [variantsWith, ih, withType, List.range'_succ]

theorem itemsWith_deps (c : BuildCtx R) (k : Nat) (is : List (ItemLayout R)) :
    (itemsWith c k is).map (fun i => i.value.layout) = (List.range' k is.length).map fun i => c.iri (typeIri i) := by
  induction is generalizing k with
  | nil => rfl
  | cons e fs ih => simp [itemsWith, ih, withType, List.range'_succ]

section

variable {c : BuildCtx R} {g : GenCtx R} (F : Faithful c g) (ht : TotalOrder c.leQ)
include F ht

/-- **C44**, as far as it holds. When the generator accepts an expressible layout, the derive macros read the very same layout
from the generated type, up to references: inputs, introduced variables and their numbering, datasets, keys, the inputs and graph
of each value, requiredness, heads and tails. The `i`-th reference becomes the identifier of the `i`-th type, which is the type of
the layout it referred to. -/
theorem C44_partial (reg : Registry R) (r : R) (l : Layout R) (item : RItem) (hr : reg r = some l)
    (hg : generate g reg r = .ok (.item item)) (hc : l.Closed) (ho : InOrder c l) (hn : RustNames g l) (he : Expressible l)
    (debug : Bool) (fuel : Nat) (d : R) :
    ∃ l' types, derive c.lib c debug fuel item = .ok (l', types) ∧ withRefs d l' = withRefs d l ∧
      l'.visitDependencies = (List.range types.length).map (fun i => c.iri (typeIri i)) ∧
      List.Forall₂ (fun r t => layoutRef g r = .ok t) l.visitDependencies types := by
  cases l with
  | unit l =>
    refine ⟨_, _, derived_unit F ht hr hg (patsBelow_mono (Nat.add_le_add_right hn _) hc) ho debug fuel, ?_, rfl, .nil⟩
    simp only [Expressible] at he
    simp only [withRefs, Layout.unit.injEq]
    rw [← he]
  | id l =>
    refine ⟨_, _, derived_id F ht hr hg (patsBelow_mono (Nat.add_le_add_right hn _) hc.1) ho hn debug fuel, ?_, rfl, .nil⟩
    simp only [Expressible] at he
    simp only [withRefs, Layout.id.injEq]
    rw [← he.1, ← he.2]
  | product l =>
    obtain ⟨types, h1, h2⟩ := derived_product F ht hr hg hc ho.1 ho.2.1 ho.2.2 hn debug fuel
    refine ⟨_, types, h1, ?_, ?_, List.forall₂_map_left_iff.2 h2⟩
    · simp only [withRefs, fieldsWith_refs]
      congr 2
      refine List.map_congr_left fun e hm => ?_
      rw [← he e hm]
    · simp only [Layout.visitDependencies, fieldsWith_deps, h2.length_eq, List.range_eq_range']
  | sum l =>
    obtain ⟨types, h1, h2⟩ := derived_sum F ht hr hg hc ho.1 ho.2.1 ho.2.2 hn debug fuel
    refine ⟨_, types, h1, ?_, ?_, List.forall₂_map_left_iff.2 h2⟩
    · simp only [withRefs, variantsWith_refs]
    · simp only [Layout.visitDependencies, variantsWith_deps, h2.length_eq, List.range_eq_range']
  | ordered l =>
    obtain ⟨t, h1, h2⟩ := derived_ordered F ht hr hg hc ho.1 ho.2 debug fuel
    exact ⟨_, [t], h1, rfl, rfl, .cons h2 .nil⟩
  | sized l =>
    obtain ⟨types, h1, h2⟩ := derived_sized F ht hr hg hc ho.1 ho.2 debug fuel
    refine ⟨_, types, h1, ?_, ?_, List.forall₂_map_left_iff.2 h2⟩
    · simp only [withRefs, itemsWith_refs]
    · simp only [Layout.visitDependencies, itemsWith_deps, h2.length_eq, List.range_eq_range']
  | _ => exact he.elim

/-- **C44** is false of any other layout: the derive macros read another layout, or none. -/
theorem C44_violated (reg : Registry R) (r : R) (l : Layout R) (item : RItem) (hr : reg r = some l)
    (hg : generate g reg r = .ok (.item item)) (hc : l.Closed) (ho : InOrder c l) (hn : RustNames g l) (he : ¬ Expressible l)
    (debug : Bool) (fuel : Nat) (d : R) (l' : Layout R) (types : List RType)
    (h : derive c.lib c debug fuel item = .ok (l', types)) : withRefs d l' ≠ withRefs d l := by
  intro e
  have data : ∀ {input intro : Nat} {ds : List (QuadPat R)} {t : RType} {ident : String},
      literalItem g ident [] input intro ds (.unnamed [([], t)]) = .ok (.item item) → PatsBelow (1 + intro) ds → SortedDs c ds →
      1 ≤ input → ∃ s, l' = .sized s := by
    intro input intro ds t ident h1 h2 h3 h4
    rw [derived_data F ht h1 (patsBelow_mono (Nat.add_le_add_right h4 _) h2) h3] at h
    injection h with h
    injection h with h _
    exact ⟨_, h.symm⟩
  cases l with
  | unit l =>
    rw [derived_unit F ht hr hg (patsBelow_mono (Nat.add_le_add_right hn _) hc) ho] at h
    injection h with h
    injection h with h _
    subst h
    simp only [withRefs, Layout.unit.injEq] at e
    exact he (congrArg UnitLayout.const e).symm
  | id l =>
    rw [derived_id F ht hr hg (patsBelow_mono (Nat.add_le_add_right hn _) hc.1) ho hn] at h
    injection h with h
    injection h with h _
    subst h
    simp only [withRefs, Layout.id.injEq] at e
    exact he ⟨(congrArg IdLayout.pattern e).symm, (congrArg IdLayout.resource e).symm⟩
  | product l =>
    obtain ⟨types', h1, -⟩ := derived_product F ht hr hg hc ho.1 ho.2.1 ho.2.2 hn debug fuel
    rw [h1] at h
    injection h with h
    injection h with h _
    subst h
    simp only [withRefs, fieldsWith_refs, Layout.product.injEq] at e
    have e := congrArg ProductLayout.fields e
    simp only [List.map_inj_left, Prod.mk.injEq, true_and] at e
    exact he fun f hf => (congrArg Field.required (e f hf)).symm
  | unordered l =>
    rw [derived_unordered F ht hr hg] at h
    simp at h
  | boolean l =>
    simp only [generate, hr, Out.bind_eq_ok] at hg
    obtain ⟨ident, -, hg⟩ := hg
    obtain ⟨s, rfl⟩ := data hg hc.1 ho hn
    simp [withRefs] at e
  | number l =>
    simp only [generate, hr, Out.bind_eq_ok] at hg
    obtain ⟨ident, -, hg⟩ := hg
    obtain ⟨s, rfl⟩ := data hg hc.1 ho hn
    simp [withRefs] at e
  | byteString l =>
    simp only [generate, hr, Out.bind_eq_ok] at hg
    obtain ⟨ident, -, hg⟩ := hg
    obtain ⟨s, rfl⟩ := data hg hc.1 ho hn
    simp [withRefs] at e
  | textString l =>
    simp only [generate, hr, Out.bind_eq_ok] at hg
    obtain ⟨ident, -, hg⟩ := hg
    obtain ⟨s, rfl⟩ := data hg hc.1 ho hn
    simp [withRefs] at e
  | never =>
    simp only [generate, hr, Out.bind_eq_ok, Out.ok.injEq] at hg
    obtain ⟨ident, -, hg⟩ := hg
    cases hg
  | always =>
    simp only [generate, hr, Out.bind_eq_ok, Out.ok.injEq] at hg
    obtain ⟨ident, -, hg⟩ := hg
    cases hg
  | _ => exact he trivial

end

/-! ## Examples -/

namespace RsExample

/-- The lexicographic order of pairs. -/
def lexLe {α β : Type} [DecidableEq α] (la : α → α → Bool) (lb : β → β → Bool) (x y : α × β) : Bool :=
  if x.1 = y.1 then lb x.2 y.2 else la x.1 y.1

theorem lexLe_total {α β : Type} [DecidableEq α] {la : α → α → Bool} {lb : β → β → Bool} (ha : TotalOrder la)
    (hb : TotalOrder lb) : TotalOrder (lexLe la lb) where
  total x y := by
    by_cases h : x.1 = y.1
    · simpa [lexLe, h] using hb.total x.2 y.2
    · have h' : ¬ y.1 = x.1 := fun e => h e.symm
      simpa [lexLe, h, h'] using ha.total x.1 y.1
  trans x y z := by
    by_cases h : x.1 = y.1
    · by_cases h' : y.1 = z.1
      · simpa [lexLe, h, h'] using hb.trans x.2 y.2 z.2
      · simp [lexLe, h, h']
    · by_cases h' : y.1 = z.1
      · have h2 : ¬ x.1 = z.1 := fun e => h (e.trans h'.symm)
        simp only [lexLe, h, h', h2, if_false, if_true]
        exact fun h _ => h
      · simp only [lexLe, h, h', if_false]
        intro h1 h2
        by_cases h3 : x.1 = z.1
        · exact absurd (ha.antisymm _ _ h1 (h3 ▸ h2)) h
        · rw [if_neg h3]
          exact ha.trans _ _ _ h1 h2
  antisymm x y := by
    by_cases h : x.1 = y.1
    · simp only [lexLe, h, if_true]
      exact fun h1 h2 => Prod.ext h (hb.antisymm _ _ h1 h2)
    · have h' : ¬ y.1 = x.1 := fun e => h e.symm
      simp only [lexLe, h, h', if_false]
      exact fun h1 h2 => absurd (ha.antisymm _ _ h1 h2) h

theorem comap_total {α β : Type} {le : β → β → Bool} (h : TotalOrder le) (f : α → β) (hf : ∀ a b, f a = f b → a = b) :
    TotalOrder fun a b => le (f a) (f b) where
  total a b := h.total _ _
  trans a b c := h.trans _ _ _
  antisymm a b h1 h2 := hf _ _ (h.antisymm _ _ h1 h2)

theorem natLe_total : TotalOrder fun a b : Nat => decide (a ≤ b) where
  total a b := by simpa using Nat.le_total a b
  trans a b c := by simpa using Nat.le_trans
  antisymm a b := by simpa using Nat.le_antisymm

/-- Patterns as pairs. -/
def code : Pattern String → Nat × String
  | .var i => (i + 1, "")
  | .res s => (0, s)

/-- Graphs as pairs. -/
def codeG : Option (Pattern String) → Nat × Nat × String
  | none => (0, 0, "")
  | some p => (1, code p)

theorem code_inj (p q : Pattern String) (h : code p = code q) : p = q := by
  cases p <;> cases q <;> simp_all [code]

theorem codeG_inj (p q : Option (Pattern String)) (h : codeG p = codeG q) : p = q := by
  cases p <;> cases q <;> simp_all [codeG]
  exact code_inj _ _ h

/-- The order of patterns. -/
abbrev leN : Nat → Nat → Bool := fun a b => decide (a ≤ b)
abbrev leP : Nat × String → Nat × String → Bool := lexLe leN strLe
abbrev leG : Nat × Nat × String → Nat × Nat × String → Bool := lexLe leN leP

/-- The order of quads. -/
def leQ (a b : QuadPat String) : Bool :=
  lexLe leP (lexLe leP (lexLe leP leG)) (code a.s, code a.p, code a.o, codeG a.g) (code b.s, code b.p, code b.o, codeG b.g)

theorem leQ_total : TotalOrder leQ :=
  comap_total (lexLe_total (lexLe_total natLe_total strLe_totalOrder) (lexLe_total (lexLe_total natLe_total strLe_totalOrder)
    (lexLe_total (lexLe_total natLe_total strLe_totalOrder)
      (lexLe_total natLe_total (lexLe_total natLe_total strLe_totalOrder)))))
    (fun a : QuadPat String => (code a.s, code a.p, code a.o, codeG a.g)) (by
      intro a b h
      simp only [Prod.mk.injEq] at h
      cases a; cases b
      simp only [Quad.mk.injEq]
      exact ⟨code_inj _ _ h.1, code_inj _ _ h.2.1, code_inj _ _ h.2.2.1, codeG_inj _ _ h.2.2.2⟩)

/-- IRIs contain a colon and do not start with an underscore; resources are IRIs. -/
def lib : IriLib where
  isIriRef _ := true
  isIri s := s.toList.contains ':' && s.toList.head? != some '_'
  resolve r b := b ++ r
  isBlankId s := s.toList.head? == some '_'
  isLangTag _ := true
  decimalType _ := "http://www.w3.org/2001/XMLSchema#integer"

def ctx : BuildCtx String where
  lib := lib
  iri s := s
  lit l := l.value
  fresh n := "_:" ++ toString n
  le := strLe
  leQ := leQ

def gen : GenCtx String where
  irisOf s := if lib.isIri s then [s] else []
  parseIdent s := some s
  identFromIri s := some (String.ofList (s.toList.drop 3))
  identLt a b := strLe a b && a != b

theorem faithful : Faithful ctx gen where
  blank n := by simp [ctx, lib, String.toList_append]
  iri r i rest h := by
    simp only [gen] at h
    split at h
    · rename_i hi
      injection h with h _
      subst h
      refine ⟨hi, rfl, ?_, rfl⟩
      simp only [lib, Bool.and_eq_true, bne_iff_ne] at hi
      simp only [ctx, lib, beq_eq_false_iff_ne]
      exact hi.2
    · cases h
  types i := by simp [ctx, lib, typeIri, String.toList_append]

/-- A person: a record with a required name and friends. -/
def person (required : Bool) : ProductLayout String where
  input := 1
  intro := 0
  dataset := [⟨.var 0, .res "ex:type", .res "ex:Person", none⟩]
  fields :=
    [(.text "friends", ⟨0, ⟨"ex:People", [.var 0], none⟩, [], true⟩),
     (.text "name", ⟨1, ⟨"ex:Name", [.var 1], some none⟩, [⟨.var 0, .res "ex:name", .var 1, none⟩], required⟩)]

def registry : Registry String := fun r =>
  if r = "ex:Person" then some (.product (person true))
  else if r = "ex:Draft" then some (.product (person false))
  else if r = "ex:Name" then some (.textString { input := 1, intro := 0, dataset := [], resource := .var 0, datatype := "ex:string", pattern := none })
  else if r = "ex:People" then
    some (.unordered ⟨1, 0, ⟨1, ⟨"ex:Person", [.var 1], none⟩, [⟨.var 0, .res "ex:knows", .var 1, none⟩]⟩, []⟩)
  else none

/-- The item generated for `r`. -/
def item (r : String) : RItem :=
  match generate gen registry r with
  | .ok (.item i) => i
  | _ => ⟨"", [], .union⟩

/-- Something is generated for `r`. -/
def generated (r : String) : Bool :=
  match generate gen registry r with
  | .ok (.item _) => true
  | _ => false

theorem generated_item {r : String} (h : generated r = true) : generate gen registry r = .ok (.item (item r)) := by
  unfold generated at h
  split at h
  next i e => rw [e, item, e]
  next => cases h

theorem person_closed (b : Bool) : (Layout.product (person b)).Closed := by
  simp [Layout.Closed, person, PatsBelow, Pattern.Below, patsVars, QuadPat.vars, Pattern.vars, ValueFormat.Below]

theorem person_inOrder (b : Bool) : InOrder ctx (.product (person b)) := by
  refine ⟨?_, ?_, ?_⟩
  · simp [SortedDs, person]
  · simp [SortedDs, person]
  · simp only [person, List.map_cons, List.map_nil]
    decide +kernel

theorem person_names (b : Bool) : RustNames gen (.product (person b)) := by
  intro e he
  simp only [person, List.mem_cons, List.not_mem_nil, or_false] at he
  rcases he with rfl | rfl
  · exact ⟨_, rfl, rfl⟩
  · exact ⟨_, rfl, rfl⟩

/-- A person satisfies the hypotheses of `C44_partial`, with two types. -/
example : ∃ l' types, derive ctx.lib ctx true 100 (item "ex:Person") = .ok (l', types) ∧
    withRefs "" l' = withRefs "" (.product (person true)) ∧ types.length = 2 := by
  obtain ⟨l', types, h1, h2, h3, h4⟩ := C44_partial faithful leQ_total registry "ex:Person" (.product (person true))
    (item "ex:Person") rfl (generated_item (by decide +kernel)) (person_closed true) (person_inOrder true) (person_names true)
    (by simp [Expressible, person]) true 100 ""
  exact ⟨l', types, h1, h2, h4.length_eq.symm⟩

/-- A draft, whose name is optional, satisfies those of `C44_violated`: it becomes a person. -/
example (l' : Layout String) (types : List RType) (h : derive ctx.lib ctx true 100 (item "ex:Draft") = .ok (l', types)) :
    withRefs "" l' ≠ withRefs "" (.product (person false)) :=
  C44_violated faithful leQ_total registry "ex:Draft" (.product (person false)) (item "ex:Draft") rfl
    (generated_item (by decide +kernel)) (person_closed false) (person_inOrder false) (person_names false)
    (by simp [Expressible, person]) true 100 "" l' types h

example : (match derive ctx.lib ctx true 100 (item "ex:Draft") with
    | .ok (l', types) => decide (withRefs "" l' = withRefs "" (.product (person true)) ∧ types.length = 2)
    | _ => false) = true := by decide +kernel

/-- A name becomes a tuple whose only item is a string found at a new variable. -/
example : (match derive ctx.lib ctx true 100 (item "ex:Name") with
    | .ok (l', _) => decide (l' = .sized ⟨1, 0, [⟨1, ⟨"rust:/#Type0", [.var 1], none⟩, []⟩], []⟩)
    | _ => false) = true := by decide +kernel

/-- Sets are rejected. -/
example : (match derive ctx.lib ctx true 100 (item "ex:People") with
    | .err (.parse .expectedVec) => true
    | _ => false) = true := by decide +kernel

end RsExample

/-! ## C64: attributes -/

/-- **C64** (types). The attributes of a type may be split over several `#[tldr(..)]` in any way: the whole is accepted
exactly when its parts are and nowhere disagree, and what it means is then what the parts mean together (`Joins`). So an
attribute that is given twice with different values is rejected, and none is lost; except that a prefix may be given again,
and the last definition wins. -/
theorem C64_type_attributes (lib : IriLib) (l l' : List RAttr) :
    (∀ r, parseAttrs (typeStep lib) (l ++ l') {} = .ok r →
      ∃ x y, parseAttrs (typeStep lib) l {} = .ok x ∧ parseAttrs (typeStep lib) l' {} = .ok y ∧ x.Joins y r) ∧
    (∀ x y u, parseAttrs (typeStep lib) l {} = .ok x → parseAttrs (typeStep lib) l' {} = .ok y → x.Joins y u →
      ∃ r, parseAttrs (typeStep lib) (l ++ l') {} = .ok r) :=
  ⟨(type_adds lib).append l l', (type_adds lib).of_append l l'⟩

/-- **C64** (fields, variants and items). -/
theorem C64_field_attributes (lib : IriLib) (l l' : List RAttr) :
    (∀ r, parseAttrs (compStep lib) (l ++ l') {} = .ok r →
      ∃ x y, parseAttrs (compStep lib) l {} = .ok x ∧ parseAttrs (compStep lib) l' {} = .ok y ∧ x.Joins y r) ∧
    (∀ x y u, parseAttrs (compStep lib) l {} = .ok x → parseAttrs (compStep lib) l' {} = .ok y → x.Joins y u →
      ∃ r, parseAttrs (compStep lib) (l ++ l') {} = .ok r) :=
  ⟨(comp_adds lib).append l l', (comp_adds lib).of_append l l'⟩

/-- **C64** (order). The order of the attributes of a field, variant or item does not matter. -/
theorem C64_field_order (lib : IriLib) (l l' : List RAttr) (r : CompAttrs)
    (h : parseAttrs (compStep lib) (l ++ l') {} = .ok r) : parseAttrs (compStep lib) (l' ++ l) {} = .ok r := by
  obtain ⟨x, y, hx, hy, hj⟩ := (comp_adds lib).append l l' r h
  have hj' : y.Joins x r := ⟨joinsOpt_comm hj.head, joinsOpt_comm hj.rest, joinsOpt_comm hj.intro, joinsOpt_comm hj.property,
    joinsOpt_comm hj.dataset, joinsOpt_comm hj.input, joinsOpt_comm hj.graph⟩
  obtain ⟨r', h'⟩ := (comp_adds lib).of_append l' l y x r hy hx hj'
  obtain ⟨y', x', hy', hx', hj''⟩ := (comp_adds lib).append l' l r' h'
  rw [hx] at hx'
  rw [hy] at hy'
  injection hx' with hx'
  injection hy' with hy'
  subst hx' hy'
  rw [h']
  cases r
  cases r'
  simp only [Out.ok.injEq, CompAttrs.mk.injEq]
  exact ⟨joinsOpt_unique hj''.head hj'.head, joinsOpt_unique hj''.rest hj'.rest, joinsOpt_unique hj''.intro hj'.intro,
    joinsOpt_unique hj''.property hj'.property, joinsOpt_unique hj''.dataset hj'.dataset,
    joinsOpt_unique hj''.input hj'.input, joinsOpt_unique hj''.graph hj'.graph⟩

/-- **C64** (order). Nor does the order of the attributes of a type, if no prefix is defined in two ways. -/
theorem C64_type_order (lib : IriLib) (l l' : List RAttr) (r x y : TypeAttrs)
    (h : parseAttrs (typeStep lib) (l ++ l') {} = .ok r) (hx : parseAttrs (typeStep lib) l {} = .ok x)
    (hy : parseAttrs (typeStep lib) l' {} = .ok y)
    (hp : ∀ p a b, x.prefixes.lookup p = some a → y.prefixes.lookup p = some b → a = b) :
    ∃ r', parseAttrs (typeStep lib) (l' ++ l) {} = .ok r' ∧
      { r' with prefixes := [] } = { r with prefixes := [] } ∧ ∀ p, r'.prefixes.lookup p = r.prefixes.lookup p := by
  obtain ⟨x', y', hx', hy', hj⟩ := (type_adds lib).append l l' r h
  rw [hx] at hx'
  rw [hy] at hy'
  injection hx' with hx'
  injection hy' with hy'
  subst hx' hy'
  have hpre : ∀ p, r.prefixes.lookup p = (x.prefixes.lookup p).or (y.prefixes.lookup p) := by
    intro p
    rw [hj.prefixes p]
    cases hxp : x.prefixes.lookup p with
    | none => cases y.prefixes.lookup p <;> rfl
    | some a =>
      cases hyp : y.prefixes.lookup p with
      | none => rfl
      | some b => rw [hp p a b hxp hyp]
  have hj' : y.Joins x r := ⟨joinsOpt_comm hj.base, hpre, joinsOpt_comm hj.id, joinsOpt_comm hj.kind,
    joinsOpt_comm hj.input, joinsOpt_comm hj.intro, joinsOpt_comm hj.head, joinsOpt_comm hj.tail,
    joinsOpt_comm hj.dataset, joinsOpt_comm hj.resource, joinsOpt_comm hj.datatype⟩
  obtain ⟨r', h'⟩ := (type_adds lib).of_append l' l y x r hy hx hj'
  obtain ⟨y', x', hy', hx', hj''⟩ := (type_adds lib).append l' l r' h'
  rw [hx] at hx'
  rw [hy] at hy'
  injection hx' with hx'
  injection hy' with hy'
  subst hx' hy'
  refine ⟨r', h', ?_, fun p => by rw [hj''.prefixes, hpre]⟩
  simp only [TypeAttrs.mk.injEq, true_and]
  exact ⟨joinsOpt_unique hj''.base hj'.base, joinsOpt_unique hj''.id hj'.id,
    joinsOpt_unique hj''.kind hj'.kind, joinsOpt_unique hj''.input hj'.input,
    joinsOpt_unique hj''.intro hj'.intro, joinsOpt_unique hj''.head hj'.head,
    joinsOpt_unique hj''.tail hj'.tail, joinsOpt_unique hj''.dataset hj'.dataset,
    joinsOpt_unique hj''.resource hj'.resource, joinsOpt_unique hj''.datatype hj'.datatype⟩

/-- **C64** (contradictions). Nothing is derived for a type with contradictory attributes. -/
theorem C64_contradiction_rejected (lib : IriLib) (c : BuildCtx R) (debug : Bool) (fuel : Nat) (item : RItem) (l l' : List RAttr)
    (hl : item.attrs = l ++ l') (x y : TypeAttrs) (hx : parseAttrs (typeStep lib) l {} = .ok x)
    (hy : parseAttrs (typeStep lib) l' {} = .ok y) (hno : ∀ u, ¬ x.Joins y u) :
    ∀ r, derive lib c debug fuel item ≠ .ok r := by
  intro r h
  simp only [derive, Out.bind_eq_ok] at h
  obtain ⟨p, hp, -⟩ := h
  cases hi : Rust.parseItem lib item with
  | ok q =>
    simp only [Rust.parseItem, Out.bind_eq_ok, hl] at hi
    obtain ⟨a, ha, -⟩ := hi
    obtain ⟨x', y', hx', hy', hj⟩ := (type_adds lib).append l l' a ha
    rw [hx] at hx'
    rw [hy] at hy'
    injection hx' with hx'
    injection hy' with hy'
    subst hx' hy'
    exact hno _ hj
  | err e => rw [hi] at hp; cases hp
  | panic => rw [hi] at hp; cases hp
  | fuel => rw [hi] at hp; cases hp

namespace AttrExample

/-- `#[tldr(list, intro("a"))]`. -/
def list : RAttr := ⟨"tldr", some [.ident "list", .punct ',', .ident "intro", .group [.str "a"]]⟩

/-- `#[tldr(intro("a"), resource("_:a"))]`. -/
def intro : RAttr := ⟨"tldr", some [.ident "intro", .group [.str "a"], .punct ',', .ident "resource", .group [.str "_:a"]]⟩

/-- `#[tldr(set)]`. -/
def set : RAttr := ⟨"tldr", some [.ident "set"]⟩

/-- The kind and the introduced variables, if the attributes are accepted. -/
def read (l : List RAttr) : Option (Option Kind × Option (List String)) :=
  match parseAttrs (typeStep RsExample.lib) l {} with
  | .ok a => some (a.kind, a.intro)
  | _ => none

theorem read_some {l : List RAttr} {k i} (h : read l = some (k, i)) :
    ∃ a, parseAttrs (typeStep RsExample.lib) l {} = .ok a ∧ a.kind = k ∧ a.intro = i := by
  unfold read at h
  split at h
  · injection h with h; injection h with h1 h2; exact ⟨_, ‹_›, h1, h2⟩
  · simp at h

-- Attributes that agree are joined.
example : read [list, intro] = some (some .list, some ["a"]) := by decide +kernel

-- In the other order too.
example : read [intro, list] = some (some .list, some ["a"]) := by decide +kernel

-- Contradictory attributes, of a type that would be accepted with either of them.
example : ∀ r, derive RsExample.lib RsExample.ctx true 100 ⟨"T", [list, set], .struct (.unnamed [([], .path [] "Vec" [.path [] "u8" []])])⟩ ≠
    .ok r := by
  obtain ⟨x, hx, kx, -⟩ := read_some (l := [list]) (k := some .list) (i := some ["a"]) (by decide +kernel)
  obtain ⟨y, hy, ky, -⟩ := read_some (l := [set]) (k := some .set) (i := none) (by decide +kernel)
  refine C64_contradiction_rejected RsExample.lib RsExample.ctx true 100 _ [list] [set] rfl x y hx hy fun u hu => ?_
  have := hu.kind
  simp [JoinsOpt, kx, ky] at this

end AttrExample

end Verif.Props
