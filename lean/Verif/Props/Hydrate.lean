import Verif.HydrateExample
import Verif.HydratePanic
import Verif.HydrateComplete

/-!
# Properties C04 – C09, C43, C45 (hydration)

The specifications are in `Verif/HydrateSpec.lean` (`Meaning`) and `Verif/LayoutSpec.lean` (`Conforms`,
`Annotated`).
-/

set_option linter.unusedSectionVars false

namespace Verif.Props

open Verif.Hydrate

variable {R : Type _} [DecidableEq R]

/-- **C43** (hydration). Running longer never changes a result: if hydration returned with bound `n`, it returns the
same result with every larger bound. Hence the result, when there is one, is unique. -/
theorem C43_hydrate_deterministic (c : HyCtx R) (n m : Nat) (g : Option R) (ref : R) (inputs : List R)
    (h : hydrate c n g ref inputs ≠ .fuel) (hnm : n ≤ m) : hydrate c m g ref inputs = hydrate c n g ref inputs :=
  (hydrate_mono c n m hnm g ref inputs).eq_of_ne h

/-- **C04.** When hydration returns a value, that value is the only meaning of the layout over the dataset, and when
it returns an error the layout has no meaning there. This holds for every nesting bound from `n` on. -/
theorem C04_hydrate_meaning (c : HyCtx R) (hreg : c.reg.Closed) (hds : c.ds.Nodup)
    (hle : TotalOrder c.le) (n : Nat) (g : Option R) (ref : R) (inputs : List R) :
    (∀ v, hydrate c n g ref inputs = .ok v → ∀ m, n ≤ m → ∀ w, Meaning c m g ref inputs w ↔ w = v) ∧
    (∀ e, hydrate c n g ref inputs = .err e → ∀ m, n ≤ m → ∀ w, ¬ Meaning c m g ref inputs w) := by
  refine ⟨fun v h m hm => ?_, fun e h m hm => ?_⟩
  · have := decides_hydrate c hreg hds hle m g ref inputs
    rwa [C43_hydrate_deterministic c n m g ref inputs (by simp [h]) hm, h] at this
  · have := decides_hydrate c hreg hds hle m g ref inputs
    rwa [C43_hydrate_deterministic c n m g ref inputs (by simp [h]) hm, h] at this

/-- **C04** (converse). If the layout has a meaning over the dataset then hydration, unless it panics or runs out of
its bound, returns it. -/
theorem C04_meaning_hydrate (c : HyCtx R) (hreg : c.reg.Closed) (hds : c.ds.Nodup)
    (hle : TotalOrder c.le) (n : Nat) (g : Option R) (ref : R) (inputs : List R) (v : TypedValue R)
    (hm : Meaning c n g ref inputs v) (hp : hydrate c n g ref inputs ≠ .panic)
    (hf : hydrate c n g ref inputs ≠ .fuel) : hydrate c n g ref inputs = .ok v := by
  have := decides_hydrate c hreg hds hle n g ref inputs
  cases h : hydrate c n g ref inputs with
  | ok w => rw [h] at this; rw [(this v).1 hm]
  | err e => rw [h] at this; exact absurd hm (this v)
  | panic => exact absurd h hp
  | fuel => exact absurd h hf

/-- **C04** (converse, without panics). If the layout has a meaning over the dataset, then hydration returns it: it does not
panic, and it terminates. It is enough that each resource stands for one literal at most, and that the variants of a sum are
told apart by their patterns. -/
theorem C04_meaning_returns (c : HyCtx R) (hreg : c.reg.Closed) (hno : c.reg.NoVariantIntro) (hds : c.ds.Nodup)
    (hle : TotalOrder c.le) (hsingle : ∀ r, (c.literalsOf r).length ≤ 1) (hsums : c.ToldApart) (m : Nat) (g : Option R)
    (ref : R) (inputs : List R) (v : TypedValue R) (hm : Meaning c m g ref inputs v) :
    ∃ N, ∀ n, N ≤ n → hydrate c n g ref inputs = .ok v :=
  returns_hydrate c hreg hno hds hle hsingle hsums m g ref inputs v hm

namespace Witness

open Example

/-- A person or a list, told apart by their types. -/
def typedSum : SumLayout Nat :=
  { input := 1, intro := 0, dataset := [],
    variants := [
      { name := "person", intro := 0, value := ⟨0, [.var 0], none⟩, dataset := [q (.var 0) (.res 10) (.res 11)] },
      { name := "list", intro := 0, value := ⟨3, [.var 0], none⟩, dataset := [q (.var 0) (.res 10) (.res 17)] }] }

/-- The example, with this sum, and a type for the list. -/
def typedCtx : HyCtx Nat :=
  { ctx with
    reg := fun r => if r = 4 then some (.sum typedSum) else reg r
    ds := ⟨200, 10, 17, none⟩ :: ds }

theorem typed_sum {ref : Nat} {l : SumLayout Nat} (h : typedCtx.reg ref = some (.sum l)) : l = typedSum := by
  simp only [typedCtx] at h
  split at h
  · simp only [Option.some.injEq, Layout.sum.injEq] at h; exact h.symm
  · rename_i hne
    unfold reg at h
    split at h <;> simp [person, text, tags, rdfList] at h
    exact absurd rfl hne

theorem typed_toldApart : typedCtx.ToldApart := by
  rintro ref l hl g σ ⟨ins, hn, hs⟩ i j x y τ τ' hi hj h1 h2
  rw [typed_sum hl] at hn hs hi hj
  obtain ⟨a, rfl⟩ : ∃ a, ins = [a] := by
    match ins, hn with
    | [a], _ => exact ⟨a, rfl⟩
  have ha : σ.get 0 = some a := hs.keeps 0 a rfl
  -- the type of the resource
  have key : ∀ (v : Variant Nat) (o : Nat) (υ : Subst Nat), v.intro = 0 → v.dataset = [q (.var 0) (.res 10) (.res o)] →
      IsMatch typedCtx.ds (σ ++ List.replicate v.intro none) (inGraph g v.dataset) υ →
      (a = 100 ∧ o = 11) ∨ (a = 200 ∧ o = 17) := by
    intro v o υ hv hd h
    rw [hv, hd, List.replicate_zero, List.append_nil] at h
    have h0 := h.keeps 0 a ha
    obtain ⟨e, he, hd⟩ := h.sat _ (List.mem_map_of_mem (List.mem_singleton.2 rfl))
    have hspo : e.s = a ∧ e.p = 10 ∧ e.o = o := by
      cases g <;> simp only [q, QuadPat.Denotes, Pattern.Denotes] at hd
      · obtain ⟨d1, d2, d3, _⟩ := hd
        rw [h0] at d1
        exact ⟨(Option.some.inj d1).symm, d2, d3⟩
      · obtain ⟨d1, d2, d3, _⟩ := hd
        rw [h0] at d1
        exact ⟨(Option.some.inj d1).symm, d2, d3⟩
    obtain ⟨e1, e2, e3⟩ := hspo
    simp only [typedCtx, ds, List.mem_cons, List.not_mem_nil, or_false] at he
    rcases he with rfl | rfl | rfl | rfl | rfl | rfl | rfl | rfl | rfl <;> simp only at e1 e2 e3 <;> omega
  have hcases : ∀ (i : Nat) (x : Variant Nat), typedSum.variants[i]? = some x →
      (i = 0 ∧ x.intro = 0 ∧ x.dataset = [q (.var 0) (.res 10) (.res 11)]) ∨
      (i = 1 ∧ x.intro = 0 ∧ x.dataset = [q (.var 0) (.res 10) (.res 17)]) := by
    intro i x h
    match i, h with
    | 0, h => obtain rfl := Option.some.inj h; exact .inl ⟨rfl, rfl, rfl⟩
    | 1, h => obtain rfl := Option.some.inj h; exact .inr ⟨rfl, rfl, rfl⟩
    | i + 2, h => simp [typedSum] at h
  rcases hcases i x hi with ⟨rfl, hx0, hxd⟩ | ⟨rfl, hx0, hxd⟩ <;> rcases hcases j y hj with ⟨rfl, hy0, hyd⟩ | ⟨rfl, hy0, hyd⟩ <;>
    have k1 := key x _ τ hx0 hxd h1 <;> have k2 := key y _ τ' hy0 hyd h2 <;> omega

theorem typed_closed : typedCtx.reg.Closed := by
  intro ref l h
  simp only [typedCtx] at h
  split at h
  · simp only [Option.some.injEq] at h
    subst h
    simp [typedSum, Layout.Closed, PatsBelow, patsVars, QuadPat.vars, Pattern.vars, ValueFormat.Below, Pattern.Below, q]
  · exact reg_closed ref l h

theorem typed_noIntro : typedCtx.reg.NoVariantIntro := by
  intro ref l h
  rw [typed_sum h]
  simp [typedSum]

theorem typed_single (r : Nat) : (typedCtx.literalsOf r).length ≤ 1 := by
  simp only [typedCtx, ctx]
  unfold literalsOf
  split <;> simp

end Witness

open Witness in
-- The list, read through the sum.
example (m : Nat) (v : TypedValue Nat) (h : Meaning typedCtx m none 4 [200] v) :
    ∃ N, ∀ n, N ≤ n → hydrate typedCtx n none 4 [200] = .ok v :=
  C04_meaning_returns typedCtx typed_closed typed_noIntro (by decide +kernel) Example.le_total typed_single typed_toldApart
    m none 4 [200] v h

open Witness in
example : Meaning typedCtx 9 none 4 [200]
    (.variant (.list [.literal (.textString "b" 1), .literal (.textString "a" 1)] 3) 4 1) :=
  ((C04_hydrate_meaning typedCtx typed_closed (by decide +kernel) Example.le_total 9 none 4 [200]).1 _ (by decide +kernel) 9
    (Nat.le_refl _) _).2 rfl

-- A record with a required, an absent optional and a list-valued field meets all the hypotheses.
example : Meaning Example.ctx 7 none 0 [100] Example.personTree :=
  ((C04_hydrate_meaning Example.ctx Example.reg_closed Example.ds_nodup Example.le_total
    5 none 0 [100]).1 _ Example.hydrate_person 7 (by omega) _).2 rfl

example : ∀ m, 5 ≤ m → ∀ w, ¬ Meaning Example.ctx m none 0 [200] w :=
  (C04_hydrate_meaning Example.ctx Example.reg_closed Example.ds_nodup Example.le_total
    5 none 0 [200]).2 (.missingData (.discriminant 0)) (by decide +kernel)

/-- **C06.** Every node of a hydrated tree is annotated with the layout that produced it. -/
theorem C06_hydrate_annotated (c : HyCtx R) (isIri : String → Bool) (hiri : ∀ r, ∀ i ∈ c.irisOf r, isIri i = true)
    (hkeys : c.reg.DistinctKeys) (n : Nat) (g : Option R) (ref : R) (inputs : List R) (v : TypedValue R)
    (h : hydrate c n g ref inputs = .ok v) :
    Annotated c.reg isIri ref v ∧ (v.type = some ref ∨ c.reg ref = some .always ∧ v.type = none) := by
  have ha := hydrate_annotated c isIri hiri hkeys n g ref inputs v h
  refine ⟨ha, ?_⟩
  cases ha with
  | always v hl => exact .inr ⟨hl, rfl⟩
  | _ => exact .inl rfl

/-- **C05.** A hydrated tree, without its annotations, conforms to its layout. -/
theorem C05_hydrate_conforms (c : HyCtx R) (isIri : String → Bool) (hiri : ∀ r, ∀ i ∈ c.irisOf r, isIri i = true)
    (hkeys : c.reg.DistinctKeys) (n : Nat) (g : Option R) (ref : R) (inputs : List R) (v : TypedValue R)
    (h : hydrate c n g ref inputs = .ok v) : Conforms c.reg isIri ref v.untype :=
  (hydrate_annotated c isIri hiri hkeys n g ref inputs v h).conforms

example : Conforms Example.reg (fun s => s == "xsd:string" || s == "http://example.org/alice") 0
    (.map [(.text "name", .text "Alice"), (.text "tags", .list [.text "a", .text "b"])]) :=
  C05_hydrate_conforms Example.ctx _ (by
      intro r i hi
      change i ∈ Example.irisOf r at hi
      unfold Example.irisOf at hi
      split at hi <;> simp at hi <;> simp [hi]) Example.reg_distinctKeys 5 none 0 [100] _
    Example.hydrate_person

/-- **C07** (as far as the code goes). Two representations of the same set of quads never give two different values,
nor a value on one side and an error on the other. What is missing for the full property is that the two sides
panic together: see `C07_order_decides_panic`. -/
theorem C07_hydrate_dataset_is_a_set_partial (c : HyCtx R) (ds' : List (Quad R)) (hreg : c.reg.Closed)
    (hds : c.ds.Nodup) (hds' : ds'.Nodup) (hle : TotalOrder c.le)
    (hset : ∀ q, q ∈ c.ds ↔ q ∈ ds') (n : Nat) (g : Option R) (ref : R) (inputs : List R)
    (hp : hydrate c n g ref inputs ≠ .panic) (hp' : hydrate { c with ds := ds' } n g ref inputs ≠ .panic)
    (hf : hydrate c n g ref inputs ≠ .fuel) (hf' : hydrate { c with ds := ds' } n g ref inputs ≠ .fuel) :
    ∀ v, hydrate c n g ref inputs = .ok v ↔ hydrate { c with ds := ds' } n g ref inputs = .ok v := by
  intro v
  have h1 := decides_hydrate c hreg hds hle n g ref inputs
  have h2 := decides_hydrate { c with ds := ds' } hreg hds' hle n g ref inputs
  constructor
  · intro h
    rw [h] at h1
    exact C04_meaning_hydrate { c with ds := ds' } hreg hds' hle n g ref inputs v
      ((meaning_congr hset n g ref inputs v).1 ((h1 v).2 rfl)) hp' hf'
  · intro h
    rw [h] at h2
    exact C04_meaning_hydrate c hreg hds hle n g ref inputs v
      ((meaning_congr hset n g ref inputs v).2 ((h2 v).2 rfl)) hp hf

example : hydrate { Example.ctx with ds := Example.ds.reverse } 5 none 0 [100] = .ok Example.personTree :=
  (C07_hydrate_dataset_is_a_set_partial Example.ctx Example.ds.reverse Example.reg_closed
    Example.ds_nodup (by decide) Example.le_total (by simp [Example.ctx]) 5 none 0 [100]
    (by decide +kernel) (by decide +kernel) (by decide +kernel) (by decide +kernel) _).1 Example.hydrate_person

namespace Witness

open Example

/-- A list of numbers, or anything. -/
def orderReg : Registry Nat
  | 0 => some (.sum { input := 1, intro := 0, dataset := [], variants := [
        { name := "numbers", intro := 0, value := ⟨1, [.var 0], none⟩, dataset := [] },
        { name := "any", intro := 0, value := ⟨3, [], none⟩, dataset := [] }] })
  | 1 => some (.unordered { input := 1, intro := 0, dataset := [], item :=
        { intro := 1, value := ⟨2, [.var 1], none⟩, dataset := [q (.var 0) (.res 13) (.var 1)] } })
  | 2 => some (.number { input := 1, intro := 0, dataset := [], resource := .var 0, datatype := 20 })
  | 3 => some .always
  | _ => none

/-- A context without IRIs and literals. -/
def bareCtx (reg : Registry Nat) (ds : List (Quad Nat)) : HyCtx Nat :=
  { reg, ds, irisOf := fun _ => [], literalsOf := fun _ => [], xsd, le := TypedValue.le natCode }

/-- Resource `1` is ill-typed (an error); resource `2` is a language string (a panic). -/
def orderCtx (ds : List (Quad Nat)) : HyCtx Nat :=
  { bareCtx orderReg ds with
    irisOf := fun r => if r = 20 then ["xsd:string"] else []
    literalsOf := fun r =>
      if r = 1 then [⟨"x", .any "xsd:string"⟩] else if r = 2 then [⟨"x", .langString "en"⟩] else [] }

/-- A list layout. -/
def cyclicLayout : OrderedLayout Nat :=
  { input := 1, intro := 0, dataset := [], head := .var 0, tail := .res 30,
    node := { intro := 0, value := ⟨1, [], none⟩, dataset := [q (.var 1) (.res 32) (.var 2)] } }

/-- A list layout over anything. -/
def cyclicReg : Registry Nat
  | 0 => some (.ordered cyclicLayout)
  | 1 => some .always
  | _ => none

/-- A list whose only node is followed by itself. -/
def cyclicCtx : HyCtx Nat := bareCtx cyclicReg [⟨5, 32, 5, none⟩]

/-- A sum with the given variants; `1` is the `always` layout. -/
def sumReg (variants : List (Variant Nat)) : Registry Nat
  | 0 => some (.sum { input := 1, intro := 0, dataset := [], variants })
  | 1 => some .always
  | _ => none

/-- A sum whose variant introduces a variable of its own. -/
def variantIntroCtx : HyCtx Nat :=
  bareCtx (sumReg [{ name := "a", intro := 1, value := ⟨1, [], none⟩, dataset := [q (.var 0) (.res 13) (.var 1)] }])
    [⟨5, 13, 6, none⟩]

/-- A sum over an empty dataset. -/
def sumCtx (variants : List (Variant Nat)) : HyCtx Nat := bareCtx (sumReg variants) []

end Witness

open Witness in
/-- **C07** fails in general: the order in which quads are enumerated decides between a value and a panic. -/
theorem C07_order_decides_panic :
    hydrate (orderCtx [⟨0, 13, 1, none⟩, ⟨0, 13, 2, none⟩]) 5 none 0 [0] = .ok (.variant (.always .unit) 0 1) ∧
    hydrate (orderCtx [⟨0, 13, 2, none⟩, ⟨0, 13, 1, none⟩]) 5 none 0 [0] = .panic := by
  constructor <;> decide +kernel

/-- **C08** (variants without variables of their own). A sum layout hydrates to `v` exactly when its own pattern has a
unique match, exactly one variant applies (unique match of the variant's pattern, and its sub-layout hydrates), all the
other variants fail with an error, and `v` is the value of that variant annotated with its index. -/
theorem C08_sum_selects_single_variant_partial (c : HyCtx R) (hreg : c.reg.Closed) (h0 : c.reg.NoVariantIntro)
    (hds : c.ds.Nodup) (n : Nat) (g : Option R) (ref : R) (l : SumLayout R) (hl : c.reg ref = some (.sum l))
    (inputs : List R) (hi : inputs.length = l.input) (v : TypedValue R) :
    hydrate c (n + 1) g ref inputs = .ok v ↔
      ∃ σ i variant w,
        UniqueMatch c.ds (inputs.map some ++ List.replicate l.intro none) (inGraph g l.dataset) σ ∧
        l.variants[i]? = some variant ∧
        VariantMeaning c.ds (fun g r i v => hydrate c n g r i = .ok v) g σ variant w ∧
        (∀ j x, l.variants[j]? = some x → j ≠ i →
          VariantFails c.ds (fun g r i => ∃ e, hydrate c n g r i = .err e) g σ x) ∧
        v = .variant w ref i := by
  have hc := hreg ref _ hl
  have hd : Declared ((Subst.fromInputs inputs).intro l.intro) (withDefaultGraph l.dataset g) :=
    declared_of_below hc.1 (by simp [length_intro, Subst.fromInputs, hi])
  have hne : ¬ (Layout.sum l).inputCount.any (· ≠ inputs.length) = true := by simp [Layout.inputCount, hi]
  have hmatch := requiredMatch_eq_ok c hds (.discriminant ref) _ _ g hd
  have hv0 := h0 ref l hl
  have key : ∀ σ, UniqueMatch c.ds ((Subst.fromInputs inputs).intro l.intro) (inGraph g l.dataset) σ →
      (variants c (hydrate c n) g ref σ 0 l.variants none = .ok v ↔ _) := fun σ hσ =>
    variants_eq_ok c hds (hydrate c n) g ref σ l.variants hv0 (fun x hx => by
      have hx' := (hc.2 x hx).1
      rw [hv0 x hx] at hx'
      rw [hσ.1.length_eq]
      simpa [length_intro, Subst.fromInputs, hi] using hx') 0 none v
  simp only [hydrate, hl]
  rw [if_neg hne]
  simp only [layout, Out.bind_eq_ok, hmatch]
  constructor
  · rintro ⟨σ, hσ, h⟩
    rcases (key σ hσ).1 h with ⟨_, _, hcon, _⟩ | ⟨-, k, variant, w, h1, h2, h3, rfl⟩
    · simp at hcon
    · exact ⟨σ, k, variant, w, hσ, h1, h2, h3, by rw [Nat.zero_add]⟩
  · rintro ⟨σ, k, variant, w, hσ, h1, h2, h3, rfl⟩
    exact ⟨σ, hσ, (key σ hσ).2 (.inr ⟨rfl, k, variant, w, h1, h2, h3, by rw [Nat.zero_add]⟩)⟩

example := (C08_sum_selects_single_variant_partial Example.ctx Example.reg_closed Example.reg_noVariantIntro Example.ds_nodup 4
    none 4 _ rfl [200] rfl _).1 Example.hydrate_sum

open Witness in
/-- **C08** fails otherwise: a variant that declares a variable makes hydration panic, no applicable variant is a
panic, and two applicable variants are a panic. -/
theorem C08_sum_panics :
    (∃ n, hydrate variantIntroCtx n none 0 [5] = .panic) ∧
    (∃ n, hydrate (sumCtx []) n none 0 [5] = .panic) ∧
    (∃ n, hydrate (sumCtx [⟨"a", 0, ⟨1, [], none⟩, []⟩, ⟨"b", 0, ⟨1, [], none⟩, []⟩]) n none 0 [5] = .panic) :=
  ⟨⟨3, by decide +kernel⟩, ⟨3, by decide +kernel⟩, ⟨3, by decide +kernel⟩⟩

/-- **C09** (chains that reach the tail). An ordered list layout hydrates to `v` exactly when there is a chain of nodes
from the head to the tail, each node having a unique match, and `v` lists the items of the nodes in chain order. -/
theorem C09_ordered_list_follows_chain_partial (c : HyCtx R) (hreg : c.reg.Closed) (hds : c.ds.Nodup) (n : Nat)
    (g : Option R) (ref : R) (l : OrderedLayout R) (hl : c.reg ref = some (.ordered l)) (inputs : List R)
    (hi : inputs.length = l.input) (v : TypedValue R) :
    hydrate c (n + 1) g ref inputs = .ok v ↔
      ∃ σ head tail items,
        UniqueMatch c.ds (inputs.map some ++ List.replicate l.intro none) (inGraph g l.dataset) σ ∧
        l.head.Denotes σ.get head ∧ l.tail.Denotes σ.get tail ∧
        ChainMeaning c.ds (fun g r i v => hydrate c n g r i = .ok v) g l.node σ tail head items ∧
        items.length ≤ n ∧ v = .list items ref := by
  have hc := hreg ref _ hl
  have hd : Declared ((Subst.fromInputs inputs).intro l.intro) (withDefaultGraph l.dataset g) :=
    declared_of_below hc.1 (by simp [length_intro, Subst.fromInputs, hi])
  have hne : ¬ (Layout.ordered l).inputCount.any (· ≠ inputs.length) = true := by simp [Layout.inputCount, hi]
  have hmatch := requiredMatch_eq_ok c hds (.discriminant ref) _ _ g hd
  have key : ∀ σ, UniqueMatch c.ds ((Subst.fromInputs inputs).intro l.intro) (inGraph g l.dataset) σ →
      ∀ tail head vs, (nodes c (hydrate c n) g ref l.node σ tail n head = .ok vs ↔ _) := fun σ hσ tail head vs =>
    nodes_eq_ok c hds (hydrate c n) g ref l.node σ tail (by
      rw [hσ.1.length_eq]
      simpa [length_intro, Subst.fromInputs, hi] using hc.2.2.2.1) n head vs
  simp only [hydrate, hl]
  rw [if_neg hne]
  simp only [layout, Out.bind_eq_ok, hmatch, resource_eq_ok, Out.ok.injEq]
  constructor
  · rintro ⟨σ, hσ, head, h1, tail, h2, items, h3, rfl⟩
    obtain ⟨h3, h4⟩ := (key σ hσ tail head items).1 h3
    exact ⟨σ, head, tail, items, hσ, h1, h2, h3, h4, rfl⟩
  · rintro ⟨σ, head, tail, items, hσ, h1, h2, h3, h4, rfl⟩
    exact ⟨σ, hσ, head, h1, tail, h2, items, (key σ hσ tail head items).2 ⟨h3, h4⟩, rfl⟩

example := (C09_ordered_list_follows_chain_partial Example.ctx Example.reg_closed Example.ds_nodup 4
    none 3 _ rfl [200] rfl _).1 Example.hydrate_list

open Witness in
/-- **C09** fails for a cyclic chain: hydration never returns, whatever the bound. -/
theorem C09_cyclic_list_diverges (n : Nat) : hydrate cyclicCtx n none 0 [5] = .fuel := by
  have hnodes : ∀ m k, nodes cyclicCtx (hydrate cyclicCtx (m + 1)) none 0 cyclicLayout.node [some 5] 30 k 5
      = .fuel := by
    intro m k
    induction k with
    | zero => simp [nodes]
    | succ k ih =>
      unfold nodes
      have hm : requiredMatch cyclicCtx (.orderedListNode 0 5 30)
          ((Subst.push [some 5] (some 5)).intro (1 + cyclicLayout.node.intro)) cyclicLayout.node.dataset none = .ok [some 5, some 5, some 5] := by decide +kernel
      have hs : subValue (hydrate cyclicCtx (m + 1)) none cyclicLayout.node.value
          [some 5, some 5, some 5] = .ok (.always .unit) := by
        simp [subValue, cyclicLayout, selectInputs, Out.mapM', selectGraph, hydrate, cyclicCtx, bareCtx, cyclicReg,
          Layout.inputCount, layout]
      simp only [hm, hs, Out.bind_ok]
      simp [Subst.get, ih]
  cases n with
  | zero => rfl
  | succ n =>
    have hm : requiredMatch cyclicCtx (.discriminant 0) ((Subst.fromInputs [5]).intro cyclicLayout.intro)
        cyclicLayout.dataset none = .ok [some 5] := by decide +kernel
    have e : hydrate cyclicCtx (n + 1) none 0 [5] =
        layout cyclicCtx (hydrate cyclicCtx n) n none 0 [5] (.ordered cyclicLayout) := by
      rw [hydrate]
      rfl
    rw [e]
    simp only [layout, hm, Out.bind_ok]
    have h5 : resource cyclicLayout.head ([some 5] : Subst Nat) = .ok 5 := rfl
    have h30 : resource cyclicLayout.tail ([some 5] : Subst Nat) = .ok 30 := rfl
    rw [h5, h30]
    simp only [Out.bind_ok]
    cases n with
    | zero => simp [nodes]
    | succ n => rw [hnodes]; rfl

/-- **C45** (as far as the code goes). Hydration does not panic when the registry contains neither sum nor byte string
layouts, every variable used to denote a resource is an input or occurs in a pattern matched before (`Layout.Safe`),
and literals are unambiguous and lexically valid (`HyCtx.Safe`). Each of these conditions excludes an actual panic:
see `C08_sum_panics`, `C07_order_decides_panic` and `C45_panics`. -/
theorem C45_no_panic_partial (c : HyCtx R) (hs : c.Safe) (hreg : c.reg.Closed) (hds : c.ds.Nodup) (n : Nat)
    (g : Option R) (ref : R) (inputs : List R) : hydrate c n g ref inputs ≠ .panic :=
  hydrate_ne_panic c hs hreg hds n g ref inputs

namespace Witness

open Example

/-- The example registry without its sum layout. -/
def noSum : Registry Nat
  | 0 => some person
  | 1 => some text
  | 2 => some tags
  | 3 => some rdfList
  | _ => none

theorem noSum_closed : noSum.Closed := by
  intro ref l h
  unfold noSum at h
  split at h <;> simp only [Option.some.injEq, reduceCtorEq] at h <;> subst h <;>
    simp [person, text, tags, rdfList, Layout.Closed, ItemLayout.Closed, PatsBelow, patsVars, QuadPat.vars,
      Pattern.vars, ValueFormat.Below, Pattern.Below, q]

theorem noSum_safe : HyCtx.Safe { ctx with reg := noSum } := by
  have hl : ∀ r, ∀ lit ∈ literalsOf r, lit.type = .any "xsd:string" := by
    intro r lit h
    unfold literalsOf at h
    split at h <;> simp at h <;> simp [h]
  refine ⟨?_, fun r lit h => ⟨_, hl r lit h⟩, ?_, ?_, ?_, ?_, ?_⟩
  · intro ref l h
    simp only [noSum] at h
    split at h <;> simp only [Option.some.injEq, reduceCtorEq] at h <;> subst h <;>
      simp [person, text, tags, rdfList, Layout.Safe, ValueFormat.BoundIn, Pattern.BoundIn, boundVars, patsVars,
        QuadPat.vars, Pattern.vars, q]
  · intro r
    simp only [ctx]
    unfold literalsOf
    split <;> simp
  · intro ref l h
    simp only [noSum] at h
    split at h <;> simp [person, text, tags, rdfList] at h
  · intro r lit h e
    rw [hl r lit h] at e
    simp [ctx, xsd] at e
  · intro r lit h i e d
    rw [hl r lit h] at e
    simp only [LitType.any.injEq] at e
    subst e
    simp [ctx, xsd] at d
  · intro ref l h
    simp only [noSum] at h
    split at h <;> simp [person, text, tags, rdfList] at h

/-- One layout. -/
def oneReg (l : Layout Nat) : Registry Nat := fun r => if r = 0 then some l else if r = 1 then some .always else none

/-- One layout, and one literal of type `xsd:string`. -/
def oneCtx (l : Layout Nat) (lits : List RdfLit) : HyCtx Nat :=
  { bareCtx (oneReg l) [] with
    irisOf := fun r => if r = 20 then ["xsd:string"] else if r = 21 then ["xsd:boolean"] else if r = 22 then ["xsd:decimal"] else []
    literalsOf := fun _ => lits }

end Witness

open Witness Example in
example := C45_no_panic_partial _ noSum_safe noSum_closed ds_nodup

open Witness in
/-- **C45** fails in general: a declared variable that occurs in no pattern, a byte string, a language string, two
literals of the same datatype, an invalid boolean, a boolean of another datatype, an invalid number, a resource without IRI: each
one is a panic. -/
theorem C45_panics :
    hydrate (oneCtx (.unordered ⟨1, 0, ⟨1, ⟨1, [.var 1], none⟩, []⟩, []⟩) []) 3 none 0 [5] = .panic ∧
    hydrate (oneCtx (.byteString ⟨1, 0, [], .var 0, 20⟩) [⟨"x", .any "xsd:string"⟩]) 3 none 0 [5] = .panic ∧
    hydrate (oneCtx (.textString ⟨⟨1, 0, [], .var 0, 20⟩, none⟩) [⟨"x", .langString "en"⟩]) 3 none 0 [5] = .panic ∧
    hydrate (oneCtx (.textString ⟨⟨1, 0, [], .var 0, 20⟩, none⟩)
      [⟨"x", .any "xsd:string"⟩, ⟨"y", .any "xsd:string"⟩]) 3 none 0 [5] = .panic ∧
    hydrate (oneCtx (.boolean ⟨1, 0, [], .var 0, 21⟩) [⟨"maybe", .any "xsd:boolean"⟩]) 3 none 0 [5] = .panic ∧
    hydrate (oneCtx (.boolean ⟨1, 0, [], .var 0, 20⟩) [⟨"true", .any "xsd:string"⟩]) 3 none 0 [5] = .panic ∧
    hydrate (oneCtx (.number ⟨1, 0, [], .var 0, 22⟩) [⟨"many", .any "xsd:decimal"⟩]) 3 none 0 [5] = .panic ∧
    hydrate (oneCtx (.id ⟨1, 0, [], none, .var 0⟩) []) 3 none 0 [5] = .panic := by
  refine ⟨?_, ?_, ?_, ?_, ?_, ?_, ?_, ?_⟩ <;> decide +kernel

end Verif.Props
