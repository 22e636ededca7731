import Verif.Irrelevant
import Verif.Derive

/-! # Quads that no pattern of the layouts admits, for derived deserialization -/

set_option linter.unusedSectionVars false
set_option linter.unusedSimpArgs false

namespace Verif.Derived

open Matching

variable {R : Type} [DecidableEq R] (c : DsCtx R) (K : Quad R → Bool)

/-- The context with fewer quads. -/
abbrev kept : DsCtx R := { c with ds := c.ds.filter K }

theorem knows_kept : knows (kept c K) = knows c := by
  funext p
  cases p <;> rfl

theorem knowsQuad_kept : knowsQuad (kept c K) = knowsQuad c := by
  funext q
  simp only [knowsQuad, knows_kept]

theorem patterns_kept (pats : List (QuadPat R)) : patterns (kept c K) pats = patterns c pats := by
  simp only [patterns, knowsQuad_kept]

theorem resource_kept (p : Pattern R) (σ : Subst R) : resource (kept c K) p σ = resource c p σ := by
  simp only [resource, knows_kept]

theorem selectInputs_kept (ps : List (Pattern R)) (σ : Subst R) : selectInputs (kept c K) ps σ = selectInputs c ps σ := by
  simp only [selectInputs, knows_kept, resource_kept]

theorem selectGraph_kept (g : Option R) (p : Option (Option (Pattern R))) (σ : Subst R) :
    selectGraph (kept c K) g p σ = selectGraph c g p σ := by
  rcases p with _ | _ | p <;> simp only [selectGraph, resource_kept]

theorem required_kept (σ : Subst R) {pats : List (QuadPat R)} (h : KeepsAll c.ds K pats) (g : Option R) :
    requiredMatch c σ pats g = requiredMatch (kept c K) σ pats g := by
  unfold requiredMatch intoRequiredUnique
  rw [patterns_kept]
  unfold patterns
  split
  · simp only [Out.bind_ok]
    rw [intoUnique_filter σ h g]
  · rfl

theorem unique_kept (σ : Subst R) {pats : List (QuadPat R)} (h : KeepsAll c.ds K pats) (g : Option R) :
    uniqueMatch c σ pats g = uniqueMatch (kept c K) σ pats g := by
  unfold uniqueMatch
  rw [patterns_kept]
  unfold patterns
  split
  · simp only [Out.bind_ok]
    rw [intoUnique_filter σ h g]
  · rfl

variable {P : R → Prop} {rec rec' : Rec R} (hrec : ∀ g ref, P ref → ∀ ins, rec g ref ins = rec' g ref ins)

include hrec

theorem subValue_kept (g : Option R) {fmt : ValueFormat R} (h : P fmt.layout) (σ : Subst R) :
    subValue c rec g fmt σ = subValue (kept c K) rec' g fmt σ := by
  simp only [subValue, hrec _ _ h, selectInputs_kept, selectGraph_kept]

theorem variants_kept (g : Option R) (ref : R) (σ : Subst R) {vs : List (Variant R)}
    (h : ∀ v ∈ vs, KeepsAll c.ds K v.dataset ∧ P v.value.layout) (i : Nat) (sel : Option (TypedValue R)) :
    variants c rec g ref σ i vs sel = variants (kept c K) rec' g ref σ i vs sel := by
  induction vs generalizing i sel with
  | nil => cases sel <;> rfl
  | cons v vs ih =>
    have ih := ih (fun x hx => h x (by simp [hx]))
    obtain ⟨h1, h2⟩ := h v (by simp)
    simp only [variants]
    rw [unique_kept c K _ h1]
    congr 1
    funext o
    cases o with
    | none => exact ih _ _
    | some σ' => simp only [subValue_kept c K hrec g h2, ih]

theorem readFields_kept (g : Option R) (σ : Subst R) {fs : List (Value × Field R)}
    (h : ∀ e ∈ fs, KeepsAll c.ds K e.2.dataset ∧ P e.2.value.layout) :
    readFields c rec g σ fs = readFields (kept c K) rec' g σ fs := by
  induction fs with
  | nil => rfl
  | cons e fs ih =>
    have ih := ih (fun x hx => h x (by simp [hx]))
    obtain ⟨h1, h2⟩ := h e (by simp)
    obtain ⟨k, f⟩ := e
    simp only [readFields]
    rw [unique_kept c K _ h1]
    congr 1
    funext o
    cases o with
    | none => simp only [ih]
    | some σ' => simp only [subValue_kept c K hrec g h2, ih]

theorem nodes_kept (g : Option R) {node : ItemLayout R} (h : KeepsAll c.ds K node.dataset) (h' : P node.value.layout)
    (σ : Subst R) (tail : R) (n : Nat) (head : R) :
    nodes c rec g node σ tail n head = nodes (kept c K) rec' g node σ tail n head := by
  induction n generalizing head with
  | zero => rw [nodes, nodes]
  | succ n ih =>
    rw [nodes, nodes]
    simp only [required_kept c K _ h, subValue_kept c K hrec g h', ih]

theorem sizedItems_kept (g : Option R) (σ : Subst R) {is : List (ItemLayout R)}
    (h : ∀ v ∈ is, KeepsAll c.ds K v.dataset ∧ P v.value.layout) :
    sizedItems c rec g σ is = sizedItems (kept c K) rec' g σ is := by
  induction is with
  | nil => rfl
  | cons v is ih =>
    have ih := ih (fun x hx => h x (by simp [hx]))
    obtain ⟨h1, h2⟩ := h v (by simp)
    simp only [sizedItems, required_kept c K _ h1, subValue_kept c K hrec g h2, ih]

theorem unorderedItems_kept (g : Option R) {fmt : ValueFormat R} (hf : P fmt.layout) (n n' : Nat) (st : Stack R)
    (hst : StackKeeps c.ds K st) (hn : weight c.ds.length st < n) (hn' : weight (c.ds.filter K).length st < n') :
    unorderedItems c rec g fmt n st = unorderedItems (kept c K) rec' g fmt n' st := by
  induction n generalizing n' st with
  | zero => omega
  | succ n ih =>
    cases n' with
    | zero => omega
    | succ n' =>
      simp only [unorderedItems]
      obtain ⟨h1, h2⟩ := next_filter (ε := DsError) st hst
      have w : ∀ σ st₁, (next c.ds st : Out DsError _) = .ok (some (σ, st₁)) → weight c.ds.length st₁ < weight c.ds.length st :=
        fun σ st₁ h => nextFuel_weight _ _ _ _ _ h
      have w' : ∀ σ st₁, (next (c.ds.filter K) st : Out DsError _) = .ok (some (σ, st₁)) →
          weight (c.ds.filter K).length st₁ < weight (c.ds.filter K).length st :=
        fun σ st₁ h => nextFuel_weight _ _ _ _ _ h
      rw [← h1] at w'
      rw [← h1]
      cases hr : (next c.ds st : Out DsError _) with
      | err e => rfl
      | panic => rfl
      | fuel => rfl
      | ok o =>
        cases o with
        | none => rfl
        | some r =>
          obtain ⟨σ, st₁⟩ := r
          have w := w _ _ hr
          have w' := w' _ _ hr
          simp only [Out.bind_ok]
          rw [subValue_kept c K hrec g hf, ih n' st₁ (h2 _ _ hr) (by omega) (by omega)]

theorem layout_kept (n : Nat) (g : Option R) (ref : R) (ins : List R) {l : Layout R} (hp : KeepsAll c.ds K l.patterns)
    (hf : ∀ f ∈ l.formats, P f.layout) :
    layout c rec n g ref ins l = layout (kept c K) rec' n g ref ins l := by
  have hdata : ∀ l : DataLayout R, KeepsAll c.ds K l.dataset → data c g ref l ins = data (kept c K) g ref l ins := by
    intro l h0
    simp only [data, required_kept c K _ h0, resource_kept, knows_kept]
  cases l with
  | never => rfl
  | always => rfl
  | unit l =>
    have h0 : KeepsAll c.ds K l.dataset := hp
    simp only [layout, required_kept c K _ h0]
  | boolean l => exact hdata l hp
  | number l => exact hdata l hp
  | byteString l => exact hdata l hp
  | textString l => exact hdata l.toDataLayout hp
  | id l =>
    have h0 : KeepsAll c.ds K l.dataset := hp
    simp only [layout, required_kept c K _ h0, resource_kept]
    rfl
  | sum l =>
    have h0 : KeepsAll c.ds K l.dataset := fun p h => hp p (List.mem_append.2 (.inl h))
    have h1 : ∀ v ∈ l.variants, KeepsAll c.ds K v.dataset ∧ P v.value.layout := fun v hv =>
      ⟨fun p h => hp p (List.mem_append.2 (.inr (List.mem_flatMap.2 ⟨v, hv, h⟩))), hf _ (List.mem_map.2 ⟨v, hv, rfl⟩)⟩
    simp only [layout, required_kept c K _ h0, variants_kept c K hrec _ _ _ h1]
  | product l =>
    have h0 : KeepsAll c.ds K l.dataset := fun p h => hp p (List.mem_append.2 (.inl h))
    have h1 : ∀ e ∈ l.fields, KeepsAll c.ds K e.2.dataset ∧ P e.2.value.layout := fun v hv =>
      ⟨fun p h => hp p (List.mem_append.2 (.inr (List.mem_flatMap.2 ⟨v, hv, h⟩))), hf _ (List.mem_map.2 ⟨v, hv, rfl⟩)⟩
    simp only [layout, required_kept c K _ h0, readFields_kept c K hrec _ _ h1]
  | unordered l =>
    have h0 : KeepsAll c.ds K l.dataset := fun p h => hp p (List.mem_append.2 (.inl h))
    have h1 : KeepsAll c.ds K l.item.dataset := fun p h => hp p (List.mem_append.2 (.inr h))
    simp only [layout, required_kept c K _ h0, patterns_kept]
    congr 1
    funext σ
    unfold patterns
    split
    · simp only [Out.bind_ok]
      rw [unorderedItems_kept c K hrec g (hf _ (by simp [Layout.formats])) _ _ _ (new_keeps _ h1 g) (Nat.lt_succ_self _)
        (Nat.lt_succ_self _)]
    · rfl
  | ordered l =>
    have h0 : KeepsAll c.ds K l.dataset := fun p h => hp p (List.mem_append.2 (.inl h))
    have h1 : KeepsAll c.ds K l.node.dataset := fun p h => hp p (List.mem_append.2 (.inr h))
    simp only [layout, required_kept c K _ h0, resource_kept, nodes_kept c K hrec _ h1 (hf _ (by simp [Layout.formats]))]
  | sized l =>
    have h0 : KeepsAll c.ds K l.dataset := fun p h => hp p (List.mem_append.2 (.inl h))
    have h1 : ∀ v ∈ l.items, KeepsAll c.ds K v.dataset ∧ P v.value.layout := fun v hv =>
      ⟨fun p h => hp p (List.mem_append.2 (.inr (List.mem_flatMap.2 ⟨v, hv, h⟩))), hf _ (List.mem_map.2 ⟨v, hv, rfl⟩)⟩
    simp only [layout, required_kept c K _ h0, sizedItems_kept c K hrec _ _ h1]

omit hrec in
/-- Quads that no pattern admits may be left out. -/
theorem deserialize_kept (root : R)
    (h : ∀ ref, Reaches c.reg root ref → ∀ l, c.reg ref = some l → KeepsAll c.ds K l.patterns)
    (n : Nat) (g : Option R) (ref : R) (hr : Reaches c.reg root ref) (ins : List R) :
    deserialize c n g ref ins = deserialize (kept c K) n g ref ins := by
  induction n generalizing g ref ins with
  | zero => rfl
  | succ n ih =>
    simp only [deserialize]
    cases hp : c.prim ref with
    | some p => cases p <;> rfl
    | none =>
      cases hl : c.reg ref with
      | none => rfl
      | some l =>
        exact layout_kept c K (P := Reaches c.reg root) (fun g ref hr ins => ih g ref hr ins) n g ref ins (h ref hr l hl)
          fun f hf => .step hr hl hf

end Verif.Derived
