import Verif.MatchingLemmas
import Verif.Hydrate
import Verif.NamedGraphSpec

/-! # Quads that no pattern of the layouts admits -/

set_option linter.unusedSectionVars false
set_option linter.unusedSimpArgs false

namespace Verif

variable {R : Type _} [DecidableEq R]

namespace Matching

variable (ds : List (Quad R)) (K : Quad R → Bool)

/-- All the quads that the pattern admits are kept. -/
def Keeps (pat : QuadPat R) : Prop := ∀ q ∈ ds, pat.admits q = true → K q = true

/-- The same, in every graph. -/
def KeepsAll (pats : List (QuadPat R)) : Prop := ∀ p ∈ pats, ∀ g : Option R, Keeps ds K { p with g := p.g.or (g.map .res) }

/-- The same, for the patterns to come. -/
def StackKeeps (st : Stack R) : Prop := ∀ s ∈ st, ∀ p ∈ s.rest, Keeps ds K p

variable {ds K}

theorem candidates_filter {pat : QuadPat R} (h : Keeps ds K pat) : candidates (ds.filter K) pat = candidates ds pat := by
  unfold candidates
  rw [List.filter_filter]
  refine List.filter_congr fun q hq => ?_
  cases hp : pat.admits q with
  | false => rfl
  | true => simp [h q hq hp]

theorem nextFuel_filter {ε : Type _} (n n' : Nat) (st : Stack R) (hst : StackKeeps ds K st)
    (hn : (nextFuel ds n st : Out ε _) ≠ .fuel) (hn' : (nextFuel (ds.filter K) n' st : Out ε _) ≠ .fuel) :
    (nextFuel ds n st : Out ε _) = nextFuel (ds.filter K) n' st ∧
      ∀ σ st', (nextFuel ds n st : Out ε _) = .ok (some (σ, st')) → StackKeeps ds K st' := by
  induction n generalizing n' st with
  | zero => exact absurd rfl hn
  | succ n ih =>
    cases n' with
    | zero => exact absurd rfl hn'
    | succ n' =>
    match st with
    | [] => exact ⟨rfl, fun σ st' h => nomatch h⟩
    | ⟨σ, none, []⟩ :: st =>
      simp only [nextFuel, step] at hn hn' ⊢
      refine ⟨trivial, fun σ₁ st₁ h => ?_⟩
      simp only [Out.ok.injEq, Option.some.injEq, Prod.mk.injEq] at h
      rw [← h.2]
      exact fun s hs => hst s (by simp [hs])
    | ⟨σ, none, pat :: rest⟩ :: st =>
      simp only [nextFuel, step, candidates_filter (hst _ (List.mem_cons_self ..) pat (List.mem_cons_self ..))] at hn hn' ⊢
      refine ih n' _ ?_ hn hn'
      intro s hs p hp
      rcases List.mem_cons.1 hs with rfl | hs
      · exact hst _ (List.mem_cons_self ..) p (List.mem_cons_of_mem _ hp)
      · exact hst s (by simp [hs]) p hp
    | ⟨σ, some (pat, []), rest⟩ :: st =>
      simp only [nextFuel, step] at hn hn' ⊢
      exact ih n' _ (fun s hs => hst s (by simp [hs])) hn hn'
    | ⟨σ, some (pat, q :: qs), rest⟩ :: st =>
      simp only [nextFuel, step] at hn hn' ⊢
      have h0 : ∀ p ∈ rest, Keeps ds K p := hst _ (List.mem_cons_self ..)
      have h1 : StackKeeps ds K st := fun s hs => hst s (by simp [hs])
      match hr : (σ.withQuad pat q : Out Empty _) with
      | .ok (some σ₁) =>
        simp only [hr] at hn hn' ⊢
        refine ih n' _ ?_ hn hn'
        intro s hs
        simp only [List.mem_cons] at hs
        rcases hs with rfl | rfl | hs
        · exact h0
        · exact h0
        · exact h1 s hs
      | .ok none =>
        simp only [hr] at hn hn' ⊢
        refine ih n' _ ?_ hn hn'
        intro s hs
        simp only [List.mem_cons] at hs
        rcases hs with rfl | hs
        · exact h0
        · exact h1 s hs
      | .panic => exact ⟨rfl, fun _ _ h => nomatch h⟩
      | .fuel => exact ⟨rfl, fun _ _ h => nomatch h⟩
      | .err e => exact e.elim

theorem next_filter {ε : Type _} (st : Stack R) (h : StackKeeps ds K st) :
    (next ds st : Out ε _) = next (ds.filter K) st ∧
      ∀ σ st', (next ds st : Out ε _) = .ok (some (σ, st')) → StackKeeps ds K st' :=
  nextFuel_filter _ _ st h (next_ne_fuel ds st) (next_ne_fuel _ st)

theorem new_keeps (σ : Subst R) {pats : List (QuadPat R)} (h : KeepsAll ds K pats) (g : Option R) :
    StackKeeps ds K (new σ (withDefaultGraph pats g)) := by
  intro s hs p hp
  simp only [new, List.mem_singleton] at hs
  subst hs
  obtain ⟨p', hp', rfl⟩ := List.mem_map.1 hp
  exact h p' hp' g

theorem intoUnique_filter (σ : Subst R) {pats : List (QuadPat R)} (h : KeepsAll ds K pats) (g : Option R) :
    intoUnique ds (new σ (withDefaultGraph pats g)) = intoUnique (ds.filter K) (new σ (withDefaultGraph pats g)) := by
  obtain ⟨h1, h2⟩ := next_filter (ε := Error) _ (new_keeps σ h g)
  unfold intoUnique
  rw [← h1]
  cases hn : (next ds (new σ (withDefaultGraph pats g)) : Out Error _) with
  | ok o =>
    cases o with
    | none => rfl
    | some r =>
      obtain ⟨σ', st'⟩ := r
      simp only [Out.bind_ok]
      rw [← (next_filter (ε := Error) _ (h2 _ _ hn)).1]
  | err e => rfl
  | panic => rfl
  | fuel => rfl

end Matching

namespace Hydrate

open Matching

variable (c : HyCtx R) (K : Quad R → Bool)

theorem unique_filter (frag : DataFragment R) (σ : Subst R) {pats : List (QuadPat R)} (h : KeepsAll c.ds K pats) (g : Option R) :
    uniqueMatch c frag σ pats g = uniqueMatch { c with ds := c.ds.filter K } frag σ pats g := by
  unfold uniqueMatch
  rw [intoUnique_filter σ h g]

theorem required_filter (frag : DataFragment R) (σ : Subst R) {pats : List (QuadPat R)} (h : KeepsAll c.ds K pats) (g : Option R) :
    requiredMatch c frag σ pats g = requiredMatch { c with ds := c.ds.filter K } frag σ pats g := by
  unfold requiredMatch intoRequiredUnique
  rw [intoUnique_filter σ h g]

variable {P : R → Prop} {rec rec' : Rec R} (hrec : ∀ g ref, P ref → ∀ ins, rec g ref ins = rec' g ref ins)

include hrec

theorem subValue_filter (g : Option R) {fmt : ValueFormat R} (h : P fmt.layout) (σ : Subst R) :
    subValue rec g fmt σ = subValue rec' g fmt σ := by
  simp only [subValue, hrec _ _ h]

theorem variants_filter (g : Option R) (ref : R) (σ : Subst R) {vs : List (Variant R)}
    (h : ∀ v ∈ vs, KeepsAll c.ds K v.dataset ∧ P v.value.layout) (i : Nat) (sel : Option (Nat × TypedValue R)) :
    variants c rec g ref σ i vs sel = variants { c with ds := c.ds.filter K } rec' g ref σ i vs sel := by
  induction vs generalizing i sel with
  | nil => cases sel <;> rfl
  | cons v vs ih =>
    have ih := ih (fun x hx => h x (by simp [hx]))
    obtain ⟨h1, h2⟩ := h v (by simp)
    simp only [variants]
    rw [unique_filter c K _ σ h1]
    congr 1
    funext o
    cases o with
    | none => exact ih _ _
    | some σ' =>
      simp only
      rw [subValue_filter hrec g h2]
      cases subValue rec' g v.value σ' with
      | ok w => cases sel <;> simp [ih]
      | err e => exact ih _ _
      | panic => rfl
      | fuel => rfl

theorem fields_filter (g : Option R) (ref : R) (σ : Subst R) {fs : List (Value × Field R)}
    (h : ∀ e ∈ fs, KeepsAll c.ds K e.2.dataset ∧ P e.2.value.layout) :
    fields c rec g ref σ fs = fields { c with ds := c.ds.filter K } rec' g ref σ fs := by
  induction fs with
  | nil => rfl
  | cons e fs ih =>
    have ih := ih (fun x hx => h x (by simp [hx]))
    obtain ⟨h1, h2⟩ := h e (by simp)
    obtain ⟨k, f⟩ := e
    simp only [fields]
    rw [unique_filter c K _ _ h1]
    congr 1
    funext o
    cases o with
    | none => simp only [ih]
    | some σ' => simp only [subValue_filter hrec g h2, ih]

theorem nodes_filter (g : Option R) (ref : R) {node : ItemLayout R} (h : KeepsAll c.ds K node.dataset) (h' : P node.value.layout)
    (σ : Subst R) (tail : R) (n : Nat) (head : R) :
    nodes c rec g ref node σ tail n head = nodes { c with ds := c.ds.filter K } rec' g ref node σ tail n head := by
  induction n generalizing head with
  | zero => rw [nodes, nodes]
  | succ n ih =>
    rw [nodes, nodes]
    simp only [required_filter c K _ _ h, subValue_filter hrec g h', ih]

theorem sizedItems_filter (g : Option R) (ref : R) (σ : Subst R) {is : List (ItemLayout R)}
    (h : ∀ v ∈ is, KeepsAll c.ds K v.dataset ∧ P v.value.layout) (i : Nat) :
    sizedItems c rec g ref σ i is = sizedItems { c with ds := c.ds.filter K } rec' g ref σ i is := by
  induction is generalizing i with
  | nil => rfl
  | cons v is ih =>
    have ih := ih (fun x hx => h x (by simp [hx]))
    obtain ⟨h1, h2⟩ := h v (by simp)
    simp only [sizedItems, required_filter c K _ _ h1, subValue_filter hrec g h2, ih]

theorem unorderedItems_filter (g : Option R) {fmt : ValueFormat R} (hf : P fmt.layout) (n n' : Nat) (st : Stack R)
    (hst : StackKeeps c.ds K st) (hn : weight c.ds.length st < n) (hn' : weight (c.ds.filter K).length st < n') :
    unorderedItems c rec g fmt n st = unorderedItems { c with ds := c.ds.filter K } rec' g fmt n' st := by
  induction n generalizing n' st with
  | zero => omega
  | succ n ih =>
    cases n' with
    | zero => omega
    | succ n' =>
      simp only [unorderedItems]
      obtain ⟨h1, h2⟩ := next_filter (ε := HyError R) st hst
      have w : ∀ σ st₁, (next c.ds st : Out (HyError R) _) = .ok (some (σ, st₁)) → weight c.ds.length st₁ < weight c.ds.length st :=
        fun σ st₁ h => nextFuel_weight _ _ _ _ _ h
      have w' : ∀ σ st₁, (next (c.ds.filter K) st : Out (HyError R) _) = .ok (some (σ, st₁)) →
          weight (c.ds.filter K).length st₁ < weight (c.ds.filter K).length st :=
        fun σ st₁ h => nextFuel_weight _ _ _ _ _ h
      rw [← h1] at w'
      rw [← h1]
      cases hr : (next c.ds st : Out (HyError R) _) with
      | err e => rfl
      | panic => rfl
      | fuel => rfl
      | ok o =>
        cases o with
        | none => rfl
        | some r =>
          obtain ⟨σ, st₁⟩ := r
          have w := w _ _ hr
          have w' := w' _ _ hr
          simp only [Out.bind_ok]
          rw [subValue_filter hrec g hf, ih n' st₁ (h2 _ _ hr) (by omega) (by omega)]

theorem layout_filter (n : Nat) (g : Option R) (ref : R) (ins : List R) {l : Layout R} (hp : KeepsAll c.ds K l.patterns)
    (hf : ∀ f ∈ l.formats, P f.layout) :
    layout c rec n g ref ins l = layout { c with ds := c.ds.filter K } rec' n g ref ins l := by
  cases l with
  | never => rfl
  | always => rfl
  | unit l =>
    have h0 : KeepsAll c.ds K l.dataset := hp
    simp only [layout, required_filter c K _ _ h0]
  | boolean l =>
    have h0 : KeepsAll c.ds K l.dataset := hp
    simp only [layout, hydrateData, required_filter c K _ _ h0]
    rfl
  | number l =>
    have h0 : KeepsAll c.ds K l.dataset := hp
    simp only [layout, hydrateData, required_filter c K _ _ h0]
    rfl
  | byteString l =>
    have h0 : KeepsAll c.ds K l.dataset := hp
    simp only [layout, hydrateData, required_filter c K _ _ h0]
  | textString l =>
    have h0 : KeepsAll c.ds K l.dataset := hp
    simp only [layout, hydrateData, required_filter c K _ _ h0]
  | id l =>
    have h0 : KeepsAll c.ds K l.dataset := hp
    simp only [layout, hydrateId, required_filter c K _ _ h0]
  | sum l =>
    have h0 : KeepsAll c.ds K l.dataset := fun p h => hp p (List.mem_append.2 (.inl h))
    have h1 : ∀ v ∈ l.variants, KeepsAll c.ds K v.dataset ∧ P v.value.layout := fun v hv =>
      ⟨fun p h => hp p (List.mem_append.2 (.inr (List.mem_flatMap.2 ⟨v, hv, h⟩))), hf _ (List.mem_map.2 ⟨v, hv, rfl⟩)⟩
    simp only [layout, required_filter c K _ _ h0, variants_filter c K hrec _ _ _ h1]
  | product l =>
    have h0 : KeepsAll c.ds K l.dataset := fun p h => hp p (List.mem_append.2 (.inl h))
    have h1 : ∀ e ∈ l.fields, KeepsAll c.ds K e.2.dataset ∧ P e.2.value.layout := fun v hv =>
      ⟨fun p h => hp p (List.mem_append.2 (.inr (List.mem_flatMap.2 ⟨v, hv, h⟩))), hf _ (List.mem_map.2 ⟨v, hv, rfl⟩)⟩
    simp only [layout, required_filter c K _ _ h0, fields_filter c K hrec _ _ _ h1]
  | unordered l =>
    have h0 : KeepsAll c.ds K l.dataset := fun p h => hp p (List.mem_append.2 (.inl h))
    have h1 : KeepsAll c.ds K l.item.dataset := fun p h => hp p (List.mem_append.2 (.inr h))
    simp only [layout, required_filter c K _ _ h0]
    congr 1
    funext σ
    rw [unorderedItems_filter c K hrec g (hf _ (by simp [Layout.formats])) _ _ _ (new_keeps _ h1 g) (Nat.lt_succ_self _) (Nat.lt_succ_self _)]
  | ordered l =>
    have h0 : KeepsAll c.ds K l.dataset := fun p h => hp p (List.mem_append.2 (.inl h))
    have h1 : KeepsAll c.ds K l.node.dataset := fun p h => hp p (List.mem_append.2 (.inr h))
    simp only [layout, required_filter c K _ _ h0, nodes_filter c K hrec _ _ h1 (hf _ (by simp [Layout.formats]))]
  | sized l =>
    have h0 : KeepsAll c.ds K l.dataset := fun p h => hp p (List.mem_append.2 (.inl h))
    have h1 : ∀ v ∈ l.items, KeepsAll c.ds K v.dataset ∧ P v.value.layout := fun v hv =>
      ⟨fun p h => hp p (List.mem_append.2 (.inr (List.mem_flatMap.2 ⟨v, hv, h⟩))), hf _ (List.mem_map.2 ⟨v, hv, rfl⟩)⟩
    simp only [layout, required_filter c K _ _ h0, sizedItems_filter c K hrec _ _ _ h1]

omit hrec in
/-- Quads that no pattern admits may be left out. -/
theorem hydrate_filter (root : R)
    (h : ∀ ref, Reaches c.reg root ref → ∀ l, c.reg ref = some l → KeepsAll c.ds K l.patterns)
    (n : Nat) (g : Option R) (ref : R) (hr : Reaches c.reg root ref) (ins : List R) :
    hydrate c n g ref ins = hydrate { c with ds := c.ds.filter K } n g ref ins := by
  induction n generalizing g ref ins with
  | zero => rfl
  | succ n ih =>
    simp only [hydrate]
    cases hl : c.reg ref with
    | none => rfl
    | some l =>
      simp only
      split
      · rfl
      · exact layout_filter c K (P := Reaches c.reg root) (fun g ref hr ins => ih g ref hr ins) n g ref ins (h ref hr l hl)
          fun f hf => .step hr hl hf

end Hydrate

end Verif
