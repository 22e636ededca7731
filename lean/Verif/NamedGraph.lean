import Verif.MatchingLemmas
import Verif.Hydrate
import Verif.NamedGraphSpec

/-! # Hydration in a graph -/

set_option linter.unusedSectionVars false
set_option linter.unusedSimpArgs false

namespace Verif

variable {R : Type _} [DecidableEq R]

namespace Matching

/-- The pattern, in the graph. -/
def inGraph (g : Option R) (pat : QuadPat R) : QuadPat R := { pat with g := g.map .res }

theorem withDefaultGraph_inGraph {pats : List (QuadPat R)} (h : ∀ p ∈ pats, p.g = none) (g : Option R) :
    withDefaultGraph pats g = pats.map (inGraph g) := by
  unfold withDefaultGraph
  refine List.map_congr_left fun p hp => ?_
  simp [inGraph, h p hp]

theorem withDefaultGraph_none {pats : List (QuadPat R)} (h : ∀ p ∈ pats, p.g = none) : withDefaultGraph pats none = pats := by
  rw [withDefaultGraph_inGraph h]
  conv_rhs => rw [← List.map_id pats]
  refine List.map_congr_left fun p hp => ?_
  obtain ⟨s, p', o, g'⟩ := p
  have := h _ hp
  simp at this
  simp [inGraph, this]

theorem admits_inGraph {pat : QuadPat R} (h : pat.g = none) (g : Option R) (q : Quad R) :
    (inGraph g pat).admits q = (decide (q.g = g) && pat.admits { q with g := none }) := by
  obtain ⟨s, p, o, g'⟩ := pat
  obtain ⟨a, b, c, g₁⟩ := q
  simp only at h
  subst h
  cases g with
  | none => cases g₁ <;> simp [inGraph, QuadPat.admits]
  | some g =>
    cases g₁ with
    | none => simp [inGraph, QuadPat.admits]
    | some g₁ =>
      have hv : ∀ (p : Pattern R) (a : R), sameVar p (.res g) a g₁ = true := by intro p a; cases p <;> rfl
      have e : (g == g₁) = decide (g₁ = g) := by rw [Bool.beq_eq_decide_eq]; exact decide_eq_decide.2 eq_comm
      simp [inGraph, QuadPat.admits, hv, Pattern.admits, e, Bool.and_comm]

/-- The state in the graph. -/
def State.Agree (g : Option R) (s s' : State R) : Prop :=
  s.subst = s'.subst ∧ s.rest = s'.rest.map (inGraph g) ∧ (∀ p ∈ s'.rest, p.g = none) ∧
    ((s.quadState = none ∧ s'.quadState = none) ∨
      ∃ pat ms ms', s.quadState = some (inGraph g pat, ms) ∧ s'.quadState = some (pat, ms') ∧ pat.g = none ∧
        ms' = ms.map (fun q => { q with g := none }))

theorem candidates_slice (ds : List (Quad R)) (g : Option R) {pat : QuadPat R} (h : pat.g = none) :
    candidates (ds.graph g) pat = (candidates ds (inGraph g pat)).map (fun q => { q with g := none }) := by
  induction ds with
  | nil => rfl
  | cons q ds ih =>
    simp only [candidates, List.graph, List.filter_cons] at ih ⊢
    rw [admits_inGraph h]
    by_cases hq : q.g = g
    · simp only [hq, decide_true, if_true, List.map_cons, List.filter_cons, Bool.true_and]
      split
      · simp [ih]
      · exact ih
    · simp only [hq, decide_false, Bool.false_and, Bool.false_eq_true, if_false]
      exact ih

theorem withQuad_inGraph {ε} (σ : Subst R) (g : Option R) {pat : QuadPat R} (h : pat.g = none) (q : Quad R) :
    (σ.withQuad (inGraph g pat) q : Out ε _) = σ.withQuad pat { q with g := none } := by
  unfold Subst.withQuad
  cases g <;> simp [inGraph, h]

/-- Two results of `next`. -/
inductive NextAgree {ε} (g : Option R) : Out ε (Option (Subst R × Stack R)) → Out ε (Option (Subst R × Stack R)) → Prop
  | none : NextAgree g (.ok none) (.ok none)
  | panic : NextAgree g .panic .panic
  | some {σ st st'} (h : List.Forall₂ (State.Agree g) st st') : NextAgree g (.ok (some (σ, st))) (.ok (some (σ, st')))

theorem nextFuel_agree {ε : Type _} (ds : List (Quad R)) (g : Option R) :
    ∀ (n n' : Nat) (st st' : Stack R), List.Forall₂ (State.Agree g) st st' →
      (nextFuel ds n st : Out ε _) ≠ .fuel → (nextFuel (ds.graph g) n' st' : Out ε _) ≠ .fuel →
      NextAgree g (nextFuel ds n st : Out ε _) (nextFuel (ds.graph g) n' st') := by
  intro n
  induction n with
  | zero => intro n' st st' _ h; exact absurd rfl h
  | succ n ih =>
    intro n' st st' hst hn hn'
    cases n' with
    | zero => exact absurd rfl hn'
    | succ n' =>
    cases hst with
    | nil => exact .none
    | @cons s s' st st' hs hst =>
      obtain ⟨σ, qs, rest⟩ := s
      obtain ⟨σ', qs', rest'⟩ := s'
      obtain ⟨hσ, hrest, hfree, hstate⟩ := hs
      simp only at hσ hrest hfree hstate
      subst hσ hrest
      rcases hstate with ⟨rfl, rfl⟩ | ⟨pat, ms, ms', rfl, rfl, hg, rfl⟩
      · cases rest' with
        | nil =>
          simp only [nextFuel, step, List.map_nil]
          exact .some hst
        | cons pat rest =>
          simp only [nextFuel, step, List.map_cons] at hn hn' ⊢
          exact ih n' _ _ (.cons ⟨rfl, rfl, fun q h => hfree q (by simp [h]), .inr ⟨pat, _, _, rfl, rfl, hfree pat (by simp),
            candidates_slice ds g (hfree pat (by simp))⟩⟩ hst) hn hn'
      · cases ms with
        | nil =>
          simp only [nextFuel, step, List.map_nil] at hn hn' ⊢
          exact ih n' _ _ hst hn hn'
        | cons q ms =>
          have hs : State.Agree g ⟨σ, some (inGraph g pat, ms), rest'.map (inGraph g)⟩
            ⟨σ, some (pat, ms.map (fun q => { q with g := none })), rest'⟩ :=
            ⟨rfl, rfl, hfree, .inr ⟨pat, ms, _, rfl, rfl, hg, rfl⟩⟩
          have e := withQuad_inGraph (ε := Empty) σ g hg q
          simp only [nextFuel, step, List.map_cons] at hn hn' ⊢
          rw [e] at hn ⊢
          match hr : (σ.withQuad pat { q with g := none } : Out Empty _) with
          | .ok (some σ₁) =>
            simp only [hr] at hn hn' ⊢
            exact ih n' _ _ (.cons ⟨rfl, rfl, hfree, .inl ⟨rfl, rfl⟩⟩ (.cons hs hst)) hn hn'
          | .ok none =>
            simp only [hr] at hn hn' ⊢
            exact ih n' _ _ (.cons hs hst) hn hn'
          | .panic => exact .panic
          | .fuel => exact .panic
          | .err e => exact e.elim

theorem next_agree {ε : Type _} (ds : List (Quad R)) (g : Option R) (st st' : Stack R) (h : List.Forall₂ (State.Agree g) st st') :
    NextAgree g (next ds st : Out ε _) (next (ds.graph g) st') :=
  nextFuel_agree ds g _ _ st st' h (next_ne_fuel ds st) (next_ne_fuel _ st')

theorem new_agree (σ : Subst R) {pats : List (QuadPat R)} (h : ∀ p ∈ pats, p.g = none) (g : Option R) :
    List.Forall₂ (State.Agree g) (new σ (withDefaultGraph pats g)) (new σ (withDefaultGraph pats none)) := by
  rw [withDefaultGraph_inGraph h g, withDefaultGraph_none h]
  exact .cons ⟨rfl, rfl, h, .inl ⟨rfl, rfl⟩⟩ .nil

theorem intoUnique_agree (ds : List (Quad R)) (σ : Subst R) {pats : List (QuadPat R)} (h : ∀ p ∈ pats, p.g = none) (g : Option R) :
    intoUnique ds (new σ (withDefaultGraph pats g)) = intoUnique (ds.graph g) (new σ (withDefaultGraph pats none)) := by
  have h := next_agree (ε := Error) ds g _ _ (new_agree σ h g)
  unfold intoUnique
  generalize (next ds (new σ (withDefaultGraph pats g)) : Out Error _) = a at h
  generalize (next (ds.graph g) (new σ (withDefaultGraph pats none)) : Out Error _) = b at h
  cases h with
  | none => rfl
  | panic => rfl
  | @some σ₁ st st' hst =>
    have h := next_agree (ε := Error) ds g _ _ hst
    simp only [Out.bind_ok]
    generalize (next ds st : Out Error _) = a at h
    generalize (next (ds.graph g) st' : Out Error _) = b at h
    cases h with
    | none => rfl
    | panic => rfl
    | some _ => rfl

end Matching

namespace Hydrate

open Matching

variable (c : HyCtx R) (g : Option R)

theorem unique_graph (frag : DataFragment R) (σ : Subst R) {pats : List (QuadPat R)} (h : ∀ p ∈ pats, p.g = none) :
    uniqueMatch c frag σ pats g = uniqueMatch { c with ds := c.ds.graph g } frag σ pats none := by
  unfold uniqueMatch
  rw [intoUnique_agree c.ds σ h g]

theorem required_graph (frag : DataFragment R) (σ : Subst R) {pats : List (QuadPat R)} (h : ∀ p ∈ pats, p.g = none) :
    requiredMatch c frag σ pats g = requiredMatch { c with ds := c.ds.graph g } frag σ pats none := by
  unfold requiredMatch intoRequiredUnique
  rw [intoUnique_agree c.ds σ h g]

variable {P : R → Prop} {rec rec' : Rec R} (hrec : ∀ ref, P ref → ∀ ins, rec g ref ins = rec' none ref ins)

include hrec

theorem subValue_graph {fmt : ValueFormat R} (h : fmt.graph = none ∧ P fmt.layout) (σ : Subst R) :
    subValue rec g fmt σ = subValue rec' none fmt σ := by
  simp only [subValue, h.1, selectGraph, Out.bind_ok, hrec _ h.2]

theorem variants_graph (ref : R) (σ : Subst R) {vs : List (Variant R)}
    (h : ∀ v ∈ vs, (∀ p ∈ v.dataset, p.g = none) ∧ v.value.graph = none ∧ P v.value.layout) (i : Nat) (sel : Option (Nat × TypedValue R)) :
    variants c rec g ref σ i vs sel = variants { c with ds := c.ds.graph g } rec' none ref σ i vs sel := by
  induction vs generalizing i sel with
  | nil => cases sel <;> rfl
  | cons v vs ih =>
    have ih := ih (fun x hx => h x (by simp [hx]))
    obtain ⟨h1, h2⟩ := h v (by simp)
    simp only [variants]
    rw [unique_graph c g _ σ h1]
    congr 1
    funext o
    cases o with
    | none => exact ih _ _
    | some σ' =>
      simp only
      rw [subValue_graph g hrec h2]
      cases subValue rec' none v.value σ' with
      | ok w => cases sel <;> simp [ih]
      | err e => exact ih _ _
      | panic => rfl
      | fuel => rfl

theorem fields_graph (ref : R) (σ : Subst R) {fs : List (Value × Field R)}
    (h : ∀ e ∈ fs, (∀ p ∈ e.2.dataset, p.g = none) ∧ e.2.value.graph = none ∧ P e.2.value.layout) :
    fields c rec g ref σ fs = fields { c with ds := c.ds.graph g } rec' none ref σ fs := by
  induction fs with
  | nil => rfl
  | cons e fs ih =>
    have ih := ih (fun x hx => h x (by simp [hx]))
    obtain ⟨h1, h2⟩ := h e (by simp)
    obtain ⟨k, f⟩ := e
    simp only [fields]
    rw [unique_graph c g _ _ h1]
    congr 1
    funext o
    cases o with
    | none => simp only [ih]
    | some σ' => simp only [subValue_graph g hrec h2, ih]

theorem nodes_graph (ref : R) {node : ItemLayout R} (h : ∀ p ∈ node.dataset, p.g = none) (h' : node.value.graph = none ∧ P node.value.layout) (σ : Subst R)
    (tail : R) (n : Nat) (head : R) :
    nodes c rec g ref node σ tail n head = nodes { c with ds := c.ds.graph g } rec' none ref node σ tail n head := by
  induction n generalizing head with
  | zero => rw [nodes, nodes]
  | succ n ih =>
    rw [nodes, nodes]
    simp only [required_graph c g _ _ h, subValue_graph g hrec h', ih]

theorem sizedItems_graph (ref : R) (σ : Subst R) {is : List (ItemLayout R)}
    (h : ∀ v ∈ is, (∀ p ∈ v.dataset, p.g = none) ∧ v.value.graph = none ∧ P v.value.layout) (i : Nat) :
    sizedItems c rec g ref σ i is = sizedItems { c with ds := c.ds.graph g } rec' none ref σ i is := by
  induction is generalizing i with
  | nil => rfl
  | cons v is ih =>
    have ih := ih (fun x hx => h x (by simp [hx]))
    obtain ⟨h1, h2⟩ := h v (by simp)
    simp only [sizedItems, required_graph c g _ _ h1, subValue_graph g hrec h2, ih]

theorem unorderedItems_graph {fmt : ValueFormat R} (hf : fmt.graph = none ∧ P fmt.layout) (n n' : Nat) (st st' : Stack R)
    (hst : List.Forall₂ (State.Agree g) st st') (hn : weight c.ds.length st < n) (hn' : weight (c.ds.graph g).length st' < n') :
    unorderedItems c rec g fmt n st = unorderedItems { c with ds := c.ds.graph g } rec' none fmt n' st' := by
  induction n generalizing n' st st' with
  | zero => omega
  | succ n ih =>
    cases n' with
    | zero => omega
    | succ n' =>
      simp only [unorderedItems]
      have h := next_agree (ε := HyError R) c.ds g st st' hst
      have w : ∀ σ st₁, (next c.ds st : Out (HyError R) _) = .ok (some (σ, st₁)) → weight c.ds.length st₁ < weight c.ds.length st :=
        fun σ st₁ h => nextFuel_weight _ _ _ _ _ h
      have w' : ∀ σ st₁, (next (c.ds.graph g) st' : Out (HyError R) _) = .ok (some (σ, st₁)) →
          weight (c.ds.graph g).length st₁ < weight (c.ds.graph g).length st' :=
        fun σ st₁ h => nextFuel_weight _ _ _ _ _ h
      generalize (next c.ds st : Out (HyError R) _) = a at h w
      generalize (next (c.ds.graph g) st' : Out (HyError R) _) = a' at h w'
      cases h with
      | none => rfl
      | panic => rfl
      | @some σ st₁ st₁' hst₁ =>
        have w := w _ _ rfl
        have w' := w' _ _ rfl
        simp only [Out.bind_ok]
        rw [subValue_graph g hrec hf, ih n' st₁ st₁' hst₁ (by omega) (by omega)]

theorem layout_graph (n : Nat) (ref : R) (ins : List R) {l : Layout R} (hp : ∀ p ∈ l.patterns, p.g = none)
    (hf : ∀ f ∈ l.formats, f.graph = none ∧ P f.layout) :
    layout c rec n g ref ins l = layout { c with ds := c.ds.graph g } rec' n none ref ins l := by
  cases l with
  | never => rfl
  | always => rfl
  | unit l =>
    have h0 : ∀ p ∈ l.dataset, p.g = none := hp
    simp only [layout, required_graph c g _ _ h0]
  | boolean l =>
    have h0 : ∀ p ∈ l.dataset, p.g = none := hp
    simp only [layout, hydrateData, required_graph c g _ _ h0]
    rfl
  | number l =>
    have h0 : ∀ p ∈ l.dataset, p.g = none := hp
    simp only [layout, hydrateData, required_graph c g _ _ h0]
    rfl
  | byteString l =>
    have h0 : ∀ p ∈ l.dataset, p.g = none := hp
    simp only [layout, hydrateData, required_graph c g _ _ h0]
  | textString l =>
    have h0 : ∀ p ∈ l.dataset, p.g = none := hp
    simp only [layout, hydrateData, required_graph c g _ _ h0]
  | id l =>
    have h0 : ∀ p ∈ l.dataset, p.g = none := hp
    simp only [layout, hydrateId, required_graph c g _ _ h0]
  | sum l =>
    have h0 : ∀ p ∈ l.dataset, p.g = none := fun p h => hp p (List.mem_append.2 (.inl h))
    have h1 : ∀ v ∈ l.variants, (∀ p ∈ v.dataset, p.g = none) ∧ v.value.graph = none ∧ P v.value.layout := fun v hv =>
      ⟨fun p h => hp p (List.mem_append.2 (.inr (List.mem_flatMap.2 ⟨v, hv, h⟩))), hf _ (List.mem_map.2 ⟨v, hv, rfl⟩)⟩
    simp only [layout, required_graph c g _ _ h0, variants_graph c g hrec _ _ h1]
  | product l =>
    have h0 : ∀ p ∈ l.dataset, p.g = none := fun p h => hp p (List.mem_append.2 (.inl h))
    have h1 : ∀ e ∈ l.fields, (∀ p ∈ e.2.dataset, p.g = none) ∧ e.2.value.graph = none ∧ P e.2.value.layout := fun v hv =>
      ⟨fun p h => hp p (List.mem_append.2 (.inr (List.mem_flatMap.2 ⟨v, hv, h⟩))), hf _ (List.mem_map.2 ⟨v, hv, rfl⟩)⟩
    simp only [layout, required_graph c g _ _ h0, fields_graph c g hrec _ _ h1]
  | unordered l =>
    have h0 : ∀ p ∈ l.dataset, p.g = none := fun p h => hp p (List.mem_append.2 (.inl h))
    have h1 : ∀ p ∈ l.item.dataset, p.g = none := fun p h => hp p (List.mem_append.2 (.inr h))
    simp only [layout, required_graph c g _ _ h0]
    congr 1
    funext σ
    rw [unorderedItems_graph c g hrec (hf _ (by simp [Layout.formats])) _ _ _ _ (new_agree _ h1 g) (Nat.lt_succ_self _) (Nat.lt_succ_self _)]
  | ordered l =>
    have h0 : ∀ p ∈ l.dataset, p.g = none := fun p h => hp p (List.mem_append.2 (.inl h))
    have h1 : ∀ p ∈ l.node.dataset, p.g = none := fun p h => hp p (List.mem_append.2 (.inr h))
    simp only [layout, required_graph c g _ _ h0, nodes_graph c g hrec _ h1 (hf _ (by simp [Layout.formats]))]
  | sized l =>
    have h0 : ∀ p ∈ l.dataset, p.g = none := fun p h => hp p (List.mem_append.2 (.inl h))
    have h1 : ∀ v ∈ l.items, (∀ p ∈ v.dataset, p.g = none) ∧ v.value.graph = none ∧ P v.value.layout := fun v hv =>
      ⟨fun p h => hp p (List.mem_append.2 (.inr (List.mem_flatMap.2 ⟨v, hv, h⟩))), hf _ (List.mem_map.2 ⟨v, hv, rfl⟩)⟩
    simp only [layout, required_graph c g _ _ h0, sizedItems_graph c g hrec _ _ h1]

omit hrec in
/-- Hydration in a graph is hydration of the graph. -/
theorem hydrate_graph (root : R) (h : NoGraph c.reg root) (n : Nat) (ref : R) (hr : Reaches c.reg root ref) (ins : List R) :
    hydrate c n g ref ins = hydrate { c with ds := c.ds.graph g } n none ref ins := by
  induction n generalizing ref ins with
  | zero => rfl
  | succ n ih =>
    simp only [hydrate]
    cases hl : c.reg ref with
    | none => rfl
    | some l =>
      simp only
      split
      · rfl
      · exact layout_graph c g (P := Reaches c.reg root) ih n ref ins (h ref hr l hl).1
          fun f hf => ⟨(h ref hr l hl).2 f hf, .step hr hl hf⟩

end Hydrate

end Verif
