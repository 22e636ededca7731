import Verif.RelabelSpec
import Verif.VariantOrder

/-!
# Hydration with layouts under other identifiers

Helper lemmas for C102. No further code is modelled.
-/

set_option linter.unusedSectionVars false
set_option linter.unusedSimpArgs false

namespace Verif

variable {R : Type _} [DecidableEq R]

namespace Out.Relabelled

variable {α β γ δ : Type _} {f : R → R} {P : α → β → Prop} {Q : γ → δ → Prop}

theorem bind {a : Out (HyError R) α} {b : Out (HyError R) β} {k : α → Out (HyError R) γ} {k' : β → Out (HyError R) δ}
    (h : Relabelled f P a b) (hk : ∀ x y, P x y → Relabelled f Q (k x) (k' y)) : Relabelled f Q (a.bind k) (b.bind k') := by
  cases h with
  | ok h => exact hk _ _ h
  | err e => exact .err e
  | panic => exact .panic
  | fuel => exact .fuel

end Out.Relabelled

namespace Hydrate

variable {c : HyCtx R} {f : R → R} {rec rec' : Rec R} {P : TypedValue R → TypedValue R → Prop} {g : Option R} {ref : R} {σ : Subst R}

theorem requiredMatch_relabel (frag : DataFragment R) (σ : Subst R) (pats : List (QuadPat R)) :
    Out.Relabelled f Eq (requiredMatch c frag σ pats g) (requiredMatch c (frag.relabel f) σ pats g) := by
  unfold requiredMatch
  cases Matching.intoRequiredUnique c.ds (Matching.new σ (withDefaultGraph pats g)) with
  | ok a => exact .ok rfl
  | err e =>
    cases e
    · exact .err (.dataAmbiguity frag)
    · exact .err (.missingData frag)
  | panic => exact .panic
  | fuel => exact .fuel

theorem uniqueMatch_relabel (frag : DataFragment R) (σ : Subst R) (pats : List (QuadPat R)) :
    Out.Relabelled f Eq (uniqueMatch c frag σ pats g) (uniqueMatch c (frag.relabel f) σ pats g) := by
  unfold uniqueMatch
  cases Matching.intoUnique c.ds (Matching.new σ (withDefaultGraph pats g)) with
  | ok a => exact .ok rfl
  | err e =>
    cases e
    · exact .err (.dataAmbiguity frag)
    · exact .err (.missingData frag)
  | panic => exact .panic
  | fuel => exact .fuel

theorem ofOption_relabel {α : Type _} (o : Option α) : Out.Relabelled f Eq (Out.ofOption o) (Out.ofOption o) := by
  cases o with
  | none => exact .panic
  | some a => exact .ok rfl

theorem resource_relabel (pat : Pattern R) (σ : Subst R) : Out.Relabelled f Eq (resource pat σ) (resource pat σ) := ofOption_relabel _

theorem selectInputs_relabel (ins : List (Pattern R)) (σ : Subst R) : Out.Relabelled f Eq (selectInputs ins σ) (selectInputs ins σ) := by
  unfold selectInputs
  induction ins with
  | nil => exact .ok rfl
  | cons p ins ih =>
    unfold Out.mapM'
    refine (resource_relabel p σ).bind ?_
    rintro x _ rfl
    refine ih.bind ?_
    rintro y _ rfl
    exact .ok rfl

theorem selectGraph_relabel (pat : Option (Option (Pattern R))) (σ : Subst R) :
    Out.Relabelled f Eq (selectGraph g pat σ) (selectGraph g pat σ) := by
  rcases pat with _ | _ | p
  · exact .ok rfl
  · exact .ok rfl
  · unfold selectGraph
    cases h : p.value σ with
    | none => simp only [resource, h]; exact .panic
    | some a => simp only [resource, h]; exact .ok rfl

/-- No error of a computation mentions a layout. -/
theorem scanLiterals_relabel {α : Type _} {parse : String → String → Out (HyError R) α}
    (hp : ∀ s t, Out.Relabelled f Eq (parse s t) (parse s t)) (ts : List String) (ls : List RdfLit) (o : Option α) :
    Out.Relabelled f Eq (scanLiterals parse ts ls o) (scanLiterals parse ts ls o) := by
  induction ls generalizing o with
  | nil => exact .ok rfl
  | cons l ls ih =>
    unfold scanLiterals
    split
    · exact .panic
    · split
      · refine (hp _ _).bind ?_
        rintro x _ rfl
        cases o with
        | some y => exact .panic
        | none => exact ih _
      · exact ih _

theorem hydrateData_relabel {α : Type _} {parse : String → String → Out (HyError R) α}
    (hp : ∀ s t, Out.Relabelled f Eq (parse s t) (parse s t)) (l : DataLayout R) (inputs : List R) {mk mk' : α → TypedLiteral R}
    (hmk : ∀ a, mk' a = (mk a).relabel f) (reg : Registry R) :
    Out.Relabelled f (TypedValue.Relabelled reg f) ((hydrateData c g ref l inputs parse mk).map .literal)
      ((hydrateData c g (f ref) l inputs parse mk').map .literal) := by
  have : Out.Relabelled f (fun a b => b = a.relabel f) (hydrateData c g ref l inputs parse mk) (hydrateData c g (f ref) l inputs parse mk') := by
    unfold hydrateData
    refine (requiredMatch_relabel (.discriminant ref) _ _).bind ?_
    rintro σ _ rfl
    refine (resource_relabel _ _).bind ?_
    rintro r _ rfl
    refine (scanLiterals_relabel hp _ _ _).bind ?_
    rintro o _ rfl
    cases o with
    | none => exact .err .noMatchingLiteral
    | some a => exact .ok (hmk a)
  revert this
  generalize hydrateData c g ref l inputs parse mk = x
  generalize hydrateData c g (f ref) l inputs parse mk' = y
  intro h
  cases h with
  | ok h => subst h; exact .ok (.literal _)
  | err e => exact .err e
  | panic => exact .panic
  | fuel => exact .fuel

theorem hydrateId_relabel (l : IdLayout R) (inputs : List R) (reg : Registry R) :
    Out.Relabelled f (TypedValue.Relabelled reg f) ((hydrateId c g ref l inputs).map .literal)
      ((hydrateId c g (f ref) l inputs).map .literal) := by
  have : Out.Relabelled f (fun a b => b = a.relabel f) (hydrateId c g ref l inputs) (hydrateId c g (f ref) l inputs) := by
    unfold hydrateId
    refine (requiredMatch_relabel (.discriminant ref) _ _).bind ?_
    rintro σ _ rfl
    refine (resource_relabel _ _).bind ?_
    rintro r _ rfl
    split
    · exact .ok rfl
    · exact .panic
  revert this
  generalize hydrateId c g ref l inputs = x
  generalize hydrateId c g (f ref) l inputs = y
  intro h
  cases h with
  | ok h => subst h; exact .ok (.literal _)
  | err e => exact .err e
  | panic => exact .panic
  | fuel => exact .fuel

variable (hrec : ∀ g r i, Out.Relabelled f P (rec g r i) (rec' g (f r) i))

include hrec

theorem subValue_relabel (fmt : ValueFormat R) (τ : Subst R) :
    Out.Relabelled f P (subValue rec g fmt τ) (subValue rec' g (fmt.relabel f) τ) := by
  unfold subValue
  refine (selectInputs_relabel _ _).bind ?_
  rintro ins _ rfl
  refine (selectGraph_relabel _ _).bind ?_
  rintro g' _ rfl
  exact hrec _ _ _

theorem variants_relabel (vs : List (Variant R)) (i : Nat) {sel sel' : Option (Nat × TypedValue R)}
    (hs : Option.Rel (fun a b => a.1 = b.1 ∧ P a.2 b.2) sel sel') :
    Out.Relabelled f (fun v v' => ∃ w w' i, v = .variant w ref i ∧ v' = .variant w' (f ref) i ∧ P w w')
      (variants c rec g ref σ i vs sel) (variants c rec' g (f ref) σ i (vs.map (Variant.relabel f)) sel') := by
  induction vs generalizing i sel sel' with
  | nil =>
    cases hs with
    | none => exact .panic
    | @some a b h =>
      obtain ⟨j, w⟩ := a
      obtain ⟨j', w'⟩ := b
      obtain ⟨h1, h2⟩ := h
      dsimp only at h1 h2
      subst h1
      exact .ok ⟨w, w', j, rfl, rfl, h2⟩
  | cons x vs ih =>
    rw [List.map_cons]
    unfold variants
    refine (uniqueMatch_relabel (.variant ref x.name) _ _).bind ?_
    rintro o _ rfl
    cases o with
    | none => exact ih _ hs
    | some τ =>
      dsimp only
      have h := subValue_relabel (g := g) hrec x.value τ
      change Out.Relabelled f _ _ (match subValue rec' g (x.value.relabel f) τ with | .ok v => _ | .err _ => _ | .panic => _ | .fuel => _)
      revert h
      generalize subValue rec g x.value τ = a
      generalize subValue rec' g (x.value.relabel f) τ = b
      intro h
      cases h with
      | ok h =>
        cases hs with
        | none => exact ih _ (.some ⟨rfl, h⟩)
        | some _ => exact .panic
      | err e => exact ih _ hs
      | panic => exact .panic
      | fuel => exact .fuel

theorem fields_relabel (fs : List (Value × Field R)) :
    Out.Relabelled f (List.Forall₂ fun a b => a.1 = b.1 ∧ P a.2 b.2) (fields c rec g ref σ fs)
      (fields c rec' g (f ref) σ (fs.map fun x => (x.1, x.2.relabel f))) := by
  induction fs with
  | nil => exact .ok .nil
  | cons e fs ih =>
    obtain ⟨k, field⟩ := e
    rw [List.map_cons]
    unfold fields
    refine (uniqueMatch_relabel (.key ref k) _ _).bind ?_
    rintro o _ rfl
    cases o with
    | some τ =>
      exact (subValue_relabel hrec field.value _).bind fun v v' hv => ih.bind fun r r' hr => .ok (.cons ⟨rfl, hv⟩ hr)
    | none =>
      dsimp only
      change Out.Relabelled f _ _ (if field.required = true then _ else _)
      split
      · exact .err (.missingData (.key ref k))
      · exact ih

theorem nodes_relabel (node : ItemLayout R) (tail : R) (n : Nat) (head : R) :
    Out.Relabelled f (List.Forall₂ P) (nodes c rec g ref node σ tail n head)
      (nodes c rec' g (f ref) (node.relabel f) σ tail n head) := by
  induction n generalizing head with
  | zero =>
    unfold nodes
    split
    · exact .ok .nil
    · exact .fuel
  | succ n ih =>
    unfold nodes
    split
    · exact .ok .nil
    · refine (requiredMatch_relabel (.orderedListNode ref head tail) _ _).bind ?_
      rintro τ _ rfl
      refine (subValue_relabel hrec node.value _).bind fun v v' hv => (ofOption_relabel _).bind ?_
      rintro h _ rfl
      exact (ih h).bind fun r r' hr => .ok (.cons hv hr)

theorem sizedItems_relabel (is : List (ItemLayout R)) (k : Nat) :
    Out.Relabelled f (List.Forall₂ P) (sizedItems c rec g ref σ k is)
      (sizedItems c rec' g (f ref) σ k (is.map (ItemLayout.relabel f))) := by
  induction is generalizing k with
  | nil => exact .ok .nil
  | cons item is ih =>
    rw [List.map_cons]
    unfold sizedItems
    refine (requiredMatch_relabel (.sizedListItem ref k) _ _).bind ?_
    rintro τ _ rfl
    exact (subValue_relabel hrec item.value _).bind fun v v' hv => (ih _).bind fun r r' hr => .ok (.cons hv hr)

omit hrec in
/-- Failures of the iteration itself are not errors. -/
theorem next_relabel (st : Matching.Stack R) :
    Out.Relabelled f Eq (Matching.next c.ds st : Out (HyError R) _) (Matching.next c.ds st) := by
  have : ∀ e : HyError R, (Matching.next c.ds st : Out (HyError R) _) ≠ .err e := by
    intro e
    unfold Matching.next
    generalize Matching.weight c.ds.length st + 1 = n
    induction n generalizing st with
    | zero => exact nofun
    | succ n ih =>
      unfold Matching.nextFuel
      split
      · exact ih _
      all_goals exact nofun
  cases h : (Matching.next c.ds st : Out (HyError R) _) with
  | ok a => exact .ok rfl
  | err e => exact absurd h (this e)
  | panic => exact .panic
  | fuel => exact .fuel

theorem unorderedItems_relabel (fmt : ValueFormat R) (n : Nat) (st : Matching.Stack R) :
    Out.Relabelled f (List.Forall₂ P) (unorderedItems c rec g fmt n st) (unorderedItems c rec' g (fmt.relabel f) n st) := by
  induction n generalizing st with
  | zero => exact .fuel
  | succ n ih =>
    unfold unorderedItems
    refine (next_relabel st).bind ?_
    rintro o _ rfl
    cases o with
    | none => exact .ok .nil
    | some p =>
      obtain ⟨τ, st'⟩ := p
      exact (subValue_relabel hrec _ _).bind fun v v' hv => (ih _).bind fun r r' hr => .ok (.cons hv hr)

omit hrec in
theorem layout_relabel (hrec : ∀ g r i, Out.Relabelled f (TypedValue.Relabelled c.reg f) (rec g r i) (rec' g (f r) i)) (l : Layout R)
    (hr : c.reg ref = some l) (n : Nat) (inputs : List R) :
    Out.Relabelled f (TypedValue.Relabelled c.reg f) (layout c rec n g ref inputs l)
      (layout c rec' n g (f ref) inputs (l.relabel f)) := by
  cases l with
  | never => exact .err .incompatibleLayout
  | always => exact .ok (.always _)
  | unit l =>
    simp only [layout, Layout.relabel]
    refine (requiredMatch_relabel (.discriminant ref) _ _).bind ?_
    rintro σ _ rfl
    exact .ok (.literal (.unit l.const ref))
  | boolean l =>
    refine hydrateData_relabel (fun s t => ?_) _ _ (fun _ => rfl) _
    unfold booleanValue
    split
    · exact ofOption_relabel _
    · exact .panic
  | number l =>
    refine hydrateData_relabel (fun s t => ?_) _ _ (fun _ => rfl) _
    unfold numberValue
    split
    · exact ofOption_relabel _
    · exact .err (.unknownNumberDatatype _)
  | byteString l => exact hydrateData_relabel (fun s t => .panic) _ _ (fun _ => rfl) _
  | textString l => exact hydrateData_relabel (fun s t => .ok rfl) _ _ (fun _ => rfl) _
  | id l => exact hydrateId_relabel _ _ _
  | sum l =>
    simp only [layout, Layout.relabel]
    refine (requiredMatch_relabel (.discriminant ref) _ _).bind ?_
    rintro σ _ rfl
    have h := variants_relabel (c := c) (g := g) (ref := ref) (σ := σ) hrec l.variants 0 (sel := none) (sel' := none) .none
    revert h
    generalize variants c rec g ref σ 0 l.variants none = a
    generalize variants c rec' g (f ref) σ 0 (l.variants.map (Variant.relabel f)) none = b
    intro h
    cases h with
    | ok h =>
      obtain ⟨w, w', i, rfl, rfl, h⟩ := h
      exact .ok (.variant ref i h)
    | err e => exact .err e
    | panic => exact .panic
    | fuel => exact .fuel
  | product l =>
    simp only [layout, Layout.relabel]
    refine (requiredMatch_relabel (.discriminant ref) _ _).bind ?_
    rintro σ _ rfl
    exact (fields_relabel hrec _).bind fun m m' h =>
      .ok (.map ref (forall₂_keys h) fun i a b ha hb => (forall₂_getElem? h ha hb).2)
  | ordered l =>
    simp only [layout, Layout.relabel]
    refine (requiredMatch_relabel (.discriminant ref) _ _).bind ?_
    rintro σ _ rfl
    refine (resource_relabel _ _).bind ?_
    rintro head _ rfl
    refine (resource_relabel _ _).bind ?_
    rintro tail _ rfl
    exact (nodes_relabel hrec _ _ _ _).bind fun m m' h =>
      .ok (.list ref h.length_eq fun i a b ha hb => forall₂_getElem? h ha hb)
  | sized l =>
    simp only [layout, Layout.relabel]
    refine (requiredMatch_relabel (.discriminant ref) _ _).bind ?_
    rintro σ _ rfl
    exact (sizedItems_relabel hrec _ _).bind fun m m' h =>
      .ok (.list ref h.length_eq fun i a b ha hb => forall₂_getElem? h ha hb)
  | unordered l =>
    simp only [layout, Layout.relabel]
    refine (requiredMatch_relabel (.discriminant ref) _ _).bind ?_
    rintro σ _ rfl
    exact (unorderedItems_relabel hrec _ _ _).bind fun m m' h =>
      .ok (.set ref l m m' hr (sortBy_perm _ _) (sortBy_perm _ _).symm h.length_eq fun i a b ha hb => forall₂_getElem? h ha hb)

omit hrec in
theorem hydrate_relabel {reg' : Registry R} (hreg : c.reg.Relabels f reg') (n : Nat) (g : Option R) (ref : R) (inputs : List R) :
    Out.Relabelled f (TypedValue.Relabelled c.reg f) (hydrate c n g ref inputs) (hydrate { c with reg := reg' } n g (f ref) inputs) := by
  induction n generalizing g ref inputs with
  | zero => exact .fuel
  | succ n ih =>
    unfold hydrate
    dsimp only
    rw [hreg ref]
    cases h : c.reg ref with
    | none => exact .err (.layoutNotFound ref)
    | some l =>
      dsimp only [Option.map_some]
      have hc : (l.relabel f).inputCount = l.inputCount := by cases l <;> rfl
      rw [hc]
      split
      · exact .err (.invalidInputCount _ _)
      · rw [layout_anyReg (c := c) reg']
        exact layout_relabel ih l h n inputs

end Hydrate

end Verif
