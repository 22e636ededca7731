import Verif.HydrateMono

/-! # Hydration: exact conditions for success of lists and sums -/

set_option linter.unusedSectionVars false
set_option linter.unusedSimpArgs false

namespace Verif

/-- A variant does not apply: its pattern has no match, or it has exactly one match and its value fails with an
error. -/
def VariantFails {R : Type _} [DecidableEq R] (ds : List (Quad R)) (E : Option R → R → List R → Prop) (g : Option R)
    (σ : Subst R) (variant : Variant R) : Prop :=
  (∀ τ, ¬ IsMatch ds (σ ++ List.replicate variant.intro none) (inGraph g variant.dataset) τ) ∨
  ∃ σ' ins g', UniqueMatch ds (σ ++ List.replicate variant.intro none) (inGraph g variant.dataset) σ' ∧
    List.Forall₂ (fun p r => p.Denotes σ'.get r) variant.value.input ins ∧
    GraphDenotes g variant.value.graph σ' g' ∧ E g' variant.value.layout ins

namespace Hydrate

variable {R : Type _} [DecidableEq R] (c : HyCtx R)

theorem requiredMatch_eq_ok (hds : c.ds.Nodup) (frag : DataFragment R) (σ : Subst R) (pats : List (QuadPat R))
    (g : Option R) (hd : Declared σ (withDefaultGraph pats g)) (τ : Subst R) :
    requiredMatch c frag σ pats g = .ok τ ↔ UniqueMatch c.ds σ (inGraph g pats) τ := by
  rw [inGraph_eq, requiredMatch, Out.mapErr_eq_ok]
  exact (Props.C02_into_required_unique c.ds σ _ hds hd).1 τ

theorem uniqueMatch_eq_some (hds : c.ds.Nodup) (frag : DataFragment R) (σ : Subst R) (pats : List (QuadPat R))
    (g : Option R) (hd : Declared σ (withDefaultGraph pats g)) (τ : Subst R) :
    uniqueMatch c frag σ pats g = .ok (some τ) ↔ UniqueMatch c.ds σ (inGraph g pats) τ := by
  rw [inGraph_eq, uniqueMatch, Out.mapErr_eq_ok]
  exact (Props.C02_into_unique c.ds σ _ hds hd).2.1 τ

theorem uniqueMatch_eq_none (hds : c.ds.Nodup) (frag : DataFragment R) (σ : Subst R) (pats : List (QuadPat R))
    (g : Option R) (hd : Declared σ (withDefaultGraph pats g)) :
    uniqueMatch c frag σ pats g = .ok none ↔ ∀ τ, ¬ IsMatch c.ds σ (inGraph g pats) τ := by
  rw [inGraph_eq, uniqueMatch, Out.mapErr_eq_ok]
  exact (Props.C02_into_unique c.ds σ _ hds hd).1

theorem resource_eq_ok (p : Pattern R) (σ : Subst R) (r : R) : resource p σ = .ok r ↔ p.Denotes σ.get r := by
  rw [resource, Out.ofOption_eq_ok, Pattern.value_eq_some]

theorem selectInputs_eq_ok (ps : List (Pattern R)) (σ : Subst R) (rs : List R) :
    selectInputs ps σ = .ok rs ↔ List.Forall₂ (fun p r => p.Denotes σ.get r) ps rs := by
  rw [selectInputs, Out.mapM'_eq_ok]
  simp only [resource_eq_ok]

theorem selectGraph_eq_ok (g : Option R) (pat : Option (Option (Pattern R))) (σ : Subst R) (g' : Option R) :
    selectGraph g pat σ = .ok g' ↔ GraphDenotes g pat σ g' := by
  unfold selectGraph GraphDenotes
  split
  · simp [eq_comm]
  · simp [eq_comm]
  · rename_i p
    have := resource_eq_ok p σ
    cases h : resource p σ <;> simp only [Out.map, ← this, h] <;> simp [eq_comm]

theorem subValue_eq_ok (rec : Rec R) (g : Option R) (fmt : ValueFormat R) (σ : Subst R) (v : TypedValue R) :
    subValue rec g fmt σ = .ok v ↔ SubMeaning (fun g r i v => rec g r i = .ok v) g fmt σ v := by
  simp only [subValue, Out.bind_eq_ok, selectInputs_eq_ok, selectGraph_eq_ok, SubMeaning]
  constructor
  · rintro ⟨ins, h1, g', h2, h3⟩; exact ⟨ins, g', h1, h2, h3⟩
  · rintro ⟨ins, g', h1, h2, h3⟩; exact ⟨ins, h1, g', h2, h3⟩

theorem selectInputs_ne_err (ps : List (Pattern R)) (σ : Subst R) (e) : selectInputs ps σ ≠ .err e := by
  unfold selectInputs
  induction ps with
  | nil => simp [Out.mapM']
  | cons p ps ih =>
    simp only [Out.mapM', resource]
    cases p.value σ with
    | none => simp
    | some r => cases h : Out.mapM' (fun p => resource p σ) ps <;> simp_all [resource]

theorem selectGraph_ne_err (g : Option R) (pat : Option (Option (Pattern R))) (σ : Subst R) (e) :
    selectGraph g pat σ ≠ .err e := by
  unfold selectGraph
  split
  · simp
  · simp
  · rename_i p
    simp only [resource]
    cases p.value σ <;> simp [Out.map]

theorem subValue_eq_err (rec : Rec R) (g : Option R) (fmt : ValueFormat R) (σ : Subst R) :
    (∃ e, subValue rec g fmt σ = .err e) ↔ ∃ ins g', List.Forall₂ (fun p r => p.Denotes σ.get r) fmt.input ins ∧
      GraphDenotes g fmt.graph σ g' ∧ ∃ e, rec g' fmt.layout ins = .err e := by
  simp only [← selectInputs_eq_ok, ← selectGraph_eq_ok, subValue]
  cases h1 : selectInputs fmt.input σ with
  | ok ins =>
    simp only [Out.bind_ok]
    cases h2 : selectGraph g fmt.graph σ with
    | ok g' =>
      constructor
      · rintro ⟨e, h⟩; exact ⟨ins, g', rfl, rfl, e, h⟩
      · rintro ⟨_, _, h3, h4, e, h⟩
        simp only [Out.ok.injEq] at h3 h4
        subst h3 h4
        exact ⟨e, h⟩
    | err e => exact absurd h2 (selectGraph_ne_err _ _ _ _)
    | panic => simp
    | fuel => simp
  | err e => exact absurd h1 (selectInputs_ne_err _ _ _)
  | panic => simp
  | fuel => simp

theorem nodes_eq_ok (hds : c.ds.Nodup) (rec : Rec R) (g : Option R) (ref : R) (node : ItemLayout R) (σ : Subst R)
    (tail : R) (hc : PatsBelow (σ.length + 2 + node.intro) node.dataset) (n : Nat) (head : R)
    (vs : List (TypedValue R)) :
    nodes c rec g ref node σ tail n head = .ok vs ↔
      ChainMeaning c.ds (fun g r i v => rec g r i = .ok v) g node σ tail head vs ∧ vs.length ≤ n := by
  induction n generalizing head vs with
  | zero =>
    unfold nodes
    split
    · rename_i h
      subst h
      simp only [Out.ok.injEq]
      constructor
      · rintro rfl; exact ⟨.nil, by simp⟩
      · rintro ⟨-, h⟩; exact (List.length_eq_zero_iff.1 (by omega)).symm
    · rename_i h
      simp only [reduceCtorEq, false_iff]
      rintro ⟨hc, hl⟩
      cases hc with
      | nil => exact h rfl
      | cons => simp at hl
  | succ n ih =>
    have hd : Declared ((Subst.push σ (some head)).intro (1 + node.intro)) (withDefaultGraph node.dataset g) :=
      declared_ext (σ := σ) hc (by simp [Subst.push]; omega)
    unfold nodes
    split
    · rename_i h
      subst h
      simp only [Out.ok.injEq]
      constructor
      · rintro rfl; exact ⟨.nil, by simp⟩
      · rintro ⟨h, -⟩
        cases h with
        | nil => rfl
        | cons hne => exact absurd rfl hne
    · rename_i h
      have hreq := requiredMatch_eq_ok c hds (.orderedListNode ref head tail) _ _ g hd
      rw [intro_push] at hreq ⊢
      simp only [Out.bind_eq_ok, hreq, subValue_eq_ok, Out.ofOption_eq_ok, ih, Out.ok.injEq]
      constructor
      · rintro ⟨σ', h1, v, h2, head', h3, vs', ⟨h4, h5⟩, rfl⟩
        exact ⟨.cons h h1 h2 h3 h4, by simpa using h5⟩
      · rintro ⟨hc, hl⟩
        cases hc with
        | nil => exact absurd rfl h
        | cons _ h1 h2 h3 h4 => exact ⟨_, h1, _, h2, _, h3, _, ⟨h4, by simpa using hl⟩, rfl⟩

/-- When the loop over the variants succeeds. -/
def VariantsOk (rec : Rec R) (g : Option R) (ref : R) (σ : Subst R) (i : Nat) (vs : List (Variant R))
    (sel : Option (Nat × TypedValue R)) (v : TypedValue R) : Prop :=
      (∃ j w, sel = some (j, w) ∧ (∀ x ∈ vs, VariantFails c.ds (fun g r i => ∃ e, rec g r i = .err e) g σ x) ∧
        v = .variant w ref j) ∨
      (sel = none ∧ ∃ k variant w, vs[k]? = some variant ∧
        VariantMeaning c.ds (fun g r i v => rec g r i = .ok v) g σ variant w ∧
        (∀ j x, vs[j]? = some x → j ≠ k → VariantFails c.ds (fun g r i => ∃ e, rec g r i = .err e) g σ x) ∧
        v = .variant w ref (i + k))

theorem variants_eq_ok (hds : c.ds.Nodup) (rec : Rec R) (g : Option R) (ref : R) (σ : Subst R)
    (vs : List (Variant R)) (h0 : ∀ v ∈ vs, v.intro = 0)
    (hc : ∀ v ∈ vs, PatsBelow σ.length v.dataset) (i : Nat) (sel : Option (Nat × TypedValue R)) (v : TypedValue R) :
    variants c rec g ref σ i vs sel = .ok v ↔
      VariantsOk c rec g ref σ i vs sel v := by
  induction vs generalizing i sel with
  | nil =>
    rcases sel with _ | ⟨j, w⟩
    · simp [variants, VariantsOk]
    · simp [variants, VariantsOk, eq_comm]
  | cons x vs ih =>
    have ih := ih (fun v hv => h0 v (by simp [hv])) (fun v hv => hc v (by simp [hv]))
    have hσ : σ ++ List.replicate x.intro none = σ := by rw [h0 x (by simp)]; simp
    have hd : Declared σ (withDefaultGraph x.dataset g) := declared_of_below (hc x (by simp)) (Nat.le_refl _)
    -- the loop skips a failing variant
    have skip : VariantFails c.ds (fun g r i => ∃ e, rec g r i = .err e) g σ x →
        (∀ w, ¬ VariantMeaning c.ds (fun g r i v => rec g r i = .ok v) g σ x w) →
        (variants c rec g ref σ (i + 1) vs sel = .ok v ↔ VariantsOk c rec g ref σ i (x :: vs) sel v) := fun hf hn => (ih (i + 1) sel).trans (by
      unfold VariantsOk
      refine or_congr ?_ (and_congr Iff.rfl ?_)
      · simp only [List.forall_mem_cons, hf, true_and]
      · constructor
        · rintro ⟨k, variant, w, h1, h2, h3, rfl⟩
          refine ⟨k + 1, variant, w, (by simpa using h1 : (x :: vs)[k + 1]? = some variant), h2, ?_,
            by rw [Nat.add_right_comm, Nat.add_assoc]⟩
          intro j y hj hne
          cases j with
          | zero => simp only [List.getElem?_cons_zero, Option.some.injEq] at hj; subst hj; exact hf
          | succ j => exact h3 j y (by simpa using hj) (by omega)
        · rintro ⟨k, variant, w, h1, h2, h3, rfl⟩
          cases k with
          | zero =>
            simp only [List.getElem?_cons_zero, Option.some.injEq] at h1
            subst h1
            exact absurd h2 (hn w)
          | succ k =>
            refine ⟨k, variant, w, by simpa using h1, h2, ?_, by rw [Nat.add_right_comm, Nat.add_assoc]⟩
            intro j y hj hne
            exact h3 (j + 1) y (by simpa using hj) (by omega))
    -- the selected variant, if any, is not a failing one
    have none_of : (¬ VariantFails c.ds (fun g r i => ∃ e, rec g r i = .err e) g σ x) →
        (∀ w, ¬ VariantMeaning c.ds (fun g r i v => rec g r i = .ok v) g σ x w) → ¬ VariantsOk c rec g ref σ i (x :: vs) sel v := by
      intro hf hn hor
      rcases hor with ⟨_, _, _, h, _⟩ | ⟨_, k, variant, w, h1, h2, h3, _⟩
      · exact hf (h x (by simp))
      · cases k with
        | zero =>
          simp only [List.getElem?_cons_zero, Option.some.injEq] at h1
          subst h1
          exact hn w h2
        | succ k => exact hf (h3 0 x rfl (by omega))
    have hun := uniqueMatch_eq_none c hds (.variant ref x.name) σ x.dataset g hd
    have hus := uniqueMatch_eq_some c hds (.variant ref x.name) σ x.dataset g hd
    unfold variants
    cases hum : uniqueMatch c (.variant ref x.name) σ x.dataset g with
    | ok o =>
      cases o with
      | none =>
        have hno := hun.1 hum
        refine skip (.inl (by rw [hσ]; exact hno)) ?_
        rintro w ⟨σ', ⟨h1, -⟩, -⟩
        rw [hσ] at h1
        exact hno σ' h1
      | some σ' =>
        have hu := (hus σ').1 hum
        have hvm : ∀ w, VariantMeaning c.ds (fun g r i v => rec g r i = .ok v) g σ x w ↔
            subValue rec g x.value σ' = .ok w := by
          intro w
          rw [subValue_eq_ok]
          unfold VariantMeaning
          rw [hσ]
          constructor
          · rintro ⟨σ'', h1, h2⟩; rw [hu.2 σ'' h1.1] at h2; exact h2
          · intro h; exact ⟨σ', hu, h⟩
        have hvf : VariantFails c.ds (fun g r i => ∃ e, rec g r i = .err e) g σ x ↔
            ∃ e, subValue rec g x.value σ' = .err e := by
          rw [subValue_eq_err]
          unfold VariantFails
          rw [hσ]
          constructor
          · rintro (h | ⟨σ'', ins, g', h1, h2⟩)
            · exact absurd hu.1 (h σ')
            · rw [hu.2 σ'' h1.1] at h2; exact ⟨ins, g', h2⟩
          · rintro ⟨ins, g', h⟩; exact .inr ⟨σ', ins, g', hu, h⟩
        simp only [Out.bind_ok]
        cases hsv : subValue rec g x.value σ' with
        | err e => exact skip (hvf.2 ⟨e, hsv⟩) (fun w hw => by rw [hvm, hsv] at hw; simp at hw)
        | panic =>
          simp only [reduceCtorEq, false_iff]
          exact none_of (fun h => by rw [hvf, hsv] at h; simp at h) (fun w hw => by rw [hvm, hsv] at hw; simp at hw)
        | fuel =>
          simp only [reduceCtorEq, false_iff]
          exact none_of (fun h => by rw [hvf, hsv] at h; simp at h) (fun w hw => by rw [hvm, hsv] at hw; simp at hw)
        | ok w =>
          have hnf : ¬ VariantFails c.ds (fun g r i => ∃ e, rec g r i = .err e) g σ x := fun h => by
            rw [hvf, hsv] at h; simp at h
          cases sel with
          | some jw =>
            simp only [VariantsOk, reduceCtorEq, false_iff, false_and, or_false]
            rintro ⟨_, _, _, h, _⟩
            exact hnf (h x (by simp))
          | none =>
            simp only
            rw [ih]
            simp only [VariantsOk, reduceCtorEq, false_and, or_false, exists_false, false_or, true_and, Option.some.injEq,
              Prod.mk.injEq]
            constructor
            · rintro ⟨_, _, ⟨rfl, rfl⟩, h, rfl⟩
              refine ⟨0, x, w, rfl, (hvm w).2 hsv, ?_, rfl⟩
              intro j y hj hne
              cases j with
              | zero => exact absurd rfl hne
              | succ j => exact h y (List.mem_of_getElem? (by simpa using hj))
            · rintro ⟨k, variant, w', h1, h2, h3, rfl⟩
              cases k with
              | zero =>
                simp only [List.getElem?_cons_zero, Option.some.injEq] at h1
                subst h1
                rw [hvm, hsv] at h2
                simp only [Out.ok.injEq] at h2
                subst h2
                refine ⟨i, w, ⟨rfl, rfl⟩, ?_, rfl⟩
                intro y hy
                obtain ⟨j, hj⟩ := List.getElem?_of_mem hy
                exact h3 (j + 1) y (by simpa using hj) (by omega)
              | succ k => exact absurd (h3 0 x rfl (by omega)) hnf
    | err e =>
      simp only [Out.bind_err, reduceCtorEq, false_iff]
      refine none_of ?_ ?_
      · rintro (h | ⟨σ'', ins, g', h1, h2⟩)
        · rw [hσ] at h; rw [hun.2 h] at hum; simp at hum
        · rw [hσ] at h1; rw [(hus σ'').2 h1] at hum; simp at hum
      · rintro w ⟨σ', h1, -⟩
        rw [hσ] at h1; rw [(hus σ').2 h1] at hum; simp at hum
    | panic =>
      simp only [Out.bind_panic, reduceCtorEq, false_iff]
      refine none_of ?_ ?_
      · rintro (h | ⟨σ'', ins, g', h1, h2⟩)
        · rw [hσ] at h; rw [hun.2 h] at hum; simp at hum
        · rw [hσ] at h1; rw [(hus σ'').2 h1] at hum; simp at hum
      · rintro w ⟨σ', h1, -⟩
        rw [hσ] at h1; rw [(hus σ').2 h1] at hum; simp at hum
    | fuel =>
      simp only [Out.bind_fuel, reduceCtorEq, false_iff]
      refine none_of ?_ ?_
      · rintro (h | ⟨σ'', ins, g', h1, h2⟩)
        · rw [hσ] at h; rw [hun.2 h] at hum; simp at hum
        · rw [hσ] at h1; rw [(hus σ'').2 h1] at hum; simp at hum
      · rintro w ⟨σ', h1, -⟩
        rw [hσ] at h1; rw [(hus σ').2 h1] at hum; simp at hum

end Hydrate

end Verif
