import Verif.HydrateLemmas
import Verif.MatchingPad
import Mathlib.Data.List.Perm.Basic
import Mathlib.Data.List.Sort

/-! # Hydration computes the declarative meaning: layouts -/

set_option linter.unusedSectionVars false
set_option linter.unusedSimpArgs false

namespace Verif

namespace Hydrate

variable {R : Type _} [DecidableEq R] (c : HyCtx R)

theorem declared_ext {σ σ' : Subst R} {k : Nat} {pats : List (QuadPat R)} {g : Option R} {m : Nat}
    (h : PatsBelow k pats) (hk : k ≤ σ'.length + m) : Declared (σ'.intro m) (withDefaultGraph pats g) :=
  declared_of_below h (by rw [length_intro]; exact hk)

theorem decides_fields (hds : c.ds.Nodup) (rec : Rec R) (M) (hrec : ∀ g r i, Decides (rec g r i) (M g r i))
    (g : Option R) (ref : R) (σ : Subst R) (fs : List (Value × Field R))
    (hc : ∀ e ∈ fs, PatsBelow (σ.length + e.2.intro) e.2.dataset) :
    Decides (fields c rec g ref σ fs) (FieldsMeaning c.ds M g σ fs) := by
  induction fs with
  | nil =>
    intro b
    constructor
    · intro h; cases h; rfl
    · rintro rfl; exact .nil
  | cons e fs ih =>
    obtain ⟨key, field⟩ := e
    have ih := ih (fun e he => hc e (by simp [he]))
    have hd : Declared (σ.intro field.intro) (withDefaultGraph field.dataset g) :=
      declared_ext (σ := σ) (hc (key, field) (by simp)) (by simp)
    have hu := decides_unique c hds (.key ref key) _ _ g hd
    unfold fields
    refine (hu.bind (Q := fun o m => match o with
      | some σ' => ∃ v, SubMeaning M g field.value σ' v ∧ ∃ m', FieldsMeaning c.ds M g σ fs m' ∧ m = (key, v) :: m'
      | none => field.required = false ∧ FieldsMeaning c.ds M g σ fs m) ?_).congr ?_
    · rintro (_ | σ') _ ho
      · dsimp only
        by_cases hr : field.required
        · rw [if_pos hr]
          rintro b ⟨hf, -⟩
          rw [hr] at hf; simp at hf
        · rw [if_neg hr]
          exact ih.congr (by simp at hr; simp [hr])
      · exact (decides_subValue rec M hrec g field.value σ').bind fun v _ _ =>
          ih.bind fun m' _ _ => decides_ok _
    · intro m
      constructor
      · rintro ⟨_ | σ', ho, h⟩
        · exact .absent ho h.1 h.2
        · obtain ⟨v, hv, m', hm', rfl⟩ := h
          exact .present ho hv hm'
      · intro h
        cases h with
        | present hu hv hm => exact ⟨some _, hu, _, hv, _, hm, rfl⟩
        | absent hn hr hm => exact ⟨none, hn, hr, hm⟩

theorem intro_push (σ : Subst R) (r : R) (k : Nat) :
    (Subst.push σ (some r)).intro (1 + k) = σ ++ [some r, none] ++ List.replicate k none := by
  have : List.replicate (1 + k) (none : Option R) = none :: List.replicate k none := by
    rw [Nat.add_comm, List.replicate_succ]
  simp [Subst.push, Subst.intro, this]

theorem decides_ofOption {ε α} (o : Option α) : Decides (Out.ofOption o : Out ε α) (fun a => o = some a) := by
  cases o with
  | none => trivial
  | some a => intro b; simp [eq_comm]

theorem decides_nodes (hds : c.ds.Nodup) (rec : Rec R) (M) (hrec : ∀ g r i, Decides (rec g r i) (M g r i))
    (g : Option R) (ref : R) (node : ItemLayout R) (σ : Subst R) (tail : R)
    (hc : PatsBelow (σ.length + 2 + node.intro) node.dataset) (n : Nat) (head : R) :
    Decides (nodes c rec g ref node σ tail n head) (ChainMeaning c.ds M g node σ tail head) := by
  induction n generalizing head with
  | zero =>
    unfold nodes
    by_cases h : head = tail
    · rw [if_pos h]
      subst h
      intro b
      constructor
      · intro h; cases h with
        | nil => rfl
        | cons hne => exact absurd rfl hne
      · rintro rfl; exact .nil
    · rw [if_neg h]; trivial
  | succ n ih =>
    unfold nodes
    by_cases h : head = tail
    · rw [if_pos h]
      subst h
      intro b
      constructor
      · intro h; cases h with
        | nil => rfl
        | cons hne => exact absurd rfl hne
      · rintro rfl; exact .nil
    · rw [if_neg h]
      have hd : Declared ((Subst.push σ (some head)).intro (1 + node.intro)) (withDefaultGraph node.dataset g) :=
        declared_ext (σ := σ) hc (by simp [Subst.push]; omega)
      refine ((decides_required c hds (.orderedListNode ref head tail) _ _ g hd).bind
        (Q := fun σ' vs => ∃ v, SubMeaning M g node.value σ' v ∧ ∃ next, σ'.get (σ.length + 1) = some next ∧
          ∃ vs', ChainMeaning c.ds M g node σ tail next vs' ∧ vs = v :: vs') fun σ' _ _ =>
        (decides_subValue rec M hrec g node.value σ').bind fun v _ _ =>
        (decides_ofOption _).bind fun next _ _ =>
        (ih next).bind fun vs _ _ => decides_ok _).congr ?_
      intro vs
      rw [intro_push]
      constructor
      · rintro ⟨σ', h1, v, h2, next, h3, vs', h4, rfl⟩
        exact .cons h h1 h2 h3 h4
      · intro hm
        cases hm with
        | nil => exact absurd rfl h
        | cons _ h1 h2 h3 h4 => exact ⟨_, h1, _, h2, _, h3, _, h4, rfl⟩

theorem decides_sizedItems (hds : c.ds.Nodup) (rec : Rec R) (M) (hrec : ∀ g r i, Decides (rec g r i) (M g r i))
    (g : Option R) (ref : R) (σ : Subst R) (i : Nat) (items : List (ItemLayout R))
    (hc : ∀ e ∈ items, PatsBelow (σ.length + e.intro) e.dataset) :
    Decides (sizedItems c rec g ref σ i items) (List.Forall₂ (fun (item : ItemLayout R) v => ∃ σ',
        UniqueMatch c.ds (σ ++ List.replicate item.intro none) (inGraph g item.dataset) σ' ∧
        SubMeaning M g item.value σ' v) items) := by
  induction items generalizing i with
  | nil => intro b; simp [sizedItems]
  | cons item items ih =>
    have ih := ih (i + 1) (fun e he => hc e (by simp [he]))
    have hd : Declared (σ.intro item.intro) (withDefaultGraph item.dataset g) :=
      declared_ext (σ := σ) (hc item (by simp)) (by simp)
    unfold sizedItems
    refine ((decides_required c hds (.sizedListItem ref i) _ _ g hd).bind
      fun σ' _ _ => (decides_subValue rec M hrec g item.value σ').bind fun v _ _ =>
      ih.bind fun vs _ _ => decides_ok _).congr ?_
    intro vs
    constructor
    · rintro ⟨σ', h1, v, h2, vs', h3, rfl⟩; exact .cons ⟨σ', h1, h2⟩ h3
    · intro h
      cases h with
      | cons h1 h3 => obtain ⟨σ', h1, h2⟩ := h1; exact ⟨σ', h1, _, h2, _, h3, rfl⟩

theorem unorderedItems_eq (rec : Rec R) (g : Option R) (fmt : ValueFormat R) (n : Nat) (st : Matching.Stack R)
    (hw : Matching.weight c.ds.length st < n) (hst : ∀ s ∈ st, Matching.State.Inv s) :
    unorderedItems c rec g fmt n st = Out.mapM' (subValue rec g fmt) (Matching.stackEnum c.ds st) := by
  induction n generalizing st with
  | zero => omega
  | succ n ih =>
    have hs := Matching.next_spec (ε := HyError R) c.ds st hst
    simp only [unorderedItems]
    split at hs
    · rename_i e; simp [e, hs, Out.mapM']
    · rename_i σ st' e
      have hw' := Matching.nextFuel_weight c.ds _ _ _ _ e
      simp [e, hs.1, Out.mapM', ih st' (by omega) hs.2]
    · exact hs.elim

theorem decides_unordered (hds : c.ds.Nodup) (hle : TotalOrder c.le) (rec : Rec R) (M)
    (hrec : ∀ g r i, Decides (rec g r i) (M g r i)) (g : Option R) (ref : R) (item : ItemLayout R) (σ : Subst R)
    (hd : Declared (σ.intro item.intro) (withDefaultGraph item.dataset g)) :
    let st := Matching.new (σ.intro item.intro) (withDefaultGraph item.dataset g)
    Decides ((unorderedItems c rec g item.value (Matching.weight c.ds.length st + 1) st).bind fun items =>
        .ok (TypedValue.list (sortBy c.le items) ref))
      (fun v : TypedValue R => ∃ matchings : List (Subst R), ∃ values items : List (TypedValue R), matchings.Nodup ∧
      (∀ τ, τ ∈ matchings ↔ IsMatch c.ds (σ ++ List.replicate item.intro none) (inGraph g item.dataset) τ) ∧
      List.Forall₂ (fun τ v => SubMeaning M g item.value τ v) matchings values ∧
      items.Perm values ∧ items.Pairwise (fun a b => c.le a b = true) ∧ v = .list items ref) := by
  intro st
  rw [unorderedItems_eq c rec g item.value _ st (by omega) (Matching.inv_new hd), Matching.stackEnum_new]
  have hmem := Matching.mem_enum c.ds _ _ hd
  have hnd := Matching.nodup_enum c.ds hds _ _ hd
  rw [inGraph_eq]
  change ∀ τ, τ ∈ _ ↔ IsMatch c.ds (σ ++ List.replicate item.intro none) (withDefaultGraph item.dataset g) τ at hmem
  have hmap := decides_mapM' (subValue rec g item.value) (fun τ v => SubMeaning M g item.value τ v)
    (Matching.enum c.ds (withDefaultGraph item.dataset g) (σ.intro item.intro))
    (fun τ _ => decides_subValue rec M hrec g item.value τ)
  generalize Matching.enum c.ds (withDefaultGraph item.dataset g) (σ.intro item.intro) = l at hmem hnd hmap
  have hback : ∀ matchings values, matchings.Nodup →
      (∀ τ, τ ∈ matchings ↔ IsMatch c.ds (σ ++ List.replicate item.intro none) (withDefaultGraph item.dataset g) τ) →
      List.Forall₂ (fun τ v => SubMeaning M g item.value τ v) matchings values →
      ∃ z, List.Forall₂ (fun τ v => SubMeaning M g item.value τ v) l z ∧ z.Perm values := by
    intro matchings values h1 h2 h3
    have hp : l.Perm matchings := by
      rw [List.perm_ext_iff_of_nodup hnd h1]
      intro τ; rw [hmem, h2]
    exact List.perm_comp_forall₂ hp h3
  cases h : Out.mapM' (subValue rec g item.value) l with
  | ok vs =>
    rw [h] at hmap
    have hvs := (hmap vs).2 rfl
    intro b
    constructor
    · rintro ⟨matchings, values, items, h1, h2, h3, h4, h5, rfl⟩
      obtain ⟨z, hz, hzp⟩ := hback _ _ h1 h2 h3
      rw [(hmap z).1 hz] at hzp
      have hp : items.Perm (sortBy c.le vs) := h4.trans (hzp.symm.trans (sortBy_perm c.le vs).symm)
      have hs : (sortBy c.le vs).Pairwise (fun a b => c.le a b = true) :=
        pairwise_sortBy hle.total hle.trans vs
      have : items = sortBy c.le vs :=
        hp.eq_of_pairwise (fun a b _ _ h h' => hle.antisymm a b h h') h5 hs
      rw [this]
    · rintro rfl
      exact ⟨l, vs, sortBy c.le vs, hnd, hmem, hvs, sortBy_perm c.le vs,
        pairwise_sortBy hle.total hle.trans vs, rfl⟩
  | err e =>
    rw [h] at hmap
    rintro b ⟨matchings, values, items, h1, h2, h3, h4, h5, rfl⟩
    obtain ⟨z, hz, hzp⟩ := hback _ _ h1 h2 h3
    exact hmap z hz
  | panic => trivial
  | fuel => trivial

/-- What the loop over the remaining variants decides. -/
def VariantsMeaning (M : Option R → R → List R → TypedValue R → Prop) (g : Option R) (ref : R) (σ : Subst R)
    (i : Nat) (vs : List (Variant R)) (sel : Option (Nat × TypedValue R)) (v : TypedValue R) : Prop :=
  (∀ x ∈ vs, ∀ τ τ',
        IsMatch c.ds (σ ++ List.replicate x.intro none) (inGraph g x.dataset) τ →
        IsMatch c.ds (σ ++ List.replicate x.intro none) (inGraph g x.dataset) τ' → τ = τ') ∧
  ((∃ j w, sel = some (j, w) ∧ (∀ x ∈ vs, ∀ w', ¬ VariantMeaning c.ds M g σ x w') ∧ v = .variant w ref j) ∨
   (sel = none ∧ ∃ k variant w, vs[k]? = some variant ∧ VariantMeaning c.ds M g σ variant w ∧
      (∀ j x w', vs[j]? = some x → VariantMeaning c.ds M g σ x w' → j = k) ∧ v = .variant w ref (i + k)))

theorem variantsMeaning_skip (M : Option R → R → List R → TypedValue R → Prop) (g : Option R) (ref : R) (σ : Subst R)
    (i : Nat) (x : Variant R) (vs : List (Variant R)) (sel : Option (Nat × TypedValue R)) (v : TypedValue R)
    (hamb : ∀ τ τ', IsMatch c.ds (σ ++ List.replicate x.intro none) (inGraph g x.dataset) τ →
        IsMatch c.ds (σ ++ List.replicate x.intro none) (inGraph g x.dataset) τ' → τ = τ')
    (hx : ∀ w', ¬ VariantMeaning c.ds M g σ x w') :
    VariantsMeaning c M g ref σ (i + 1) vs sel v ↔ VariantsMeaning c M g ref σ i (x :: vs) sel v := by
  unfold VariantsMeaning
  refine and_congr (by simp only [List.forall_mem_cons]; exact ⟨fun h => ⟨hamb, h⟩, fun h => h.2⟩) (or_congr ?_ ?_)
  · simp only [List.forall_mem_cons, hx, not_false_eq_true, implies_true, true_and]
  · refine and_congr Iff.rfl ?_
    constructor
    · rintro ⟨k, variant, w, h1, h2, h3, rfl⟩
      refine ⟨k + 1, variant, w, by simpa using h1, h2, ?_, by rw [Nat.add_right_comm, Nat.add_assoc]⟩
      intro j y w' hj hw
      cases j with
      | zero =>
        simp only [List.getElem?_cons_zero, Option.some.injEq] at hj
        subst hj
        exact absurd hw (hx w')
      | succ j => rw [h3 j y w' (by simpa using hj) hw]
    · rintro ⟨k, variant, w, h1, h2, h3, rfl⟩
      cases k with
      | zero =>
        simp only [List.getElem?_cons_zero, Option.some.injEq] at h1
        subst h1
        exact absurd h2 (hx w)
      | succ k =>
        refine ⟨k, variant, w, by simpa using h1, h2, ?_, by rw [Nat.add_right_comm, Nat.add_assoc]⟩
        intro j y w' hj hw
        have := h3 (j + 1) y w' (by simpa using hj) hw
        omega

theorem uniqueMatch_pad (k : Nat) (frag : DataFragment R) (σ : Subst R) (pats : List (QuadPat R)) (g : Option R)
    (h : uniqueMatch c frag σ pats g ≠ .panic) :
    uniqueMatch c frag (σ.intro k) pats g = padOut k (uniqueMatch c frag σ pats g) := by
  unfold uniqueMatch at h ⊢
  rw [ne_eq, Out.mapErr_eq_panic] at h
  have := Matching.intoUnique_pad c.ds k (Matching.new σ (withDefaultGraph pats g)) h
  have e : Matching.pad k (Matching.new σ (withDefaultGraph pats g)) =
      Matching.new (σ.intro k) (withDefaultGraph pats g) := rfl
  rw [← e, this]
  cases Matching.intoUnique c.ds (Matching.new σ (withDefaultGraph pats g)) <;> rfl

theorem subMeaning_pad (M : Option R → R → List R → TypedValue R → Prop) (g : Option R) (fmt : ValueFormat R)
    (σ : Subst R) (k : Nat) (w : TypedValue R) : SubMeaning M g fmt (σ.intro k) w ↔ SubMeaning M g fmt σ w := by
  have hget : (σ.intro k).get = σ.get := funext (Subst.get_intro_eq σ k)
  simp only [SubMeaning, GraphDenotes, hget]

theorem decides_variants (hds : c.ds.Nodup) (rec : Rec R) (M) (hrec : ∀ g r i, Decides (rec g r i) (M g r i))
    (g : Option R) (ref : R) (σ : Subst R) (vs : List (Variant R))
    (hc : ∀ v ∈ vs, PatsBelow (σ.length + v.intro) v.dataset) (i : Nat) (sel : Option (Nat × TypedValue R)) :
    Decides (variants c rec g ref σ i vs sel) (VariantsMeaning c M g ref σ i vs sel) := by
  induction vs generalizing i sel with
  | nil =>
    rcases sel with _ | ⟨j, w⟩
    · simp [variants, Decides]
    · intro b
      simp [VariantsMeaning, variants]
  | cons x vs ih =>
    have ih := ih (fun v hv => hc v (by simp [hv]))
    have hd : Declared (σ.intro x.intro) (withDefaultGraph x.dataset g) :=
      declared_of_below (hc x (by simp)) (Nat.le_of_eq (length_intro σ _).symm)
    have hu := decides_unique c hds (.variant ref x.name) _ _ g hd
    have hpad := uniqueMatch_pad c x.intro (.variant ref x.name) σ x.dataset g
    unfold variants
    cases hum : uniqueMatch c (.variant ref x.name) σ x.dataset g with
    | panic => trivial
    | fuel => trivial
    | err e =>
      rw [hum] at hpad
      obtain ⟨τ, τ', h1, h2, hne⟩ := uniqueMatch_err c hds _ _ _ g hd (hpad (by simp))
      intro b hb
      exact hne (hb.1 x (by simp) τ τ' h1 h2)
    | ok o =>
      rw [hpad (by simp [hum]), hum] at hu
      have ho := (hu (o.map (·.intro x.intro))).2 rfl
      cases o with
      | none =>
        simp only [Out.bind_ok]
        refine (ih (i + 1) sel).congr fun v => variantsMeaning_skip c M g ref σ i x vs sel v ?_ ?_
        · intro τ τ' h1; exact absurd h1 (ho τ)
        · rintro w' ⟨σ', ⟨h1, -⟩, -⟩; exact ho σ' h1
      | some σ' =>
        simp only [Out.bind_ok]
        have hamb : ∀ τ τ', IsMatch c.ds (σ ++ List.replicate x.intro none) (inGraph g x.dataset) τ →
            IsMatch c.ds (σ ++ List.replicate x.intro none) (inGraph g x.dataset) τ' → τ = τ' := by
          intro τ τ' h1 h2
          rw [ho.2 τ h1, ho.2 τ' h2]
        have hsub := decides_subValue rec M hrec g x.value σ'
        have hvm : ∀ w, VariantMeaning c.ds M g σ x w ↔ SubMeaning M g x.value σ' w := by
          intro w
          rw [← subMeaning_pad M g x.value σ' x.intro]
          constructor
          · rintro ⟨σ'', h1, h2⟩; rw [ho.2 σ'' h1.1] at h2; exact h2
          · intro h; exact ⟨_, ho, h⟩
        cases hsv : subValue rec g x.value σ' with
        | panic => trivial
        | fuel => trivial
        | err e =>
          rw [hsv] at hsub
          exact (ih (i + 1) sel).congr fun v => variantsMeaning_skip c M g ref σ i x vs sel v hamb
            (fun w h => hsub w ((hvm w).1 h))
        | ok w =>
          rw [hsv] at hsub
          have hw : VariantMeaning c.ds M g σ x w := (hvm w).2 ((hsub w).2 rfl)
          cases sel with
          | some _ => trivial
          | none =>
            simp only
            refine (ih (i + 1) (some (i, w))).congr fun v => ?_
            unfold VariantsMeaning
            refine and_congr (by simp only [List.forall_mem_cons]; exact ⟨fun h => ⟨hamb, h⟩, fun h => h.2⟩) ?_
            simp only [reduceCtorEq, false_and, or_false, false_or, exists_false, Option.some.injEq, Prod.mk.injEq,
              true_and]
            constructor
            · rintro ⟨j, w', ⟨rfl, rfl⟩, h, rfl⟩
              refine ⟨0, x, w, rfl, hw, ?_, rfl⟩
              intro j y w' hj hy
              cases j with
              | zero => rfl
              | succ j =>
                exact absurd hy (h y (List.mem_of_getElem? (by simpa using hj)) w')
            · rintro ⟨k, variant, w', h1, h2, h3, rfl⟩
              have hk := h3 0 x w rfl hw
              subst hk
              simp only [List.getElem?_cons_zero, Option.some.injEq] at h1
              subst h1
              have : w' = w := (hsub w').1 ((hvm w').1 h2)
              subst this
              refine ⟨i, w', ⟨rfl, rfl⟩, ?_, rfl⟩
              intro y hy w'' hw''
              obtain ⟨j, hj⟩ := List.getElem?_of_mem hy
              have := h3 (j + 1) y w'' (by simpa using hj) hw''
              omega

theorem decides_id (hds : c.ds.Nodup) (g : Option R) (ref : R) (l : IdLayout R) (inputs : List R)
    (hd : Declared ((Subst.fromInputs inputs).intro l.intro) (withDefaultGraph l.dataset g)) :
    Decides ((hydrateId c g ref l inputs).map TypedValue.literal) (fun v => ∃ σ r iri,
      UniqueMatch c.ds (inputs.map some ++ List.replicate l.intro none) (inGraph g l.dataset) σ ∧
      l.resource.Denotes σ.get r ∧ c.irisOf r = [iri] ∧ v = .literal (.id iri ref)) := by
  unfold hydrateId
  refine (((decides_required c hds (.discriminant ref) _ _ g hd).bind
    (Q := fun σ w => ∃ r, l.resource.Denotes σ.get r ∧ ∃ iri, c.irisOf r = [iri] ∧ w = TypedLiteral.id iri ref) fun σ _ _ =>
    (decides_resource l.resource σ).bind (Q := fun r w => ∃ iri, c.irisOf r = [iri] ∧ w = TypedLiteral.id iri ref)
    fun r _ _ => ?_).map).congr ?_
  · split
    · rename_i iri e
      intro b
      simp [e]
    · trivial
  · intro v
    constructor
    · rintro ⟨_, ⟨σ, h1, r, h2, iri, h3, rfl⟩, rfl⟩; exact ⟨σ, r, iri, h1, h2, h3, rfl⟩
    · rintro ⟨σ, r, iri, h1, h2, h3, rfl⟩; exact ⟨_, ⟨σ, h1, r, h2, iri, h3, rfl⟩, rfl⟩

theorem decides_layout (hds : c.ds.Nodup) (hle : TotalOrder c.le) (rec : Rec R) (M)
    (hrec : ∀ g r i, Decides (rec g r i) (M g r i)) (n : Nat) (g : Option R) (ref : R) (inputs : List R)
    (l : Layout R) (hl : l.Closed) (hi : ∀ k, l.inputCount = some k → inputs.length = k) :
    Decides (layout c rec n g ref inputs l) (fun v => LayoutMeaning c M g ref inputs v l) := by
  have hdecl : ∀ k m (pats : List (QuadPat R)), PatsBelow (k + m) pats → inputs.length = k →
      Declared ((Subst.fromInputs inputs).intro m) (withDefaultGraph pats g) := by
    intro k m pats h hk
    exact declared_of_below h (by simp [length_intro, Subst.fromInputs, hk])
  have hlen : ∀ k m (pats : List (QuadPat R)) σ, inputs.length = k →
      UniqueMatch c.ds ((Subst.fromInputs inputs).intro m) (inGraph g pats) σ → σ.length = k + m := by
    intro k m pats σ hk h
    rw [h.1.length_eq]
    simp [length_intro, Subst.fromInputs, hk]
  cases l with
  | never => intro b; simp [LayoutMeaning]
  | always => intro b; simp [LayoutMeaning]
  | unit l =>
    refine ((decides_required c hds (.discriminant ref) _ _ g (hdecl _ _ _ hl (hi 1 rfl))).bind
      fun _ _ _ => decides_ok _).congr fun v => ?_
    simp only [LayoutMeaning]
    constructor
    · rintro ⟨σ, h, rfl⟩; exact ⟨⟨σ, h⟩, rfl⟩
    · rintro ⟨⟨σ, h⟩, rfl⟩; exact ⟨σ, h, rfl⟩
  | boolean l => exact decides_data c hds _ _ g ref l inputs (hi 1 rfl) hl.1
  | number l => exact decides_data c hds _ _ g ref l inputs (hi 1 rfl) hl.1
  | byteString l => exact decides_data c hds _ _ g ref l inputs (hi 1 rfl) hl.1
  | textString l => exact decides_data c hds _ _ g ref l.toDataLayout inputs (hi 1 rfl) hl.1
  | id l => exact decides_id c hds g ref l inputs (hdecl _ _ _ hl.1 (hi 1 rfl))
  | product l =>
    refine ((decides_required c hds (.discriminant ref) _ _ g (hdecl _ _ _ hl.1 (hi _ rfl))).bind
      fun σ _ hσ => (decides_fields c hds rec M hrec g ref σ l.fields fun e he => ?_).bind
        fun m _ _ => decides_ok _).congr fun v => ?_
    · rw [hlen _ _ _ _ (hi _ rfl) hσ]; exact (hl.2 e he).1
    · simp only [LayoutMeaning]
      constructor
      · rintro ⟨σ, h1, m, h2, rfl⟩; exact ⟨σ, m, h1, h2, rfl⟩
      · rintro ⟨σ, m, h1, h2, rfl⟩; exact ⟨σ, h1, m, h2, rfl⟩
  | unordered l =>
    refine ((decides_required c hds (.discriminant ref) _ _ g (hdecl _ _ _ hl.1 (hi _ rfl))).bind
      fun σ _ hσ => decides_unordered c hds hle rec M hrec g ref l.item σ ?_).congr fun v => ?_
    · exact declared_ext (σ := σ) hl.2.1 (by rw [hlen _ _ _ _ (hi _ rfl) hσ])
    · simp only [LayoutMeaning]
      constructor
      · rintro ⟨σ, h1, m, vs, items, h2⟩; exact ⟨σ, m, vs, items, h1, h2⟩
      · rintro ⟨σ, m, vs, items, h1, h2⟩; exact ⟨σ, h1, m, vs, items, h2⟩
  | ordered l =>
    refine ((decides_required c hds (.discriminant ref) _ _ g (hdecl _ _ _ hl.1 (hi _ rfl))).bind
      fun σ _ hσ => (decides_resource l.head σ).bind fun head _ _ => (decides_resource l.tail σ).bind fun tail _ _ =>
        (decides_nodes c hds rec M hrec g ref l.node σ tail ?_ n head).bind
        fun m _ _ => decides_ok _).congr fun v => ?_
    · rw [hlen _ _ _ _ (hi _ rfl) hσ]; exact hl.2.2.2.1
    · simp only [LayoutMeaning]
      constructor
      · rintro ⟨σ, h1, head, h2, tail, h3, items, h4, rfl⟩; exact ⟨σ, head, tail, items, h1, h2, h3, h4, rfl⟩
      · rintro ⟨σ, head, tail, items, h1, h2, h3, h4, rfl⟩; exact ⟨σ, h1, head, h2, tail, h3, items, h4, rfl⟩
  | sized l =>
    refine ((decides_required c hds (.discriminant ref) _ _ g (hdecl _ _ _ hl.1 (hi _ rfl))).bind
      fun σ _ hσ => (decides_sizedItems c hds rec M hrec g ref σ 0 l.items fun e he => ?_).bind
        fun m _ _ => decides_ok _).congr fun v => ?_
    · rw [hlen _ _ _ _ (hi _ rfl) hσ]; exact (hl.2 e he).1
    · simp only [LayoutMeaning]
      constructor
      · rintro ⟨σ, h1, m, h2, rfl⟩; exact ⟨σ, m, h1, h2, rfl⟩
      · rintro ⟨σ, m, h1, h2, rfl⟩; exact ⟨σ, h1, m, h2, rfl⟩
  | sum l =>
    refine ((decides_required c hds (.discriminant ref) _ _ g (hdecl _ _ _ hl.1 (hi _ rfl))).bind
      fun σ _ hσ => decides_variants c hds rec M hrec g ref σ l.variants (fun v hv => ?_) 0 none).congr
      fun v => ?_
    · rw [hlen _ _ _ _ (hi _ rfl) hσ]
      exact (hl.2 v hv).1
    · simp only [LayoutMeaning, VariantsMeaning, reduceCtorEq, false_and, exists_false, false_or, true_and, Nat.zero_add]
      constructor
      · rintro ⟨σ, h1, h2, k, variant, w, h3, h4, h5, rfl⟩; exact ⟨σ, k, variant, w, h1, h2, h3, h4, h5, rfl⟩
      · rintro ⟨σ, k, variant, w, h1, h2, h3, h4, h5, rfl⟩; exact ⟨σ, h1, h2, k, variant, w, h3, h4, h5, rfl⟩

theorem decides_hydrate (hreg : c.reg.Closed) (hds : c.ds.Nodup) (hle : TotalOrder c.le)
    (n : Nat) (g : Option R) (ref : R) (inputs : List R) :
    Decides (hydrate c n g ref inputs) (Meaning c n g ref inputs) := by
  induction n generalizing g ref inputs with
  | zero => trivial
  | succ n ih =>
    unfold hydrate
    cases hr : c.reg ref with
    | none =>
      rintro v ⟨l, hl, -⟩
      rw [hr] at hl; simp at hl
    | some l =>
      simp only
      split
      · rename_i hne
        rintro v ⟨l', hl, hc, -⟩
        rw [hr] at hl
        simp only [Option.some.injEq] at hl
        subst hl
        cases hk : l.inputCount with
        | none => rw [hk] at hne; simp at hne
        | some k =>
          rw [hk] at hne
          have := hc k hk
          simp [this] at hne
      · rename_i hne
        have hi : ∀ k, l.inputCount = some k → inputs.length = k := by
          intro k hk
          rw [hk] at hne
          simp at hne
          exact hne.symm
        refine (decides_layout c hds hle (hydrate c n) (Meaning c n) (fun g r i => ih g r i) n g ref inputs l
          (hreg ref l hr) hi).congr fun v => ?_
        simp only [Meaning]
        constructor
        · intro h; exact ⟨l, hr, hi, h⟩
        · rintro ⟨l', hl, -, h⟩
          rw [hr] at hl
          simp only [Option.some.injEq] at hl
          subst hl
          exact h

end Hydrate

end Verif
