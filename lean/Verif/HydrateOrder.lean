import Verif.HydrateComplete
import Verif.PanicSpec

/-!
# Hydration and the order of the dataset

Helper lemmas for C07: what hydration returns is the same with another enumeration of the same quads, if the variants of sums are
told apart by their patterns. No further code is modelled.
-/

set_option linter.unusedSectionVars false
set_option linter.unusedSimpArgs false

namespace Verif

variable {R : Type _} [DecidableEq R]

namespace Hydrate

variable {c : HyCtx R} {ds' : List (Quad R)} (hds : c.ds.Nodup) (hds' : ds'.Nodup) (hset : ∀ q, q ∈ c.ds ↔ q ∈ ds')

include hds hds' hset

theorem requiredMatch_order {frag : DataFragment R} {σ : Subst R} {pats : List (QuadPat R)} {g : Option R}
    (hd : Declared σ (withDefaultGraph pats g)) {τ : Subst R} (h : requiredMatch c frag σ pats g = .ok τ) :
    requiredMatch { c with ds := ds' } frag σ pats g = .ok τ :=
  (requiredMatch_eq_ok { c with ds := ds' } hds' _ _ _ g hd τ).2
    ((uniqueMatch_congr hset _ _ _).1 ((requiredMatch_eq_ok c hds _ _ _ g hd τ).1 h))

theorem data_order {α : Type _} {parse : String → String → Out (HyError R) α} {mk : α → TypedLiteral R} {g : Option R} {ref : R}
    {l : DataLayout R} {inputs : List R} (hi : inputs.length = 1) (hc : PatsBelow (1 + l.intro) l.dataset) {v : TypedLiteral R}
    (h : hydrateData c g ref l inputs parse mk = .ok v) : hydrateData { c with ds := ds' } g ref l inputs parse mk = .ok v := by
  have hd : Declared ((Subst.fromInputs inputs).intro l.intro) (withDefaultGraph l.dataset g) :=
    declared_of_below hc (by simp [length_intro, Subst.fromInputs, hi])
  unfold hydrateData at h ⊢
  obtain ⟨σ, h1, h2⟩ := Out.bind_eq_ok.1 h
  rw [requiredMatch_order hds hds' hset hd h1]
  exact h2

variable {rec rec' : Rec R} (hrec : ∀ g r i v, rec g r i = .ok v → rec' g r i = .ok v)

include hrec

omit hds hds' hset in
theorem subValue_order {g : Option R} {fmt : ValueFormat R} {σ : Subst R} {v : TypedValue R} (h : subValue rec g fmt σ = .ok v) :
    subValue rec' g fmt σ = .ok v :=
  (subValue_eq_ok _ _ _ _ _).2 (subMeaning_mono hrec ((subValue_eq_ok _ _ _ _ _).1 h))

theorem fields_order {g : Option R} {ref : R} {σ : Subst R} {fs : List (Value × Field R)}
    (hf : ∀ e ∈ fs, PatsBelow (σ.length + e.2.intro) e.2.dataset) {m : List (Value × TypedValue R)}
    (h : fields c rec g ref σ fs = .ok m) : fields { c with ds := ds' } rec' g ref σ fs = .ok m := by
  induction fs generalizing m with
  | nil => exact h
  | cons e fs ih =>
    obtain ⟨key, field⟩ := e
    have hd : Declared (σ.intro field.intro) (withDefaultGraph field.dataset g) :=
      declared_of_below (hf (key, field) (by simp)) (by simp [length_intro])
    have ih := fun {m} => ih (m := m) fun e he => hf e (List.mem_cons_of_mem _ he)
    simp only [fields] at h ⊢
    obtain ⟨o, h1, h2⟩ := Out.bind_eq_ok.1 h
    cases o with
    | some σ' =>
      rw [(uniqueMatch_eq_some { c with ds := ds' } hds' _ _ _ g hd σ').2
        ((uniqueMatch_congr hset _ _ _).1 ((uniqueMatch_eq_some c hds _ _ _ g hd σ').1 h1)), Out.bind_ok]
      dsimp only at h2 ⊢
      obtain ⟨v, h3, h4⟩ := Out.bind_eq_ok.1 h2
      obtain ⟨r, h5, h6⟩ := Out.bind_eq_ok.1 h4
      rw [subValue_order hrec h3, Out.bind_ok, ih h5, Out.bind_ok]
      exact h6
    | none =>
      rw [(uniqueMatch_eq_none { c with ds := ds' } hds' _ _ _ g hd).2
        (fun τ hm => (uniqueMatch_eq_none c hds _ _ _ g hd).1 h1 τ ((isMatch_congr hset _ _ _).2 hm)), Out.bind_ok]
      dsimp only at h2 ⊢
      split at h2
      · exact nomatch h2
      · rename_i hr
        rw [if_neg hr]
        exact ih h2

theorem sized_order {g : Option R} {ref : R} {σ : Subst R} {is : List (ItemLayout R)}
    (hf : ∀ i ∈ is, PatsBelow (σ.length + i.intro) i.dataset) {k : Nat} {vs : List (TypedValue R)}
    (h : sizedItems c rec g ref σ k is = .ok vs) : sizedItems { c with ds := ds' } rec' g ref σ k is = .ok vs := by
  induction is generalizing k vs with
  | nil => exact h
  | cons item is ih =>
    have hd : Declared (σ.intro item.intro) (withDefaultGraph item.dataset g) :=
      declared_of_below (hf _ (by simp)) (by simp [length_intro])
    simp only [sizedItems] at h ⊢
    obtain ⟨σ', h1, h2⟩ := Out.bind_eq_ok.1 h
    obtain ⟨v, h3, h4⟩ := Out.bind_eq_ok.1 h2
    obtain ⟨r, h5, h6⟩ := Out.bind_eq_ok.1 h4
    rw [requiredMatch_order hds hds' hset hd h1, Out.bind_ok, subValue_order hrec h3, Out.bind_ok,
      ih (fun e he => hf e (List.mem_cons_of_mem _ he)) h5, Out.bind_ok]
    exact h6

theorem layout_order (hreg : c.reg.Closed) (hno : c.reg.NoVariantIntro) (hle : TotalOrder c.le) (hsums : c.ToldApart)
    {n : Nat} {g : Option R} {ref : R} {inputs : List R} {l : Layout R} (hr : c.reg ref = some l)
    (hi : ∀ k, l.inputCount = some k → inputs.length = k) {v : TypedValue R} (h : layout c rec n g ref inputs l = .ok v) :
    layout { c with ds := ds' } rec' n g ref inputs l = .ok v := by
  have hl : l.Closed := hreg _ _ hr
  have hdecl : ∀ k m (pats : List (QuadPat R)), PatsBelow (k + m) pats → inputs.length = k →
      Declared ((Subst.fromInputs inputs).intro m) (withDefaultGraph pats g) := by
    intro k m pats hb hk
    exact declared_of_below hb (by simp [length_intro, Subst.fromInputs, hk])
  have huniq : ∀ k m (pats : List (QuadPat R)) frag σ, PatsBelow (k + m) pats → inputs.length = k →
      requiredMatch c frag ((Subst.fromInputs inputs).intro m) pats g = .ok σ →
      UniqueMatch c.ds (inputs.map some ++ List.replicate m none) (inGraph g pats) σ := by
    intro k m pats frag σ hb hk h
    exact (requiredMatch_eq_ok c hds _ _ _ g (hdecl _ _ _ hb hk) σ).1 h
  have hlen : ∀ k m (pats : List (QuadPat R)) σ, inputs.length = k →
      UniqueMatch c.ds (inputs.map some ++ List.replicate m none) (inGraph g pats) σ → σ.length = k + m := by
    intro k m pats σ hk h
    rw [h.1.length_eq]
    simp [hk]
  have hdata : ∀ {α : Type} {parse : String → String → Out (HyError R) α} {mk : α → TypedLiteral R} {l : DataLayout R},
      inputs.length = 1 → PatsBelow (1 + l.intro) l.dataset → ∀ {v : TypedValue R},
      (hydrateData c g ref l inputs parse mk).map TypedValue.literal = .ok v →
      (hydrateData { c with ds := ds' } g ref l inputs parse mk).map TypedValue.literal = .ok v := by
    intro α parse mk l hi hc v h
    cases h1 : hydrateData c g ref l inputs parse mk with
    | ok a => rw [data_order hds hds' hset hi hc h1, ← h1]; exact h
    | _ => rw [h1] at h; exact nomatch h
  cases l with
  | never => exact nomatch h
  | always => exact h
  | unit l =>
    simp only [layout] at h ⊢
    obtain ⟨σ, h1, h2⟩ := Out.bind_eq_ok.1 h
    rw [requiredMatch_order hds hds' hset (hdecl _ _ _ hl (hi 1 rfl)) h1]
    exact h2
  | boolean l => exact hdata (hi 1 rfl) hl.1 h
  | number l => exact hdata (hi 1 rfl) hl.1 h
  | byteString l => exact hdata (hi 1 rfl) hl.1 h
  | textString l => exact hdata (hi 1 rfl) hl.1 h
  | id l =>
    simp only [layout] at h ⊢
    cases h1 : hydrateId c g ref l inputs with
    | ok a =>
      rw [h1] at h
      have h2 : hydrateId { c with ds := ds' } g ref l inputs = .ok a := by
        unfold hydrateId at h1 ⊢
        obtain ⟨σ, h2, h3⟩ := Out.bind_eq_ok.1 h1
        rw [requiredMatch_order hds hds' hset (hdecl _ _ _ hl.1 (hi 1 rfl)) h2]
        exact h3
      rw [h2]
      exact h
    | _ => rw [h1] at h; exact nomatch h
  | product l =>
    simp only [layout] at h ⊢
    obtain ⟨σ, h1, h2⟩ := Out.bind_eq_ok.1 h
    obtain ⟨m, h3, h4⟩ := Out.bind_eq_ok.1 h2
    rw [requiredMatch_order hds hds' hset (hdecl _ _ _ hl.1 (hi _ rfl)) h1, Out.bind_ok,
      fields_order hds hds' hset hrec (fun e he => by
        rw [hlen _ _ _ _ (hi _ rfl) (huniq _ _ _ _ _ hl.1 (hi _ rfl) h1)]; exact (hl.2 e he).1) h3, Out.bind_ok]
    exact h4
  | sized l =>
    simp only [layout] at h ⊢
    obtain ⟨σ, h1, h2⟩ := Out.bind_eq_ok.1 h
    obtain ⟨m, h3, h4⟩ := Out.bind_eq_ok.1 h2
    rw [requiredMatch_order hds hds' hset (hdecl _ _ _ hl.1 (hi _ rfl)) h1, Out.bind_ok,
      sized_order hds hds' hset hrec (fun e he => by
        rw [hlen _ _ _ _ (hi _ rfl) (huniq _ _ _ _ _ hl.1 (hi _ rfl) h1)]; exact (hl.2 e he).1) h3, Out.bind_ok]
    exact h4
  | ordered l =>
    simp only [layout] at h ⊢
    obtain ⟨σ, h1, h2⟩ := Out.bind_eq_ok.1 h
    obtain ⟨head, h3, h4⟩ := Out.bind_eq_ok.1 h2
    obtain ⟨tail, h5, h6⟩ := Out.bind_eq_ok.1 h4
    obtain ⟨items, h7, h8⟩ := Out.bind_eq_ok.1 h6
    have hb : PatsBelow (σ.length + 2 + l.node.intro) l.node.dataset := by
      rw [hlen _ _ _ _ (hi _ rfl) (huniq _ _ _ _ _ hl.1 (hi _ rfl) h1)]; exact hl.2.2.2.1
    obtain ⟨h9, h10⟩ := (nodes_eq_ok c hds rec g ref l.node σ tail hb n head items).1 h7
    rw [requiredMatch_order hds hds' hset (hdecl _ _ _ hl.1 (hi _ rfl)) h1, Out.bind_ok, h3, Out.bind_ok, h5, Out.bind_ok,
      (nodes_eq_ok { c with ds := ds' } hds' rec' g ref l.node σ tail hb n head items).2
        ⟨chainMeaning_mono hset hrec h9, h10⟩, Out.bind_ok]
    exact h8
  | unordered l =>
    simp only [layout] at h ⊢
    obtain ⟨σ, h1, h2⟩ := Out.bind_eq_ok.1 h
    obtain ⟨items, h3, h4⟩ := Out.bind_eq_ok.1 h2
    have hd : Declared (σ.intro l.item.intro) (withDefaultGraph l.item.dataset g) :=
      declared_ext (σ := σ) hl.2.1 (by rw [hlen _ _ _ _ (hi _ rfl) (huniq _ _ _ _ _ hl.1 (hi _ rfl) h1)])
    rw [unorderedItems_eq c _ g l.item.value _ _ (by omega) (Matching.inv_new hd), Matching.stackEnum_new, Out.mapM'_eq_ok] at h3
    rw [requiredMatch_order hds hds' hset (hdecl _ _ _ hl.1 (hi _ rfl)) h1, Out.bind_ok]
    rw [unorderedItems_eq { c with ds := ds' } _ g l.item.value _ _ (by dsimp only; omega) (Matching.inv_new hd),
      Matching.stackEnum_new]
    have hmem := Matching.mem_enum c.ds _ _ hd
    have hmem' := Matching.mem_enum ds' _ _ hd
    have hnd := Matching.nodup_enum c.ds hds _ _ hd
    have hnd' := Matching.nodup_enum ds' hds' _ _ hd
    obtain ⟨z, hz, hzp⟩ : ∃ z, List.Forall₂ (fun τ v => subValue rec g l.item.value τ = .ok v)
        (Matching.enum ds' (withDefaultGraph l.item.dataset g) (σ.intro l.item.intro)) z ∧ z.Perm items := by
      refine List.perm_comp_forall₂ ?_ h3
      rw [List.perm_ext_iff_of_nodup hnd' hnd]
      intro τ
      rw [hmem, hmem', isMatch_congr hset]
    rw [Out.mapM'_eq_ok.2 (hz.imp fun τ v h => subValue_order hrec h), Out.bind_ok]
    have hp : (sortBy c.le z).Perm (sortBy c.le items) :=
      (sortBy_perm c.le z).trans (hzp.trans (sortBy_perm c.le items).symm)
    rw [hp.eq_of_pairwise (fun a b _ _ h h' => hle.antisymm a b h h') (pairwise_sortBy hle.total hle.trans z)
      (pairwise_sortBy hle.total hle.trans items)]
    exact h4
  | sum l =>
    simp only [layout] at h ⊢
    obtain ⟨σ, h1, h2⟩ := Out.bind_eq_ok.1 h
    have hu := huniq _ _ _ _ _ hl.1 (hi _ rfl) h1
    have h0 := hno ref l hr
    have hb : ∀ x ∈ l.variants, PatsBelow σ.length x.dataset := by
      intro x hx
      rw [hlen _ _ _ _ (hi _ rfl) hu]
      have := (hl.2 x hx).1
      rwa [h0 x hx] at this
    rw [requiredMatch_order hds hds' hset (hdecl _ _ _ hl.1 (hi _ rfl)) h1, Out.bind_ok,
      variants_eq_ok { c with ds := ds' } hds' rec' g ref σ l.variants h0 hb 0 none]
    rw [variants_eq_ok c hds rec g ref σ l.variants h0 hb 0 none] at h2
    rcases h2 with ⟨_, _, h, _⟩ | ⟨_, k, x, w, hk, ⟨σ', h4, h5⟩, _, rfl⟩
    · exact nomatch h
    · refine .inr ⟨rfl, k, x, w, hk, ⟨σ', (uniqueMatch_congr hset _ _ _).1 h4, subMeaning_mono hrec h5⟩, fun j y hj hne => ?_, rfl⟩
      refine .inl fun τ hτ => hne ?_
      exact hsums ref l hr g σ ⟨_, hi _ rfl, hu.1⟩ j k y x τ σ' hj hk ((isMatch_congr hset _ _ _).2 hτ) h4.1

omit hrec in
theorem hydrate_order (hreg : c.reg.Closed) (hno : c.reg.NoVariantIntro) (hle : TotalOrder c.le) (hsums : c.ToldApart)
    {n : Nat} {g : Option R} {ref : R} {inputs : List R} {v : TypedValue R} (h : hydrate c n g ref inputs = .ok v) :
    hydrate { c with ds := ds' } n g ref inputs = .ok v := by
  induction n generalizing g ref inputs v with
  | zero => exact nomatch h
  | succ n ih =>
    unfold hydrate at h ⊢
    dsimp only at h ⊢
    cases hr : c.reg ref with
    | none => rw [hr] at h; exact nomatch h
    | some l =>
      rw [hr] at h
      dsimp only at h ⊢
      split at h
      · exact nomatch h
      · rename_i hk
        rw [if_neg hk]
        exact layout_order hds hds' hset (fun g r i v h => ih h) hreg hno hle hsums hr (fun k hc => by
          have hk' := hk
          simp [hc] at hk'
          omega) h

end Hydrate

/-! ## Places -/

section

variable {c : HyCtx R} {ds' : List (Quad R)} (hset : ∀ q, q ∈ c.ds ↔ q ∈ ds')

include hset

theorem place_match_order (p : Place R) (intro : Nat) (dataset : List (QuadPat R)) (σ : Subst R) :
    p.Match c intro dataset σ ↔ p.Match { c with ds := ds' } intro dataset σ :=
  uniqueMatch_congr hset _ _ _

theorem listNode_order {g : Option R} {node : ItemLayout R} {σ : Subst R} {tail head : R} {τ : Subst R}
    (h : ListNode c.ds g node σ tail head τ) : ListNode ds' g node σ tail head τ := by
  induction h with
  | here h1 h2 => exact .here h1 ((uniqueMatch_congr hset _ _ _).1 h2)
  | after h1 h2 h3 _ ih => exact .after h1 ((uniqueMatch_congr hset _ _ _).1 h2) h3 ih

theorem componentFormat_order {p : Place R} {fmt : ValueFormat R} {σ : Subst R} (h : ComponentFormat c p fmt σ) :
    ComponentFormat { c with ds := ds' } p fmt σ := by
  cases h with
  | field h1 h2 h3 h4 => exact .field h1 ((place_match_order hset _ _ _ _).1 h2) h3 ((uniqueMatch_congr hset _ _ _).1 h4)
  | item h1 h2 h3 => exact .item h1 ((place_match_order hset _ _ _ _).1 h2) ((isMatch_congr hset _ _ _).1 h3)
  | node h1 h2 h3 h4 h5 => exact .node h1 ((place_match_order hset _ _ _ _).1 h2) h3 h4 (listNode_order hset h5)
  | element h1 h2 h3 h4 => exact .element h1 ((place_match_order hset _ _ _ _).1 h2) h3 ((uniqueMatch_congr hset _ _ _).1 h4)

theorem variantFormat_order {p : Place R} {fmt : ValueFormat R} {σ : Subst R} (h : VariantFormat c p fmt σ) :
    VariantFormat { c with ds := ds' } p fmt σ := by
  cases h with
  | variant h1 h2 h3 h4 => exact .variant h1 ((place_match_order hset _ _ _ _).1 h2) h3 ((uniqueMatch_congr hset _ _ _).1 h4)

theorem reads_order {p q : Place R} (h : p.Reads c q) : p.Reads { c with ds := ds' } q := by
  obtain ⟨fmt, σ, h1, h2⟩ := h
  exact ⟨fmt, σ, h1.imp (componentFormat_order hset) (variantFormat_order hset), h2⟩

theorem literalAt_order {p : Place R} {l : DataLayout R} {r : R} (h : LiteralAt c p l r) : LiteralAt { c with ds := ds' } p l r := by
  obtain ⟨σ, h1, h2⟩ := h
  exact ⟨σ, (place_match_order hset _ _ _ _).1 h1, h2⟩

theorem means_order {p : Place R} {v : TypedValue R} (h : p.Means c v) : p.Means { c with ds := ds' } v := by
  obtain ⟨N, h⟩ := h
  exact ⟨N, fun n hn => (meaning_congr hset _ _ _ _ _).1 (h n hn)⟩

theorem meaningless_order {p : Place R} (h : p.Meaningless c) : p.Meaningless { c with ds := ds' } := by
  obtain ⟨N, h⟩ := h
  exact ⟨N, fun n hn v hv => h n hn v ((meaning_congr hset _ _ _ _ _).2 hv)⟩

theorem variantMeans_order {p : Place R} {σ : Subst R} {x : Variant R} (h : VariantMeans c p σ x) :
    VariantMeans { c with ds := ds' } p σ x := by
  obtain ⟨σ', q, v, h1, h2, h3⟩ := h
  exact ⟨σ', q, v, (uniqueMatch_congr hset _ _ _).1 h1, h2, means_order hset h3⟩

theorem variantMeaningless_order {p : Place R} {σ : Subst R} {x : Variant R} (h : VariantMeaningless c p σ x) :
    VariantMeaningless { c with ds := ds' } p σ x := by
  rcases h with h | ⟨σ', q, h1, h2, h3⟩
  · exact .inl fun τ hτ => h τ ((isMatch_congr hset _ _ _).2 hτ)
  · exact .inr ⟨σ', q, (uniqueMatch_congr hset _ _ _).1 h1, h2, meaningless_order hset h3⟩

theorem panicCause_order {p : Place R} (h : PanicCause c p) : PanicCause { c with ds := ds' } p := by
  have hm := fun i d σ => (place_match_order hset p i d σ).1
  cases h with
  | unboundPart h1 h2 => exact .unboundPart (h1.imp (componentFormat_order hset) (variantFormat_order hset)) h2
  | unboundLiteral h1 h2 h3 h4 => exact .unboundLiteral h1 h2 (hm _ _ _ h3) h4
  | language h1 h2 h3 h4 h5 => exact .language h1 h2 (literalAt_order hset h3) h4 h5
  | literals h1 h2 h3 h4 => exact .literals h1 h2 (literalAt_order hset h3) h4
  | boolean h1 h2 h3 h4 h5 => exact .boolean h1 (literalAt_order hset h2) h3 h4 h5
  | number h1 h2 h3 h4 h5 h6 => exact .number h1 (literalAt_order hset h2) h3 h4 h5 h6
  | byteString h1 h2 h3 h4 => exact .byteString h1 (literalAt_order hset h2) h3 h4
  | unboundId h1 h2 h3 => exact .unboundId h1 (hm _ _ _ h2) h3
  | iris h1 h2 h3 h4 => exact .iris h1 (hm _ _ _ h2) h3 h4
  | unboundHead h1 h2 h3 => exact .unboundHead h1 (hm _ _ _ h2) h3
  | unboundTail h1 h2 h3 => exact .unboundTail h1 (hm _ _ _ h2) h3
  | unboundRest h1 h2 h3 h4 h5 h6 => exact .unboundRest h1 (hm _ _ _ h2) h3 h4 (listNode_order hset h5) h6
  | noVariant h1 h2 h3 => exact .noVariant h1 (hm _ _ _ h2) fun x hx => variantMeaningless_order hset (h3 x hx)
  | variants h1 h2 h3 h4 h5 h6 h7 =>
    exact .variants h1 (hm _ _ _ h2) h3 h4 h5 (variantMeans_order hset h6) (variantMeans_order hset h7)

end

end Verif
