import Verif.PanicSpec
import Verif.HydratePanic
import Mathlib.Logic.Relation

/-! # Every panic of hydration has a cause, and every cause prevents success -/

set_option linter.unusedSectionVars false
set_option linter.unusedSimpArgs false

namespace Verif

theorem Out.bind_eq_panic {ε α β} {x : Out ε α} {f : α → Out ε β} :
    x.bind f = .panic ↔ x = .panic ∨ ∃ a, x = .ok a ∧ f a = .panic := by
  cases x <;> simp

theorem Out.map_eq_panic {ε α β} {x : Out ε α} {f : α → β} : x.map f = .panic ↔ x = .panic := by
  cases x <;> simp [Out.map]

theorem Out.map_eq_ok_iff {ε α β} {x : Out ε α} {f : α → β} {b : β} : x.map f = .ok b ↔ ∃ a, x = .ok a ∧ f a = b := by
  cases x <;> simp [Out.map]

namespace Hydrate

variable {R : Type _} [DecidableEq R] (c : HyCtx R)

theorem resource_eq_panic {p : Pattern R} {σ : Subst R} (h : resource p σ = .panic) (r : R) : ¬ p.Denotes σ.get r := by
  rw [← resource_eq_ok, h]
  simp

theorem selectInputs_eq_panic {ps : List (Pattern R)} {σ : Subst R} (h : selectInputs ps σ = .panic) (rs : List R) :
    ¬ List.Forall₂ (fun p r => p.Denotes σ.get r) ps rs := by
  rw [← selectInputs_eq_ok, h]
  simp

theorem selectGraph_eq_panic {g : Option R} {pat : Option (Option (Pattern R))} {σ : Subst R} (h : selectGraph g pat σ = .panic)
    (g' : Option R) : ¬ GraphDenotes g pat σ g' := by
  rw [← selectGraph_eq_ok, h]
  simp

/-- The recursive call at a place. -/
def at_ (rec : Rec R) (p : Place R) : Out (HyError R) (TypedValue R) := rec p.graph p.layout p.inputs

theorem sub_panic {rec : Rec R} {p : Place R} {fmt : ValueFormat R} {σ : Subst R} (h : subValue rec p.graph fmt σ = .panic) :
    (∀ q, ¬ p.Sub fmt σ q) ∨ ∃ q, p.Sub fmt σ q ∧ at_ rec q = .panic := by
  unfold subValue at h
  rcases Out.bind_eq_panic.1 h with h | ⟨ins, h1, h⟩
  · exact .inl fun q hq => selectInputs_eq_panic h _ hq.1
  rcases Out.bind_eq_panic.1 h with h | ⟨g, h2, h⟩
  · exact .inl fun q hq => selectGraph_eq_panic h _ hq.2.1
  exact .inr ⟨⟨g, fmt.layout, ins⟩, ⟨(selectInputs_eq_ok _ _ _).1 h1, (selectGraph_eq_ok _ _ _ _).1 h2, rfl⟩, h⟩

theorem sub_ok {rec : Rec R} {p : Place R} {fmt : ValueFormat R} {σ : Subst R} {v : TypedValue R}
    (h : subValue rec p.graph fmt σ = .ok v) : ∃ q, p.Sub fmt σ q ∧ at_ rec q = .ok v := by
  obtain ⟨ins, g, h1, h2, h3⟩ := (subValue_eq_ok _ _ _ _ _).1 h
  exact ⟨⟨g, fmt.layout, ins⟩, ⟨h1, h2, rfl⟩, h3⟩

theorem sub_err {rec : Rec R} {p : Place R} {fmt : ValueFormat R} {σ : Subst R} {e}
    (h : subValue rec p.graph fmt σ = .err e) : ∃ q e', p.Sub fmt σ q ∧ at_ rec q = .err e' := by
  obtain ⟨ins, g, h1, h2, e', h3⟩ := (subValue_eq_err _ _ _ _).1 ⟨e, h⟩
  exact ⟨⟨g, fmt.layout, ins⟩, e', ⟨h1, h2, rfl⟩, h3⟩

/-- There is at most one place. -/
theorem sub_unique {p : Place R} {fmt : ValueFormat R} {σ : Subst R} {q q' : Place R} (h : p.Sub fmt σ q) (h' : p.Sub fmt σ q') :
    q = q' := by
  obtain ⟨g, l, i⟩ := q
  obtain ⟨g', l', i'⟩ := q'
  obtain ⟨h1, h2, h3⟩ := h
  obtain ⟨h1', h2', h3'⟩ := h'
  have e1 := ((selectInputs_eq_ok _ _ _).2 h1).symm.trans ((selectInputs_eq_ok _ _ _).2 h1')
  have e2 := ((selectGraph_eq_ok _ _ _ _).2 h2).symm.trans ((selectGraph_eq_ok _ _ _ _).2 h2')
  simp only [Out.ok.injEq] at e1 e2
  simp only at h3 h3'
  simp [e1, e2, h3, h3']

/-! ## Literals -/

/-- Of the type of the layout. -/
def typed (types : List String) (lit : RdfLit) : Bool := types.any fun j => lit.type == .any j

theorem typed_any {types : List String} {lit : RdfLit} {i : String} (h : lit.type = .any i) :
    typed types lit = types.any (fun j => i == j) := by
  unfold typed
  congr 1
  funext j
  rw [h]
  by_cases e : i = j
  · simp [e]
  · simp [e]

theorem scan_panic {α} {parse : String → String → Out (HyError R) α} {types : List String} {ls : List RdfLit} {value : Option α}
    (h : scanLiterals parse types ls value = .panic) :
    (∃ lit ∈ ls, ∃ t, lit.type = .langString t) ∨
    (∃ lit ∈ ls, ∃ i ∈ types, lit.type = .any i ∧ parse lit.value i = .panic) ∨
    2 ≤ value.toList.length + (ls.filter (typed types)).length := by
  induction ls generalizing value with
  | nil => simp [scanLiterals] at h
  | cons l ls ih =>
    unfold scanLiterals at h
    split at h
    · rename_i t ht
      exact .inl ⟨l, by simp, t, ht⟩
    · rename_i i hi
      have ht := typed_any (types := types) hi
      split at h
      · rename_i hany
        rw [hany] at ht
        rcases Out.bind_eq_panic.1 h with h | ⟨v, hv, h⟩
        · simp only [List.any_eq_true, beq_iff_eq] at hany
          obtain ⟨j, hj, rfl⟩ := hany
          exact .inr (.inl ⟨l, by simp, _, hj, hi, h⟩)
        · cases value with
          | some w =>
            refine .inr (.inr ?_)
            simp [ht]
            omega
          | none =>
            rcases ih h with ⟨lit, hl, t, e⟩ | ⟨lit, hl, j, hj, e⟩ | e
            · exact .inl ⟨lit, by simp [hl], t, e⟩
            · exact .inr (.inl ⟨lit, by simp [hl], j, hj, e⟩)
            · exact .inr (.inr (by simp [ht] at e ⊢; omega))
      · rename_i hany
        rcases ih h with ⟨lit, hl, t, e⟩ | ⟨lit, hl, j, hj, e⟩ | e
        · exact .inl ⟨lit, by simp [hl], t, e⟩
        · exact .inr (.inl ⟨lit, by simp [hl], j, hj, e⟩)
        · refine .inr (.inr (Nat.le_trans e ?_))
          simp only [Bool.not_eq_true] at hany
          simp [ht, hany]

theorem scan_ok {α} {parse : String → String → Out (HyError R) α} {types : List String} {ls : List RdfLit} {value o : Option α}
    (h : scanLiterals parse types ls value = .ok o) :
    (∀ lit ∈ ls, ∀ t, lit.type ≠ .langString t) ∧
    (∀ lit ∈ ls, ∀ i ∈ types, lit.type = .any i → ∃ a, parse lit.value i = .ok a) ∧
    ((ls.filter (typed types)).length ≤ 1 ∧ (value.isSome → ls.filter (typed types) = [])) := by
  induction ls generalizing value with
  | nil => simp
  | cons l ls ih =>
    unfold scanLiterals at h
    split at h
    · simp at h
    · rename_i i hi
      have ht := typed_any (types := types) hi
      split at h
      · rename_i hany
        rw [hany] at ht
        obtain ⟨v, hv, h⟩ := Out.bind_eq_ok.1 h
        cases value with
        | some w => simp at h
        | none =>
          obtain ⟨h1, h2, h3, h4⟩ := ih h
          refine ⟨?_, ?_, ?_, by simp⟩
          · simp only [List.forall_mem_cons]
            exact ⟨by simp [hi], h1⟩
          · simp only [List.forall_mem_cons]
            refine ⟨?_, h2⟩
            intro j _ e
            rw [hi, LitType.any.injEq] at e
            subst e
            exact ⟨v, hv⟩
          · simp [ht, h4 rfl]
      · rename_i hany
        obtain ⟨h1, h2, h3, h4⟩ := ih h
        simp only [Bool.not_eq_true] at hany
        rw [hany] at ht
        refine ⟨?_, ?_, ?_, ?_⟩
        · simp only [List.forall_mem_cons]
          exact ⟨by simp [hi], h1⟩
        · simp only [List.forall_mem_cons]
          refine ⟨?_, h2⟩
          intro j hj e
          rw [hi, LitType.any.injEq] at e
          subst e
          simp only [List.any_eq_false, beq_iff_eq] at hany
          exact absurd rfl (hany _ hj)
        · simpa [ht] using h3
        · simpa [ht] using h4

/-! ## Loops -/

variable {c} {rec : Rec R} {g : Option R} {ref : R} {σ : Subst R}

theorem fields_panic (hds : c.ds.Nodup) {fs : List (Value × Field R)}
    (hc : ∀ e ∈ fs, PatsBelow (σ.length + e.2.intro) e.2.dataset) (h : fields c rec g ref σ fs = .panic) :
    ∃ e ∈ fs, ∃ σ', UniqueMatch c.ds (σ ++ List.replicate e.2.intro none) (inGraph g e.2.dataset) σ' ∧
      subValue rec g e.2.value σ' = .panic := by
  induction fs with
  | nil => simp [fields] at h
  | cons e fs ih =>
    obtain ⟨k, f⟩ := e
    simp only [List.forall_mem_cons] at hc
    have ih := ih hc.2
    have hd : Declared (σ.intro f.intro) (withDefaultGraph f.dataset g) := declared_ext (σ := σ) hc.1 (by simp)
    have tail : fields c rec g ref σ fs = .panic → ∃ e ∈ (k, f) :: fs, ∃ σ',
        UniqueMatch c.ds (σ ++ List.replicate e.2.intro none) (inGraph g e.2.dataset) σ' ∧ subValue rec g e.2.value σ' = .panic :=
      fun h => by
      obtain ⟨e, he, r⟩ := ih h
      exact ⟨e, List.mem_cons_of_mem _ he, r⟩
    unfold fields at h
    rcases Out.bind_eq_panic.1 h with h | ⟨o, ho, h⟩
    · exact absurd h (uniqueMatch_ne_panic c _ _ _ _ hd)
    · cases o with
      | none =>
        simp only at h
        split at h
        · simp at h
        · exact tail h
      | some σ' =>
        rcases Out.bind_eq_panic.1 h with h | ⟨v, -, h⟩
        · exact ⟨(k, f), by simp, σ', (uniqueMatch_eq_some c hds _ _ _ g hd σ').1 ho, h⟩
        · rcases Out.bind_eq_panic.1 h with h | ⟨_, -, h⟩
          · exact tail h
          · simp at h

theorem fields_all (hds : c.ds.Nodup) {fs : List (Value × Field R)} {m}
    (hc : ∀ e ∈ fs, PatsBelow (σ.length + e.2.intro) e.2.dataset) (h : fields c rec g ref σ fs = .ok m) {e} (he : e ∈ fs) {σ'}
    (hσ : UniqueMatch c.ds (σ ++ List.replicate e.2.intro none) (inGraph g e.2.dataset) σ') :
    ∃ v, subValue rec g e.2.value σ' = .ok v := by
  induction fs generalizing m with
  | nil => simp at he
  | cons a fs ih =>
    obtain ⟨k, f⟩ := a
    simp only [List.forall_mem_cons] at hc
    have hd : Declared (σ.intro f.intro) (withDefaultGraph f.dataset g) := declared_ext (σ := σ) hc.1 (by simp)
    unfold fields at h
    obtain ⟨o, ho, h⟩ := Out.bind_eq_ok.1 h
    rcases List.mem_cons.1 he with rfl | he
    · rw [(uniqueMatch_eq_some c hds _ _ _ g hd σ').2 hσ] at ho
      simp only [Out.ok.injEq] at ho
      subst ho
      obtain ⟨v, hv, -⟩ := Out.bind_eq_ok.1 h
      exact ⟨v, hv⟩
    · cases o with
      | none =>
        simp only at h
        split at h
        · simp at h
        · exact ih hc.2 h he
      | some τ =>
        obtain ⟨v, hv, h⟩ := Out.bind_eq_ok.1 h
        obtain ⟨r, hr, -⟩ := Out.bind_eq_ok.1 h
        exact ih hc.2 hr he

theorem sized_panic (hds : c.ds.Nodup) {is : List (ItemLayout R)} {k : Nat}
    (hc : ∀ e ∈ is, PatsBelow (σ.length + e.intro) e.dataset) (h : sizedItems c rec g ref σ k is = .panic) :
    ∃ e ∈ is, ∃ σ', UniqueMatch c.ds (σ ++ List.replicate e.intro none) (inGraph g e.dataset) σ' ∧
      subValue rec g e.value σ' = .panic := by
  induction is generalizing k with
  | nil => simp [sizedItems] at h
  | cons f fs ih =>
    simp only [List.forall_mem_cons] at hc
    have hd : Declared (σ.intro f.intro) (withDefaultGraph f.dataset g) := declared_ext (σ := σ) hc.1 (by simp)
    unfold sizedItems at h
    rcases Out.bind_eq_panic.1 h with h | ⟨σ', ho, h⟩
    · exact absurd h (requiredMatch_ne_panic c _ _ _ _ hd)
    · rcases Out.bind_eq_panic.1 h with h | ⟨v, -, h⟩
      · exact ⟨f, by simp, σ', (requiredMatch_eq_ok c hds _ _ _ g hd σ').1 ho, h⟩
      · rcases Out.bind_eq_panic.1 h with h | ⟨_, -, h⟩
        · obtain ⟨e, he, r⟩ := ih hc.2 h
          exact ⟨e, List.mem_cons_of_mem _ he, r⟩
        · simp at h

theorem sized_all (hds : c.ds.Nodup) {is : List (ItemLayout R)} {k : Nat} {vs}
    (hc : ∀ e ∈ is, PatsBelow (σ.length + e.intro) e.dataset) (h : sizedItems c rec g ref σ k is = .ok vs) {e} (he : e ∈ is) {σ'}
    (hσ : UniqueMatch c.ds (σ ++ List.replicate e.intro none) (inGraph g e.dataset) σ') :
    ∃ v, subValue rec g e.value σ' = .ok v := by
  induction is generalizing k vs with
  | nil => simp at he
  | cons f fs ih =>
    simp only [List.forall_mem_cons] at hc
    have hd : Declared (σ.intro f.intro) (withDefaultGraph f.dataset g) := declared_ext (σ := σ) hc.1 (by simp)
    unfold sizedItems at h
    obtain ⟨τ, ho, h⟩ := Out.bind_eq_ok.1 h
    obtain ⟨v, hv, h⟩ := Out.bind_eq_ok.1 h
    obtain ⟨r, hr, -⟩ := Out.bind_eq_ok.1 h
    rcases List.mem_cons.1 he with rfl | he
    · rw [(requiredMatch_eq_ok c hds _ _ _ g hd σ').2 hσ] at ho
      simp only [Out.ok.injEq] at ho
      subst ho
      exact ⟨v, hv⟩
    · exact ih hc.2 hr he

theorem nodes_panic (hds : c.ds.Nodup) {node : ItemLayout R} {tail : R}
    (hc : PatsBelow (σ.length + 2 + node.intro) node.dataset) {n : Nat} {head : R} (h : nodes c rec g ref node σ tail n head = .panic) :
    ∃ σ', ListNode c.ds g node σ tail head σ' ∧ (subValue rec g node.value σ' = .panic ∨ σ'.get (σ.length + 1) = none) := by
  induction n generalizing head with
  | zero => unfold nodes at h; split at h <;> simp at h
  | succ n ih =>
    unfold nodes at h
    split at h
    · simp at h
    · rename_i hne
      have hd : Declared ((Subst.push σ (some head)).intro (1 + node.intro)) (withDefaultGraph node.dataset g) :=
        declared_ext (σ := σ) hc (by simp [Subst.push]; omega)
      rcases Out.bind_eq_panic.1 h with h | ⟨σ', ho, h⟩
      · exact absurd h (requiredMatch_ne_panic c _ _ _ _ hd)
      · have hu := (requiredMatch_eq_ok c hds _ _ _ g hd σ').1 ho
        rw [intro_push] at hu
        rcases Out.bind_eq_panic.1 h with h | ⟨v, -, h⟩
        · exact ⟨σ', .here hne hu, .inl h⟩
        · rcases Out.bind_eq_panic.1 h with h | ⟨next, hn, h⟩
          · refine ⟨σ', .here hne hu, .inr ?_⟩
            revert h
            cases σ'.get (σ.length + 1) <;> simp
          · rcases Out.bind_eq_panic.1 h with h | ⟨_, -, h⟩
            · obtain ⟨τ, h1, h2⟩ := ih h
              exact ⟨τ, .after hne hu ((Out.ofOption_eq_ok).1 hn) h1, h2⟩
            · simp at h

theorem chain_all {M : Option R → R → List R → TypedValue R → Prop} {ds : List (Quad R)} {node : ItemLayout R} {tail head : R}
    {vs : List (TypedValue R)} (h : ChainMeaning ds M g node σ tail head vs) {τ : Subst R} (hn : ListNode ds g node σ tail head τ) :
    (∃ v, SubMeaning M g node.value τ v) ∧ ∃ next, τ.get (σ.length + 1) = some next := by
  induction hn generalizing vs with
  | here hne hu =>
    cases h with
    | nil => exact absurd rfl hne
    | cons _ hu' hs hnext _ =>
      obtain rfl := hu.2 _ hu'.1
      exact ⟨⟨_, hs⟩, _, hnext⟩
  | after hne hu hget _ ih =>
    cases h with
    | nil => exact absurd rfl hne
    | cons _ hu' hs hnext hrest =>
      obtain rfl := hu.2 _ hu'.1
      rw [hget, Option.some.injEq] at hnext
      subst hnext
      exact ih hrest

theorem mapM_panic {ε α β} {f : α → Out ε β} {l : List α} (h : Out.mapM' f l = .panic) : ∃ a ∈ l, f a = .panic := by
  induction l with
  | nil => simp [Out.mapM'] at h
  | cons a l ih =>
    simp only [Out.mapM'] at h
    rcases Out.bind_eq_panic.1 h with h | ⟨v, -, h⟩
    · exact ⟨a, by simp, h⟩
    · rcases Out.bind_eq_panic.1 h with h | ⟨_, -, h⟩
      · obtain ⟨b, hb, e⟩ := ih h
        exact ⟨b, by simp [hb], e⟩
      · simp at h

theorem mapM_all {ε α β} {f : α → Out ε β} {l : List α} {vs : List β} (h : Out.mapM' f l = .ok vs) : ∀ a ∈ l, ∃ b, f a = .ok b := by
  induction l generalizing vs with
  | nil => simp
  | cons a l ih =>
    simp only [Out.mapM'] at h
    obtain ⟨b, hb, h⟩ := Out.bind_eq_ok.1 h
    obtain ⟨r, hr, -⟩ := Out.bind_eq_ok.1 h
    simp only [List.forall_mem_cons]
    exact ⟨⟨b, hb⟩, ih hr⟩

/-- A variant that succeeds, and one that fails. -/
def OkV (c : HyCtx R) (rec : Rec R) (g : Option R) (σ : Subst R) (x : Variant R) : Prop :=
  ∃ w σ', UniqueMatch c.ds (σ ++ List.replicate x.intro none) (inGraph g x.dataset) σ' ∧ subValue rec g x.value σ' = .ok w

def FailV (c : HyCtx R) (rec : Rec R) (g : Option R) (σ : Subst R) (x : Variant R) : Prop :=
  (∀ τ, ¬ IsMatch c.ds (σ ++ List.replicate x.intro none) (inGraph g x.dataset) τ) ∨
  ∃ e σ', UniqueMatch c.ds (σ ++ List.replicate x.intro none) (inGraph g x.dataset) σ' ∧ subValue rec g x.value σ' = .err e

/-- Why the loop over the variants panics. -/
def VariantsPanic (c : HyCtx R) (rec : Rec R) (g : Option R) (σ : Subst R) (vs : List (Variant R))
    (sel : Option (Nat × TypedValue R)) : Prop :=
  (∃ x ∈ vs, ∃ σ', UniqueMatch c.ds (σ ++ List.replicate x.intro none) (inGraph g x.dataset) σ' ∧
    subValue rec g x.value σ' = .panic) ∨
  (sel = none ∧ ∀ x ∈ vs, FailV c rec g σ x) ∨ (sel ≠ none ∧ ∃ x ∈ vs, OkV c rec g σ x) ∨
  ∃ (j k : Nat) (x y : Variant R), vs[j]? = some x ∧ vs[k]? = some y ∧ j ≠ k ∧ OkV c rec g σ x ∧ OkV c rec g σ y

theorem variantsPanic_skip {x : Variant R} {vs : List (Variant R)} {sel : Option (Nat × TypedValue R)}
    (h : VariantsPanic c rec g σ vs sel) (hf : FailV c rec g σ x) : VariantsPanic c rec g σ (x :: vs) sel := by
  rcases h with ⟨y, hy, r⟩ | ⟨e, hy⟩ | ⟨e, y, hy, r⟩ | ⟨j, k, y, z, h1, h2, h3, h4⟩
  · exact .inl ⟨y, List.mem_cons_of_mem x hy, r⟩
  · refine .inr (.inl ⟨e, ?_⟩)
    simp only [List.forall_mem_cons]
    exact ⟨hf, hy⟩
  · exact .inr (.inr (.inl ⟨e, y, List.mem_cons_of_mem x hy, r⟩))
  · exact .inr (.inr (.inr ⟨j + 1, k + 1, y, z, by simpa using h1, by simpa using h2, by omega, h4⟩))

theorem variantsPanic_select {x : Variant R} {vs : List (Variant R)} {s : Nat × TypedValue R}
    (h : VariantsPanic c rec g σ vs (some s)) (hx : OkV c rec g σ x) : VariantsPanic c rec g σ (x :: vs) none := by
  rcases h with ⟨y, hy, r⟩ | ⟨e, -⟩ | ⟨-, y, hy, r⟩ | ⟨j, k, y, z, h1, h2, h3, h4⟩
  · exact .inl ⟨y, List.mem_cons_of_mem x hy, r⟩
  · simp at e
  · obtain ⟨k, hk⟩ := List.mem_iff_getElem?.1 hy
    exact .inr (.inr (.inr ⟨0, k + 1, x, y, rfl, by simpa using hk, by omega, hx, r⟩))
  · exact .inr (.inr (.inr ⟨j + 1, k + 1, y, z, by simpa using h1, by simpa using h2, by omega, h4⟩))

theorem variants_panic (hds : c.ds.Nodup) {vs : List (Variant R)} (h0 : ∀ v ∈ vs, v.intro = 0)
    (hc : ∀ v ∈ vs, PatsBelow σ.length v.dataset) {i : Nat} {sel : Option (Nat × TypedValue R)}
    (h : variants c rec g ref σ i vs sel = .panic) : VariantsPanic c rec g σ vs sel := by
  induction vs generalizing i sel with
  | nil =>
    rcases sel with _ | ⟨j, w⟩
    · exact .inr (.inl ⟨rfl, by simp⟩)
    · simp [variants] at h
  | cons x vs ih =>
    simp only [List.forall_mem_cons] at h0 hc
    have hσ : σ ++ List.replicate x.intro none = σ := by rw [h0.1]; simp
    have hd : Declared σ (withDefaultGraph x.dataset g) := declared_of_below hc.1 (Nat.le_refl _)
    unfold variants at h
    rcases Out.bind_eq_panic.1 h with h | ⟨o, ho, h⟩
    · exact absurd h (uniqueMatch_ne_panic c _ _ _ _ hd)
    · cases o with
      | none =>
        refine variantsPanic_skip (ih h0.2 hc.2 h) (.inl ?_)
        rw [hσ]
        exact (uniqueMatch_eq_none c hds _ _ _ g hd).1 ho
      | some σ' =>
        have hu : UniqueMatch c.ds (σ ++ List.replicate x.intro none) (inGraph g x.dataset) σ' := by
          rw [hσ]
          exact (uniqueMatch_eq_some c hds _ _ _ g hd σ').1 ho
        simp only at h
        split at h
        · rename_i w hw
          cases sel with
          | some s => exact .inr (.inr (.inl ⟨by simp, x, by simp, w, σ', hu, hw⟩))
          | none => exact variantsPanic_select (ih h0.2 hc.2 h) ⟨w, σ', hu, hw⟩
        · rename_i e he
          exact variantsPanic_skip (ih h0.2 hc.2 h) (.inr ⟨e, σ', hu, he⟩)
        · rename_i hp
          exact .inl ⟨x, by simp, σ', hu, hp⟩
        · simp at h

end Hydrate

end Verif
