import Verif.ErrorSpec
import Verif.PanicSitesMain

/-! # What the errors of hydration say is true -/

set_option linter.unusedSectionVars false
set_option linter.unusedSimpArgs false

namespace Verif

theorem Out.bind_eq_err {ε α β} {x : Out ε α} {f : α → Out ε β} {e : ε} :
    x.bind f = .err e ↔ x = .err e ∨ ∃ a, x = .ok a ∧ f a = .err e := by
  cases x <;> simp

theorem Out.map_eq_err {ε α β} {x : Out ε α} {f : α → β} {e : ε} : x.map f = .err e ↔ x = .err e := by
  cases x <;> simp [Out.map]

theorem Out.mapErr_eq_err {ε ε' α} {x : Out ε α} {f : ε → ε'} {e : ε'} : x.mapErr f = .err e ↔ ∃ e', x = .err e' ∧ f e' = e := by
  cases x <;> simp [Out.mapErr]

theorem Out.ofOption_ne_err {ε α} {o : Option α} {e : ε} : (Out.ofOption o : Out ε α) ≠ .err e := by
  cases o <;> simp [Out.ofOption]

theorem Out.mapM'_eq_err {ε α β} {f : α → Out ε β} {l : List α} {e : ε} (h : Out.mapM' f l = .err e) : ∃ a ∈ l, f a = .err e := by
  induction l with
  | nil => simp [Out.mapM'] at h
  | cons a l ih =>
    simp only [Out.mapM'] at h
    rcases Out.bind_eq_err.1 h with h | ⟨v, -, h⟩
    · exact ⟨a, by simp, h⟩
    · rcases Out.bind_eq_err.1 h with h | ⟨_, -, h⟩
      · obtain ⟨b, hb, e⟩ := ih h
        exact ⟨b, by simp [hb], e⟩
      · simp at h

namespace Hydrate

variable {R : Type _} [DecidableEq R] {c : HyCtx R}

theorem required_err (hds : c.ds.Nodup) {frag : DataFragment R} {σ : Subst R} {pats : List (QuadPat R)} {g : Option R}
    (hd : Declared σ (withDefaultGraph pats g)) {e : HyError R} (h : requiredMatch c frag σ pats g = .err e) :
    (e = .missingData frag ∧ NoMatch c.ds σ (inGraph g pats)) ∨ (e = .dataAmbiguity frag ∧ SeveralMatches c.ds σ (inGraph g pats)) := by
  obtain ⟨-, h2, h3⟩ := Props.C02_into_required_unique c.ds σ (withDefaultGraph pats g) hds hd
  rw [inGraph_eq]
  obtain ⟨e', he, rfl⟩ := Out.mapErr_eq_err.1 h
  cases e' with
  | empty => exact .inl ⟨rfl, h2.1 he⟩
  | ambiguity => exact .inr ⟨rfl, h3.1 he⟩

theorem unique_err (hds : c.ds.Nodup) {frag : DataFragment R} {σ : Subst R} {pats : List (QuadPat R)} {g : Option R}
    (hd : Declared σ (withDefaultGraph pats g)) {e : HyError R} (h : uniqueMatch c frag σ pats g = .err e) :
    e = .dataAmbiguity frag ∧ SeveralMatches c.ds σ (inGraph g pats) := by
  refine ⟨?_, uniqueMatch_err c hds frag σ pats g hd h⟩
  obtain ⟨e', he, rfl⟩ := Out.mapErr_eq_err.1 h
  cases e' with
  | ambiguity => rfl
  | empty =>
    rw [Matching.intoUnique_eq _ _ _ hd] at he
    split at he <;> simp at he

theorem resource_ne_err {p : Pattern R} {σ : Subst R} {e} : resource p σ ≠ .err e := Out.ofOption_ne_err

theorem subValue_err {rec : Rec R} {p : Place R} {fmt : ValueFormat R} {σ : Subst R} {e}
    (h : subValue rec p.graph fmt σ = .err e) : ∃ q, p.Sub fmt σ q ∧ at_ rec q = .err e := by
  unfold subValue at h
  rcases Out.bind_eq_err.1 h with h | ⟨ins, h1, h⟩
  · obtain ⟨a, -, ha⟩ := Out.mapM'_eq_err h
    exact absurd ha resource_ne_err
  rcases Out.bind_eq_err.1 h with h | ⟨g, h2, h⟩
  · unfold selectGraph at h
    split at h
    · simp at h
    · simp at h
    · exact absurd (Out.map_eq_err.1 h) resource_ne_err
  exact ⟨⟨g, fmt.layout, ins⟩, ⟨(selectInputs_eq_ok _ _ _).1 h1, (selectGraph_eq_ok _ _ _ _).1 h2, rfl⟩, h⟩

theorem scan_err {α} {parse : String → String → Out (HyError R) α} {types : List String} {ls : List RdfLit} {value : Option α} {e}
    (h : scanLiterals parse types ls value = .err e) :
    ∃ lit ∈ ls, ∃ i ∈ types, lit.type = .any i ∧ parse lit.value i = .err e := by
  induction ls generalizing value with
  | nil => simp [scanLiterals] at h
  | cons l ls ih =>
    have tail : ∀ {w}, scanLiterals parse types ls w = .err e → ∃ lit ∈ l :: ls, ∃ i ∈ types, lit.type = .any i ∧ parse lit.value i = .err e :=
      fun h => by
      obtain ⟨lit, hl, r⟩ := ih h
      exact ⟨lit, by simp [hl], r⟩
    unfold scanLiterals at h
    split at h
    · simp at h
    · rename_i i hi
      split at h
      · rename_i hany
        rcases Out.bind_eq_err.1 h with h | ⟨v, hv, h⟩
        · simp only [List.any_eq_true, beq_iff_eq] at hany
          obtain ⟨j, hj, rfl⟩ := hany
          exact ⟨l, by simp, _, hj, hi, h⟩
        · cases value with
          | some w => simp at h
          | none => exact tail h
      · exact tail h

/-- Nothing is found only if there is no literal of the type. -/
theorem scan_none {α} {parse : String → String → Out (HyError R) α} {types : List String} {ls : List RdfLit} {value : Option α}
    (h : scanLiterals parse types ls value = .ok none) : value = none ∧ ∀ lit ∈ ls, ∀ i ∈ types, lit.type ≠ .any i := by
  induction ls generalizing value with
  | nil => simpa [scanLiterals] using h
  | cons l ls ih =>
    unfold scanLiterals at h
    split at h
    · simp at h
    · rename_i i hi
      split at h
      · obtain ⟨v, hv, h⟩ := Out.bind_eq_ok.1 h
        cases value with
        | some w => simp at h
        | none => simpa using (ih h).1
      · rename_i hany
        obtain ⟨h1, h2⟩ := ih h
        refine ⟨h1, ?_⟩
        simp only [List.forall_mem_cons]
        refine ⟨fun j hj e => ?_, h2⟩
        rw [hi, LitType.any.injEq] at e
        subst e
        simp only [List.any_eq_true, beq_iff_eq, not_exists, not_and] at hany
        exact hany _ hj rfl

/-- A literal of the type is found. -/
theorem scan_some {α} {parse : String → String → Out (HyError R) α} {types : List String} {ls : List RdfLit} {value : Option α} {a}
    (h : scanLiterals parse types ls value = .ok (some a)) : value ≠ none ∨ ∃ lit ∈ ls, ∃ i ∈ types, lit.type = .any i := by
  induction ls generalizing value with
  | nil =>
    left
    simp only [scanLiterals, Out.ok.injEq] at h
    simp [h]
  | cons l ls ih =>
    unfold scanLiterals at h
    split at h
    · simp at h
    · rename_i i hi
      split at h
      · rename_i hany
        simp only [List.any_eq_true, beq_iff_eq] at hany
        obtain ⟨j, hj, rfl⟩ := hany
        exact .inr ⟨l, by simp, _, hj, hi⟩
      · rcases ih h with h | ⟨lit, hl, r⟩
        · exact .inl h
        · exact .inr ⟨lit, by simp [hl], r⟩

/-! ## Loops -/

variable {rec : Rec R} {g : Option R} {ref : R} {σ : Subst R} {x : HyError R}

theorem fields_err (hds : c.ds.Nodup) {fs : List (Value × Field R)}
    (hc : ∀ e ∈ fs, PatsBelow (σ.length + e.2.intro) e.2.dataset) (h : fields c rec g ref σ fs = .err x) :
    ∃ e ∈ fs,
      (∃ σ', UniqueMatch c.ds (σ ++ List.replicate e.2.intro none) (inGraph g e.2.dataset) σ' ∧ subValue rec g e.2.value σ' = .err x) ∨
      (x = .missingData (.key ref e.1) ∧ e.2.required = true ∧
        NoMatch c.ds (σ ++ List.replicate e.2.intro none) (inGraph g e.2.dataset)) ∨
      (x = .dataAmbiguity (.key ref e.1) ∧ SeveralMatches c.ds (σ ++ List.replicate e.2.intro none) (inGraph g e.2.dataset)) := by
  induction fs with
  | nil => simp [fields] at h
  | cons e fs ih =>
    obtain ⟨k, f⟩ := e
    simp only [List.forall_mem_cons] at hc
    have ih := ih hc.2
    have hd : Declared (σ.intro f.intro) (withDefaultGraph f.dataset g) := declared_ext (σ := σ) hc.1 (by simp)
    unfold fields at h
    rcases Out.bind_eq_err.1 h with h | ⟨o, ho, h⟩
    · obtain ⟨h1, h2⟩ := unique_err hds hd h
      exact ⟨(k, f), by simp, .inr (.inr ⟨h1, h2⟩)⟩
    · cases o with
      | none =>
        simp only at h
        split at h
        · rename_i hr
          injection h with h
          exact ⟨(k, f), by simp, .inr (.inl ⟨h.symm, hr, (uniqueMatch_eq_none c hds _ _ _ g hd).1 ho⟩)⟩
        · obtain ⟨e, he, r⟩ := ih h
          exact ⟨e, List.mem_cons_of_mem _ he, r⟩
      | some σ' =>
        rcases Out.bind_eq_err.1 h with h | ⟨v, -, h⟩
        · exact ⟨(k, f), by simp, .inl ⟨σ', (uniqueMatch_eq_some c hds _ _ _ g hd σ').1 ho, h⟩⟩
        · rcases Out.bind_eq_err.1 h with h | ⟨_, -, h⟩
          · obtain ⟨e, he, r⟩ := ih h
            exact ⟨e, List.mem_cons_of_mem _ he, r⟩
          · simp at h

/-- If the fields are read, each is matched once, or is optional and not matched. -/
theorem fields_matched (hds : c.ds.Nodup) {fs : List (Value × Field R)} {m}
    (hc : ∀ e ∈ fs, PatsBelow (σ.length + e.2.intro) e.2.dataset) (h : fields c rec g ref σ fs = .ok m) {e} (he : e ∈ fs) :
    (∃ σ', UniqueMatch c.ds (σ ++ List.replicate e.2.intro none) (inGraph g e.2.dataset) σ') ∨
    (e.2.required = false ∧ NoMatch c.ds (σ ++ List.replicate e.2.intro none) (inGraph g e.2.dataset)) := by
  induction fs generalizing m with
  | nil => simp at he
  | cons a fs ih =>
    obtain ⟨k, f⟩ := a
    simp only [List.forall_mem_cons] at hc
    have hd : Declared (σ.intro f.intro) (withDefaultGraph f.dataset g) := declared_ext (σ := σ) hc.1 (by simp)
    unfold fields at h
    obtain ⟨o, ho, h⟩ := Out.bind_eq_ok.1 h
    cases o with
    | none =>
      simp only at h
      split at h
      · simp at h
      · rename_i hr
        rcases List.mem_cons.1 he with rfl | he
        · exact .inr ⟨by simpa using hr, (uniqueMatch_eq_none c hds _ _ _ g hd).1 ho⟩
        · exact ih hc.2 h he
    | some τ =>
      rcases List.mem_cons.1 he with rfl | he
      · exact .inl ⟨τ, (uniqueMatch_eq_some c hds _ _ _ g hd τ).1 ho⟩
      · obtain ⟨v, hv, h⟩ := Out.bind_eq_ok.1 h
        obtain ⟨r, hr, -⟩ := Out.bind_eq_ok.1 h
        exact ih hc.2 hr he

theorem sized_err (hds : c.ds.Nodup) {is : List (ItemLayout R)} {k : Nat}
    (hc : ∀ e ∈ is, PatsBelow (σ.length + e.intro) e.dataset) (h : sizedItems c rec g ref σ k is = .err x) :
    ∃ (i : Nat) (e : ItemLayout R), is[i]? = some e ∧
      ((∃ σ', UniqueMatch c.ds (σ ++ List.replicate e.intro none) (inGraph g e.dataset) σ' ∧ subValue rec g e.value σ' = .err x) ∨
      (x = .missingData (.sizedListItem ref (k + i)) ∧ NoMatch c.ds (σ ++ List.replicate e.intro none) (inGraph g e.dataset)) ∨
      (x = .dataAmbiguity (.sizedListItem ref (k + i)) ∧
        SeveralMatches c.ds (σ ++ List.replicate e.intro none) (inGraph g e.dataset))) := by
  induction is generalizing k with
  | nil => simp [sizedItems] at h
  | cons f fs ih =>
    simp only [List.forall_mem_cons] at hc
    have hd : Declared (σ.intro f.intro) (withDefaultGraph f.dataset g) := declared_ext (σ := σ) hc.1 (by simp)
    unfold sizedItems at h
    rcases Out.bind_eq_err.1 h with h | ⟨σ', ho, h⟩
    · exact ⟨0, f, rfl, .inr (required_err hds hd h)⟩
    · rcases Out.bind_eq_err.1 h with h | ⟨v, -, h⟩
      · exact ⟨0, f, rfl, .inl ⟨σ', (requiredMatch_eq_ok c hds _ _ _ g hd σ').1 ho, h⟩⟩
      · rcases Out.bind_eq_err.1 h with h | ⟨_, -, h⟩
        · obtain ⟨i, e, he, r⟩ := ih hc.2 h
          rw [show k + 1 + i = k + (i + 1) by omega] at r
          exact ⟨i + 1, e, by simpa using he, r⟩
        · simp at h

theorem sized_matched (hds : c.ds.Nodup) {is : List (ItemLayout R)} {k : Nat} {vs}
    (hc : ∀ e ∈ is, PatsBelow (σ.length + e.intro) e.dataset) (h : sizedItems c rec g ref σ k is = .ok vs) {e} (he : e ∈ is) :
    ∃ σ', UniqueMatch c.ds (σ ++ List.replicate e.intro none) (inGraph g e.dataset) σ' := by
  induction is generalizing k vs with
  | nil => simp at he
  | cons f fs ih =>
    simp only [List.forall_mem_cons] at hc
    have hd : Declared (σ.intro f.intro) (withDefaultGraph f.dataset g) := declared_ext (σ := σ) hc.1 (by simp)
    unfold sizedItems at h
    obtain ⟨τ, ho, h⟩ := Out.bind_eq_ok.1 h
    obtain ⟨v, hv, h⟩ := Out.bind_eq_ok.1 h
    obtain ⟨r, hr, -⟩ := Out.bind_eq_ok.1 h
    rcases List.mem_cons.1 he with rfl | he
    · exact ⟨τ, (requiredMatch_eq_ok c hds _ _ _ g hd τ).1 ho⟩
    · exact ih hc.2 hr he

theorem nodes_err (hds : c.ds.Nodup) {node : ItemLayout R} {tail : R}
    (hc : PatsBelow (σ.length + 2 + node.intro) node.dataset) {n : Nat} {head : R} (h : nodes c rec g ref node σ tail n head = .err x) :
    (∃ σ', ListNode c.ds g node σ tail head σ' ∧ subValue rec g node.value σ' = .err x) ∨
    ∃ r, ListReaches c.ds g node σ tail head r ∧
      ((x = .missingData (.orderedListNode ref r tail) ∧
        NoMatch c.ds (σ ++ [some r, none] ++ List.replicate node.intro none) (inGraph g node.dataset)) ∨
      (x = .dataAmbiguity (.orderedListNode ref r tail) ∧
        SeveralMatches c.ds (σ ++ [some r, none] ++ List.replicate node.intro none) (inGraph g node.dataset))) := by
  induction n generalizing head with
  | zero => unfold nodes at h; split at h <;> simp at h
  | succ n ih =>
    unfold nodes at h
    split at h
    · simp at h
    · rename_i hne
      have hd : Declared ((Subst.push σ (some head)).intro (1 + node.intro)) (withDefaultGraph node.dataset g) :=
        declared_ext (σ := σ) hc (by simp [Subst.push]; omega)
      rcases Out.bind_eq_err.1 h with h | ⟨σ', ho, h⟩
      · have := required_err hds hd h
        rw [intro_push] at this
        exact .inr ⟨head, .here hne, this⟩
      · have hu := (requiredMatch_eq_ok c hds _ _ _ g hd σ').1 ho
        rw [intro_push] at hu
        rcases Out.bind_eq_err.1 h with h | ⟨v, -, h⟩
        · exact .inl ⟨σ', .here hne hu, h⟩
        · rcases Out.bind_eq_err.1 h with h | ⟨next, hn, h⟩
          · exact absurd h Out.ofOption_ne_err
          · have hn := (Out.ofOption_eq_ok).1 hn
            rcases Out.bind_eq_err.1 h with h | ⟨_, -, h⟩
            · rcases ih h with ⟨τ, h1, h2⟩ | ⟨r, h1, h2⟩
              · exact .inl ⟨τ, .after hne hu hn h1, h2⟩
              · exact .inr ⟨r, .after hne hu hn h1, h2⟩
            · simp at h

theorem chain_matched {M : Option R → R → List R → TypedValue R → Prop} {ds : List (Quad R)} {node : ItemLayout R} {tail head : R}
    {vs : List (TypedValue R)} (h : ChainMeaning ds M g node σ tail head vs) {r : R} (hn : ListReaches ds g node σ tail head r) :
    ∃ τ, UniqueMatch ds (σ ++ [some r, none] ++ List.replicate node.intro none) (inGraph g node.dataset) τ := by
  induction hn generalizing vs with
  | here hne =>
    cases h with
    | nil => exact absurd rfl hne
    | cons _ hu _ _ _ => exact ⟨_, hu⟩
  | after hne hu hget _ ih =>
    cases h with
    | nil => exact absurd rfl hne
    | cons _ hu' hs hnext hrest =>
      obtain rfl := hu.2 _ hu'.1
      rw [hget, Option.some.injEq] at hnext
      subst hnext
      exact ih hrest

/-- The only errors of the variants of a sum that are reported. -/
theorem variants_err (hds : c.ds.Nodup) {vs : List (Variant R)} (h0 : ∀ v ∈ vs, v.intro = 0)
    (hc : ∀ v ∈ vs, PatsBelow σ.length v.dataset) {i : Nat} {sel : Option (Nat × TypedValue R)}
    (h : variants c rec g ref σ i vs sel = .err x) :
    ∃ v ∈ vs, x = .dataAmbiguity (.variant ref v.name) ∧
      SeveralMatches c.ds (σ ++ List.replicate v.intro none) (inGraph g v.dataset) := by
  induction vs generalizing i sel with
  | nil => rcases sel with _ | ⟨j, w⟩ <;> simp [variants] at h
  | cons y vs ih =>
    simp only [List.forall_mem_cons] at h0 hc
    have hσ : σ ++ List.replicate y.intro none = σ := by rw [h0.1]; simp
    have hd : Declared σ (withDefaultGraph y.dataset g) := declared_of_below hc.1 (Nat.le_refl _)
    have rest : ∀ {i sel}, variants c rec g ref σ i vs sel = .err x → ∃ v ∈ y :: vs, x = .dataAmbiguity (.variant ref v.name) ∧
        SeveralMatches c.ds (σ ++ List.replicate v.intro none) (inGraph g v.dataset) := fun h => by
      obtain ⟨v, hv, r⟩ := ih h0.2 hc.2 h
      exact ⟨v, List.mem_cons_of_mem _ hv, r⟩
    unfold variants at h
    rcases Out.bind_eq_err.1 h with h | ⟨o, ho, h⟩
    · obtain ⟨h1, h2⟩ := unique_err hds hd h
      exact ⟨y, by simp, h1, by rw [hσ]; exact h2⟩
    · cases o with
      | none => exact rest h
      | some σ' =>
        simp only at h
        split at h
        · cases sel with
          | some s => simp at h
          | none => exact rest h
        · exact rest h
        · simp at h
        · simp at h

/-! ## Layouts -/

/-- What is done first with every layout. -/
theorem first_err (hds : c.ds.Nodup) {p : Place R} {l : Layout R} (hp : p.Has c l) {k : Nat}
    (hc : PatsBelow (k + l.own.1) l.own.2) (hi : p.inputs.length = k) {α} {f : Subst R → Out (HyError R) α}
    (h : (requiredMatch c (.discriminant p.layout) ((Subst.fromInputs p.inputs).intro l.own.1) l.own.2 p.graph).bind f = .err x) :
    ErrorCause c p x ∨ ∃ σ, p.Match c l.own.1 l.own.2 σ ∧ σ.length = k + l.own.1 ∧ f σ = .err x := by
  rcases Out.bind_eq_err.1 h with h | ⟨σ, hσ, h⟩
  · left
    rcases required_err hds (declared_place hc hi) h with ⟨rfl, h'⟩ | ⟨rfl, σ, σ', h1, h2, h3⟩
    · exact .missing hp h'
    · exact .ambiguous hp h1 h2 h3
  · have hm := (match_place hds hc hi).1 hσ
    exact .inr ⟨σ, hm, match_length hi hm, h⟩

theorem data_err (hds : c.ds.Nodup) {p : Place R} {l : Layout R} {d : DataLayout R} (hl : p.Has c l) (hd : l.literalLayout = some d)
    (hown : l.own = (d.intro, d.dataset))
    (hi : p.inputs.length = 1) (hc : PatsBelow (1 + d.intro) d.dataset) {α} {parse : String → String → Out (HyError R) α}
    {mk : α → TypedLiteral R} (hparse : ∀ r lit i, LiteralAt c p d r → lit ∈ c.literalsOf r → OfType c d lit i →
      parse lit.value i = .err x → ErrorCause c p x)
    (h : hydrateData c p.graph p.layout d p.inputs parse mk = .err x) : ErrorCause c p x := by
  unfold hydrateData at h
  have hfirst := first_err hds hl (by rw [hown]; exact hc) hi (by rw [hown]; exact h)
  rw [hown] at hfirst
  rcases hfirst with h | ⟨σ, hm, -, h⟩
  · exact h
  rcases Out.bind_eq_err.1 h with h | ⟨r, hr, h⟩
  · exact absurd h resource_ne_err
  have hat : LiteralAt c p d r := ⟨σ, hm, (resource_eq_ok _ _ _).1 hr⟩
  rcases Out.bind_eq_err.1 h with h | ⟨o, ho, h⟩
  · obtain ⟨lit, hlit, i, hi, e, hp⟩ := scan_err h
    exact hparse r lit i hat hlit ⟨e, hi⟩ hp
  · cases o with
    | some v => simp at h
    | none =>
      injection h with h
      subst h
      exact .noLiteral hl hd hat fun lit hlit i ht => (scan_none ho).2 lit hlit i ht.2 ht.1

/-- One step: what an error says is true at the place, or the error comes from a component. -/
theorem step_err (hreg : c.reg.Closed) (hds : c.ds.Nodup) {n : Nat} {p : Place R} (h : at_ (hydrate c (n + 1)) p = .err x) :
    (ErrorCause c p x ∨ p.VariantDeclares c) ∨ ∃ q, p.Component c q ∧ at_ (hydrate c n) q = .err x := by
  have part : ∀ fmt σ, ComponentFormat c p fmt σ → subValue (hydrate c n) p.graph fmt σ = .err x →
      (ErrorCause c p x ∨ p.VariantDeclares c) ∨ ∃ q, p.Component c q ∧ at_ (hydrate c n) q = .err x := by
    intro fmt σ hf h
    obtain ⟨q, hq, h⟩ := subValue_err h
    exact .inr ⟨q, ⟨fmt, σ, hf, hq⟩, h⟩
  unfold at_ hydrate at h
  split at h
  · rename_i hn
    injection h with h
    subst h
    exact (.inl ∘ .inl) (.notFound hn)
  rename_i l hl
  split at h
  · rename_i hne
    injection h with h
    subst h
    cases hk : l.inputCount with
    | none => simp [hk] at hne
    | some k =>
      rw [hk] at hne
      simp at hne
      exact (.inl ∘ .inl) (.inputs hl hk (fun e => hne e.symm))
  rename_i hne
  have hi : ∀ k, l.inputCount = some k → p.inputs.length = k := by
    intro k hk
    rw [hk] at hne
    simp at hne
    exact hne.symm
  have hp : p.Has c l := ⟨hl, hi⟩
  have hcl := hreg p.layout l hl
  cases l with
  | never =>
    injection h with h
    subst h
    exact (.inl ∘ .inl) (.never hl)
  | always => simp [layout] at h
  | unit l =>
    rcases first_err hds hp hcl (hi 1 rfl) h with h | ⟨σ, -, -, h⟩
    · exact (.inl ∘ .inl) h
    · simp at h
  | boolean l =>
    refine (.inl ∘ .inl) (data_err hds hp rfl rfl (hi 1 rfl) hcl.1 ?_ (Out.map_eq_err.1 h))
    intro r lit i hat hlit ht hpar
    unfold booleanValue at hpar
    split at hpar
    · exact absurd hpar Out.ofOption_ne_err
    · simp at hpar
  | number l =>
    refine (.inl ∘ .inl) (data_err hds hp rfl rfl (hi 1 rfl) hcl.1 ?_ (Out.map_eq_err.1 h))
    intro r lit i hat hlit ht hpar
    unfold numberValue at hpar
    split at hpar
    · exact absurd hpar Out.ofOption_ne_err
    · rename_i hd
      injection hpar with hpar
      subst hpar
      exact .notNumber hp hat hlit ht (by simpa using hd)
  | byteString l =>
    exact (.inl ∘ .inl) (data_err hds hp rfl rfl (hi 1 rfl) hcl.1 (fun r lit i _ _ _ h => by simp [byteStringValue] at h)
      (Out.map_eq_err.1 h))
  | textString l =>
    exact (.inl ∘ .inl) (data_err hds hp rfl rfl (hi 1 rfl) hcl.1 (fun r lit i _ _ _ hpar => by simp [textStringValue] at hpar)
      (Out.map_eq_err.1 h))
  | id l =>
    have h := Out.map_eq_err.1 h
    unfold hydrateId at h
    rcases first_err hds hp hcl.1 (hi 1 rfl) h with h | ⟨σ, hm, -, h⟩
    · exact (.inl ∘ .inl) h
    rcases Out.bind_eq_err.1 h with h | ⟨r, hr, h⟩
    · exact absurd h resource_ne_err
    · split at h <;> simp at h
  | sum l =>
    rcases first_err hds hp hcl.1 (hi _ rfl) h with h | ⟨σ, hm, hlen, h⟩
    · exact (.inl ∘ .inl) h
    by_cases h0 : ∀ x ∈ l.variants, x.intro = 0
    case neg =>
      simp only [not_forall] at h0
      obtain ⟨x, hx, h0⟩ := h0
      exact .inl (.inr ⟨l, hp, x, hx, h0⟩)
    have hc : ∀ v ∈ l.variants, PatsBelow σ.length v.dataset := fun v hv => by
      have := (hcl.2 v hv).1
      rw [h0 v hv] at this
      rw [hlen]
      exact this
    obtain ⟨v, hv, rfl, h'⟩ := variants_err hds h0 hc h
    exact (.inl ∘ .inl) (.variants hp hm hv h')
  | product l =>
    rcases first_err hds hp hcl.1 (hi _ rfl) h with h | ⟨σ, hm, hlen, h⟩
    · exact (.inl ∘ .inl) h
    rcases Out.bind_eq_err.1 h with h | ⟨_, -, h⟩
    · obtain ⟨e, he, ⟨σ', hu, h⟩ | ⟨rfl, hr, h'⟩ | ⟨rfl, h'⟩⟩ := fields_err hds (fun e he => by rw [hlen]; exact (hcl.2 e he).1) h
      · exact part e.2.value σ' (.field hp hm he hu) h
      · exact (.inl ∘ .inl) (.noField hp hm he hr h')
      · exact (.inl ∘ .inl) (.fields hp hm he h')
    · simp at h
  | unordered l =>
    rcases first_err hds hp hcl.1 (hi _ rfl) h with h | ⟨σ, hm, hlen, h⟩
    · exact (.inl ∘ .inl) h
    have hd : Declared (σ.intro l.item.intro) (withDefaultGraph l.item.dataset p.graph) :=
      declared_ext (σ := σ) hcl.2.1 (by rw [hlen]; rfl)
    simp only at h
    rw [unorderedItems_eq c _ p.graph l.item.value _ _ (by omega) (Matching.inv_new hd), Matching.stackEnum_new] at h
    rcases Out.bind_eq_err.1 h with h | ⟨_, -, h⟩
    · obtain ⟨τ, hτ, h⟩ := Out.mapM'_eq_err h
      have hmτ := (Matching.mem_enum c.ds _ _ hd τ).1 hτ
      rw [← inGraph_eq] at hmτ
      exact part l.item.value τ (.item hp hm hmτ) h
    · simp at h
  | ordered l =>
    rcases first_err hds hp hcl.1 (hi _ rfl) h with h | ⟨σ, hm, hlen, h⟩
    · exact (.inl ∘ .inl) h
    rcases Out.bind_eq_err.1 h with h | ⟨head, hhead, h⟩
    · exact absurd h resource_ne_err
    have hhead := (resource_eq_ok _ _ _).1 hhead
    rcases Out.bind_eq_err.1 h with h | ⟨tail, htail, h⟩
    · exact absurd h resource_ne_err
    have htail := (resource_eq_ok _ _ _).1 htail
    rcases Out.bind_eq_err.1 h with h | ⟨_, -, h⟩
    · rcases nodes_err hds (by rw [hlen]; exact hcl.2.2.2.1) h with ⟨σ', hn, h⟩ | ⟨r, hr, ⟨rfl, h'⟩ | ⟨rfl, h'⟩⟩
      · exact part l.node.value σ' (.node hp hm hhead htail hn) h
      · exact (.inl ∘ .inl) (.noNode hp hm hhead htail hr h')
      · exact (.inl ∘ .inl) (.nodes hp hm hhead htail hr h')
    · simp at h
  | sized l =>
    rcases first_err hds hp hcl.1 (hi _ rfl) h with h | ⟨σ, hm, hlen, h⟩
    · exact (.inl ∘ .inl) h
    rcases Out.bind_eq_err.1 h with h | ⟨_, -, h⟩
    · obtain ⟨i, e, he, ⟨σ', hu, h⟩ | ⟨rfl, h'⟩ | ⟨rfl, h'⟩⟩ := sized_err hds (fun e he => by rw [hlen]; exact (hcl.2 e he).1) h
      · exact part e.value σ' (.element hp hm (List.mem_of_getElem? he) hu) h
      · rw [Nat.zero_add]
        exact (.inl ∘ .inl) (.noItem hp hm he h')
      · rw [Nat.zero_add]
        exact (.inl ∘ .inl) (.items hp hm he h')
    · simp at h

theorem err_cause (hreg : c.reg.Closed) (hds : c.ds.Nodup) {n : Nat} {p : Place R} (h : at_ (hydrate c n) p = .err x) :
    ∃ q, Relation.ReflTransGen (Place.Component c) p q ∧ (ErrorCause c q x ∨ q.VariantDeclares c) := by
  induction n generalizing p with
  | zero => simp [at_, hydrate] at h
  | succ n ih =>
    rcases step_err hreg hds h with h | ⟨q, hq, h⟩
    · exact ⟨p, .refl, h⟩
    · obtain ⟨q', hq', hc⟩ := ih h
      exact ⟨q', .head hq hq', hc⟩

/-! ## What errors say prevents success -/

theorem not_several {ds : List (Quad R)} {σ τ : Subst R} {pats : List (QuadPat R)} (hu : UniqueMatch ds σ pats τ)
    (h : SeveralMatches ds σ pats) : False := by
  obtain ⟨a, b, ha, hb, hne⟩ := h
  exact hne ((hu.2 a ha).trans (hu.2 b hb).symm)

section Prevent

variable (hreg : c.reg.Closed) (hds : c.ds.Nodup) {n : Nat} {p : Place R} {v : TypedValue R}
include hreg hds

/-- If a layout is hydrated, its patterns have one match. -/
theorem own_ok (h : at_ (hydrate c (n + 1)) p = .ok v) {l : Layout R} (hp : p.Has c l) :
    ∃ σ, l.OwnMatch c.ds p.graph p.inputs σ ∧ ∀ τ, l.OwnMatch c.ds p.graph p.inputs τ → τ = σ := by
  have hcl := hreg p.layout _ hp.1
  rw [hydrate_has hp] at h
  have key : ∀ {k : Nat}, PatsBelow (k + l.own.1) l.own.2 → p.inputs.length = k → ∀ {α} {f : Subst R → Out (HyError R) α} {a : α},
      (requiredMatch c (.discriminant p.layout) ((Subst.fromInputs p.inputs).intro l.own.1) l.own.2 p.graph).bind f = .ok a →
      ∃ σ, l.OwnMatch c.ds p.graph p.inputs σ ∧ ∀ τ, l.OwnMatch c.ds p.graph p.inputs τ → τ = σ := by
    intro k hc hi α f a h
    obtain ⟨σ, hm, -⟩ := first_ok hds hc hi h
    exact ⟨σ, hm.1, hm.2⟩
  cases l with
  | never => simp [layout] at h
  | always =>
    have hd : Declared (p.inputs.map some ++ List.replicate 0 none) ([] : List (QuadPat R)) := by simp [Declared, patsVars]
    have henum : ∀ τ, IsMatch c.ds (p.inputs.map some ++ List.replicate 0 none) ([] : List (QuadPat R)) τ ↔ τ = p.inputs.map some := by
      intro τ
      rw [← Matching.mem_enum c.ds _ _ hd]
      simp [Matching.enum]
    exact ⟨p.inputs.map some, (henum _).2 rfl, fun τ h => (henum τ).1 h⟩
  | unit l => exact key hcl (hp.2 1 rfl) h
  | boolean l =>
    obtain ⟨_, h, -⟩ := Out.map_eq_ok_iff.1 h
    exact key hcl.1 (hp.2 1 rfl) h
  | number l =>
    obtain ⟨_, h, -⟩ := Out.map_eq_ok_iff.1 h
    exact key hcl.1 (hp.2 1 rfl) h
  | byteString l =>
    obtain ⟨_, h, -⟩ := Out.map_eq_ok_iff.1 h
    exact key hcl.1 (hp.2 1 rfl) h
  | textString l =>
    obtain ⟨_, h, -⟩ := Out.map_eq_ok_iff.1 h
    exact key hcl.1 (hp.2 1 rfl) h
  | id l =>
    obtain ⟨_, h, -⟩ := Out.map_eq_ok_iff.1 h
    exact key hcl.1 (hp.2 1 rfl) h
  | sum l => exact key hcl.1 (hp.2 _ rfl) h
  | product l => exact key hcl.1 (hp.2 _ rfl) h
  | unordered l => exact key hcl.1 (hp.2 _ rfl) h
  | ordered l => exact key hcl.1 (hp.2 _ rfl) h
  | sized l => exact key hcl.1 (hp.2 _ rfl) h

/-- If a literal layout is hydrated, its resource has a literal of its type. -/
theorem data_some {d : DataLayout R} (hi : p.inputs.length = 1) (hc : PatsBelow (1 + d.intro) d.dataset) {α}
    {parse : String → String → Out (HyError R) α} {mk : α → TypedLiteral R} {t}
    (h : hydrateData c p.graph p.layout d p.inputs parse mk = .ok t) {r : R} (hr : LiteralAt c p d r) :
    ∃ lit ∈ c.literalsOf r, ∃ i, OfType c d lit i := by
  unfold hydrateData at h
  obtain ⟨σ, hm, huniq, -, h⟩ := first_ok hds hc hi h
  obtain ⟨r', hr', h⟩ := Out.bind_eq_ok.1 h
  obtain ⟨o, ho, h⟩ := Out.bind_eq_ok.1 h
  obtain ⟨τ, hτ, hd⟩ := hr
  rw [huniq τ hτ, ← resource_eq_ok, hr', Out.ok.injEq] at hd
  subst hd
  cases o with
  | none => simp at h
  | some a =>
    rcases scan_some ho with h | ⟨lit, hl, i, hi, e⟩
    · exact absurd rfl h
    · exact ⟨lit, hl, i, e, hi⟩

theorem literal_some (h : at_ (hydrate c (n + 1)) p = .ok v) {l : Layout R} {d : DataLayout R} (hp : p.Has c l)
    (hd : l.literalLayout = some d) {r : R} (hr : LiteralAt c p d r) : ∃ lit ∈ c.literalsOf r, ∃ i, OfType c d lit i := by
  have hcl := hreg p.layout _ hp.1
  rw [hydrate_has hp] at h
  cases l with
  | boolean l =>
    cases hd
    obtain ⟨_, h, -⟩ := Out.map_eq_ok_iff.1 h
    exact data_some hreg hds (hp.2 _ rfl) hcl.1 h hr
  | number l =>
    cases hd
    obtain ⟨_, h, -⟩ := Out.map_eq_ok_iff.1 h
    exact data_some hreg hds (hp.2 _ rfl) hcl.1 h hr
  | byteString l =>
    cases hd
    obtain ⟨_, h, -⟩ := Out.map_eq_ok_iff.1 h
    exact data_some hreg hds (hp.2 _ rfl) hcl.1 h hr
  | textString l =>
    cases hd
    obtain ⟨_, h, -⟩ := Out.map_eq_ok_iff.1 h
    exact data_some hreg hds (hp.2 _ rfl) hcl.1 h hr
  | _ => simp [Layout.literalLayout] at hd

variable (hle : TotalOrder c.le) (hni : c.reg.NoVariantIntro)
include hle hni

theorem error_prevents (hc : ErrorCause c p x) : at_ (hydrate c (n + 1)) p ≠ .ok v := by
  intro h
  cases hc with
  | notFound hn => simp [at_, hydrate, hn] at h
  | @inputs l k hl hk hne =>
    have : l.inputCount.any (· ≠ p.inputs.length) = true := by
      rw [hk]
      simp
      exact fun e => hne e.symm
    simp only [at_, hydrate, hl] at h
    rw [if_pos this] at h
    simp at h
  | never hl =>
    rw [hydrate_has ⟨hl, by simp [Layout.inputCount]⟩] at h
    simp [layout] at h
  | missing hp hno =>
    obtain ⟨σ, hσ, -⟩ := own_ok hreg hds h hp
    exact hno σ hσ
  | ambiguous hp h1 h2 hne =>
    obtain ⟨σ, -, hu⟩ := own_ok hreg hds h hp
    exact hne ((hu _ h1).trans (hu _ h2).symm)
  | noLiteral hp hd hat hno =>
    obtain ⟨lit, hlit, i, hi⟩ := literal_some hreg hds h hp hd hat
    exact hno lit hlit i hi
  | notNumber hp hat hlit ht hdec =>
    rw [hydrate_has hp] at h
    obtain ⟨_, h, -⟩ := Out.map_eq_ok_iff.1 h
    obtain ⟨a, ha⟩ := ((data_none hds (hp.2 _ rfl) (hreg p.layout _ hp.1).1 h).2 _ hat).2.1 _ hlit _ ht
    unfold numberValue at ha
    simp [hdec] at ha
  | @noField l σ key field hp hm he hr hno =>
    have hcl := hreg p.layout _ hp.1
    rw [hydrate_has hp] at h
    obtain ⟨τ, -, huniq, hlen, h⟩ := first_ok hds hcl.1 (hp.2 _ rfl) h
    obtain rfl := huniq σ hm
    obtain ⟨_, h, -⟩ := Out.bind_eq_ok.1 h
    rcases fields_matched hds (fun e he => by rw [hlen]; exact (hcl.2 e he).1) h he with ⟨τ, hu⟩ | ⟨e, -⟩
    · exact hno τ hu.1
    · simp only at e
      rw [hr] at e
      cases e
  | @fields l σ key field hp hm he hs =>
    have hcl := hreg p.layout _ hp.1
    rw [hydrate_has hp] at h
    obtain ⟨τ, -, huniq, hlen, h⟩ := first_ok hds hcl.1 (hp.2 _ rfl) h
    obtain rfl := huniq σ hm
    obtain ⟨_, h, -⟩ := Out.bind_eq_ok.1 h
    rcases fields_matched hds (fun e he => by rw [hlen]; exact (hcl.2 e he).1) h he with ⟨τ, hu⟩ | ⟨-, e⟩
    · exact not_several hu hs
    · obtain ⟨τ, _, h, -⟩ := hs
      exact e τ h
  | @variants l σ x hp hm hx hs =>
    obtain ⟨k, y, hk, hok, hfail⟩ := sum_ok hreg hds hle hni h hp hm
    obtain ⟨j, hj⟩ := List.mem_iff_getElem?.1 hx
    by_cases e : j = k
    · subst e
      rw [hj] at hk
      injection hk with hk
      subst hk
      obtain ⟨_, _, hu, -⟩ := hok
      exact not_several hu hs
    · rcases hfail j x hj e with h | ⟨_, _, hu, -⟩
      · obtain ⟨τ, _, h', -⟩ := hs
        exact h τ h'
      · exact not_several hu hs
  | @noNode l σ head tail node hp hm hh ht hn hno =>
    have hcl := hreg p.layout _ hp.1
    rw [hydrate_has hp] at h
    obtain ⟨τ, -, huniq, hlen, h⟩ := first_ok hds hcl.1 (hp.2 _ rfl) h
    obtain rfl := huniq σ hm
    rw [(resource_eq_ok _ _ _).2 hh, (resource_eq_ok _ _ _).2 ht, Out.bind_ok, Out.bind_ok] at h
    obtain ⟨_, h, -⟩ := Out.bind_eq_ok.1 h
    obtain ⟨τ, hu⟩ := chain_matched ((nodes_eq_ok c hds _ _ _ _ _ _ (by rw [hlen]; exact hcl.2.2.2.1) _ _ _).1 h).1 hn
    exact hno τ hu.1
  | @nodes l σ head tail node hp hm hh ht hn hs =>
    have hcl := hreg p.layout _ hp.1
    rw [hydrate_has hp] at h
    obtain ⟨τ, -, huniq, hlen, h⟩ := first_ok hds hcl.1 (hp.2 _ rfl) h
    obtain rfl := huniq σ hm
    rw [(resource_eq_ok _ _ _).2 hh, (resource_eq_ok _ _ _).2 ht, Out.bind_ok, Out.bind_ok] at h
    obtain ⟨_, h, -⟩ := Out.bind_eq_ok.1 h
    obtain ⟨τ, hu⟩ := chain_matched ((nodes_eq_ok c hds _ _ _ _ _ _ (by rw [hlen]; exact hcl.2.2.2.1) _ _ _).1 h).1 hn
    exact not_several hu hs
  | @noItem l σ item i hp hm he hno =>
    have hcl := hreg p.layout _ hp.1
    rw [hydrate_has hp] at h
    obtain ⟨τ, -, huniq, hlen, h⟩ := first_ok hds hcl.1 (hp.2 _ rfl) h
    obtain rfl := huniq σ hm
    obtain ⟨_, h, -⟩ := Out.bind_eq_ok.1 h
    obtain ⟨τ, hu⟩ := sized_matched hds (fun e he => by rw [hlen]; exact (hcl.2 e he).1) h (List.mem_of_getElem? he)
    exact hno τ hu.1
  | @items l σ item i hp hm he hs =>
    have hcl := hreg p.layout _ hp.1
    rw [hydrate_has hp] at h
    obtain ⟨τ, -, huniq, hlen, h⟩ := first_ok hds hcl.1 (hp.2 _ rfl) h
    obtain rfl := huniq σ hm
    obtain ⟨_, h, -⟩ := Out.bind_eq_ok.1 h
    obtain ⟨τ, hu⟩ := sized_matched hds (fun e he => by rw [hlen]; exact (hcl.2 e he).1) h (List.mem_of_getElem? he)
    exact not_several hu hs

theorem error_component (n : Nat) (q : Place R) (hpq : Relation.ReflTransGen (Place.Component c) p q) (hc : ErrorCause c q x) :
    at_ (hydrate c n) p ≠ .ok v := by
  induction hpq using Relation.ReflTransGen.head_induction_on generalizing n v with
  | refl =>
    cases n with
    | zero => simp [at_, hydrate]
    | succ n => exact error_prevents hreg hds hle hni hc
  | head hcomp _ ih =>
    intro h
    cases n with
    | zero => simp [at_, hydrate] at h
    | succ n =>
      obtain ⟨fmt, σ, hf, hsub⟩ := hcomp
      obtain ⟨w, hw⟩ := component_ok hreg hds h hf
      obtain ⟨q', hq', hw⟩ := sub_ok hw
      obtain rfl := sub_unique hq' hsub
      exact ih n hw

end Prevent

end Hydrate

end Verif
