import Verif.PanicSites

/-! # Causes of panics: layouts -/

set_option linter.unusedSectionVars false
set_option linter.unusedSimpArgs false

namespace Verif.Hydrate

variable {R : Type _} [DecidableEq R] {c : HyCtx R}

section Meanings

variable (hreg : c.reg.Closed) (hds : c.ds.Nodup) (hle : TotalOrder c.le)
include hreg hds hle

theorem means_of_ok {n : Nat} {q : Place R} {v : TypedValue R} (h : at_ (hydrate c n) q = .ok v) : q.Means c v := by
  refine ⟨n, fun m hm => ?_⟩
  have e := (hydrate_mono c n m hm q.graph q.layout q.inputs).eq_of_ne (by rw [show hydrate c n q.graph q.layout q.inputs = _ from h]; simp)
  have hd := decides_hydrate c hreg hds hle m q.graph q.layout q.inputs
  rw [e, show hydrate c n q.graph q.layout q.inputs = _ from h] at hd
  exact (hd v).2 rfl

theorem meaningless_of_err {n : Nat} {q : Place R} {x : HyError R} (h : at_ (hydrate c n) q = .err x) : q.Meaningless c := by
  refine ⟨n, fun m hm => ?_⟩
  have e := (hydrate_mono c n m hm q.graph q.layout q.inputs).eq_of_ne (by rw [show hydrate c n q.graph q.layout q.inputs = _ from h]; simp)
  have hd := decides_hydrate c hreg hds hle m q.graph q.layout q.inputs
  rw [e, show hydrate c n q.graph q.layout q.inputs = _ from h] at hd
  exact hd

theorem variantMeans_of_ok {n : Nat} {p : Place R} {σ : Subst R} {x : Variant R} (h : OkV c (hydrate c n) p.graph σ x) :
    VariantMeans c p σ x := by
  obtain ⟨w, σ', hu, h⟩ := h
  obtain ⟨q, hq, e⟩ := sub_ok h
  exact ⟨σ', q, w, hu, hq, means_of_ok hreg hds hle e⟩

theorem variantMeaningless_of_fail {n : Nat} {p : Place R} {σ : Subst R} {x : Variant R} (h : FailV c (hydrate c n) p.graph σ x) :
    VariantMeaningless c p σ x := by
  rcases h with h | ⟨e, σ', hu, h⟩
  · exact .inl h
  · obtain ⟨q, e', hq, he⟩ := sub_err h
    exact .inr ⟨σ', q, hu, hq, meaningless_of_err hreg hds hle he⟩

omit hreg hds hle in
/-- A place cannot have a meaning and be meaningless. -/
theorem means_meaningless {q : Place R} {v : TypedValue R} (h : q.Means c v) (h' : q.Meaningless c) : False := by
  obtain ⟨N, hN⟩ := h
  obtain ⟨M, hM⟩ := h'
  exact hM (max N M) (Nat.le_max_right _ _) v (hN _ (Nat.le_max_left _ _))

omit hreg hds hle in
theorem variant_exclusive {p : Place R} {σ : Subst R} {x : Variant R} (h : VariantMeans c p σ x) (h' : VariantMeaningless c p σ x) :
    False := by
  obtain ⟨σ', q, v, hu, hq, hv⟩ := h
  rcases h' with h' | ⟨τ, q', hu', hq', hm⟩
  · exact h' σ' hu.1
  · obtain rfl := hu.2 τ hu'.1
    obtain rfl := sub_unique hq hq'
    exact means_meaningless hv hm

end Meanings

/-- The layout at a place, and its first match. -/
theorem declared_place {p : Place R} {intro k : Nat} {dataset : List (QuadPat R)} (hc : PatsBelow (k + intro) dataset)
    (hi : p.inputs.length = k) : Declared ((Subst.fromInputs p.inputs).intro intro) (withDefaultGraph dataset p.graph) :=
  declared_of_below hc (by simp [length_intro, Subst.fromInputs, hi])

theorem match_place (hds : c.ds.Nodup) {p : Place R} {intro k : Nat} {dataset : List (QuadPat R)} (hc : PatsBelow (k + intro) dataset)
    (hi : p.inputs.length = k) {frag : DataFragment R} {σ : Subst R} :
    requiredMatch c frag ((Subst.fromInputs p.inputs).intro intro) dataset p.graph = .ok σ ↔ p.Match c intro dataset σ :=
  requiredMatch_eq_ok c hds frag _ _ p.graph (declared_place hc hi) σ

theorem match_length {p : Place R} {intro k : Nat} {dataset : List (QuadPat R)} (hi : p.inputs.length = k) {σ : Subst R}
    (h : p.Match c intro dataset σ) : σ.length = k + intro := by
  rw [h.1.length_eq]
  simp [hi]

/-- What is done first with every layout. -/
theorem first_panic (hds : c.ds.Nodup) {p : Place R} {intro k : Nat} {dataset : List (QuadPat R)} (hc : PatsBelow (k + intro) dataset)
    (hi : p.inputs.length = k) {frag : DataFragment R} {α} {f : Subst R → Out (HyError R) α}
    (h : (requiredMatch c frag ((Subst.fromInputs p.inputs).intro intro) dataset p.graph).bind f = .panic) :
    ∃ σ, p.Match c intro dataset σ ∧ σ.length = k + intro ∧ f σ = .panic := by
  rcases Out.bind_eq_panic.1 h with h | ⟨σ, hσ, h⟩
  · exact absurd h (requiredMatch_ne_panic c _ _ _ _ (declared_place hc hi))
  · have hm := (match_place hds hc hi).1 hσ
    exact ⟨σ, hm, match_length hi hm, h⟩

theorem first_ok (hds : c.ds.Nodup) {p : Place R} {intro k : Nat} {dataset : List (QuadPat R)} (hc : PatsBelow (k + intro) dataset)
    (hi : p.inputs.length = k) {frag : DataFragment R} {α} {f : Subst R → Out (HyError R) α} {a : α}
    (h : (requiredMatch c frag ((Subst.fromInputs p.inputs).intro intro) dataset p.graph).bind f = .ok a) :
    ∃ σ, p.Match c intro dataset σ ∧ (∀ τ, p.Match c intro dataset τ → τ = σ) ∧ σ.length = k + intro ∧ f σ = .ok a := by
  obtain ⟨σ, hσ, h⟩ := Out.bind_eq_ok.1 h
  have hm := (match_place hds hc hi).1 hσ
  exact ⟨σ, hm, fun τ hτ => hm.2 τ hτ.1, match_length hi hm, h⟩

/-- Literal layouts. -/
theorem data_panic (hds : c.ds.Nodup) {p : Place R} {l : Layout R} {d : DataLayout R} (hl : p.Has c l) (hd : l.literalLayout = some d)
    (hi : p.inputs.length = 1) (hc : PatsBelow (1 + d.intro) d.dataset) {α} {parse : String → String → Out (HyError R) α}
    {mk : α → TypedLiteral R} (hparse : ∀ r lit i, LiteralAt c p d r → lit ∈ c.literalsOf r → OfType c d lit i →
      parse lit.value i = .panic → PanicCause c p)
    (h : hydrateData c p.graph p.layout d p.inputs parse mk = .panic) : PanicCause c p := by
  unfold hydrateData at h
  obtain ⟨σ, hm, -, h⟩ := first_panic hds hc hi h
  rcases Out.bind_eq_panic.1 h with h | ⟨r, hr, h⟩
  · exact .unboundLiteral hl hd hm (resource_eq_panic h)
  have hat : LiteralAt c p d r := ⟨σ, hm, (resource_eq_ok _ _ _).1 hr⟩
  rcases Out.bind_eq_panic.1 h with h | ⟨o, -, h⟩
  · rcases scan_panic h with ⟨lit, hlit, t, e⟩ | ⟨lit, hlit, i, hi, e, hp⟩ | h
    · exact .language hl hd hat hlit e
    · exact hparse r lit i hat hlit ⟨e, hi⟩ hp
    · exact .literals hl hd hat (by rw [show (none : Option α).toList.length = 0 from rfl, Nat.zero_add] at h; exact h)
  · cases o <;> simp at h

/-- One step: a panic at a place is caused there, or comes from a place that is read for it. -/
theorem step_panic (hreg : c.reg.Closed) (hds : c.ds.Nodup) (hle : TotalOrder c.le) {n : Nat} {p : Place R}
    (h : at_ (hydrate c (n + 1)) p = .panic) : (PanicCause c p ∨ p.VariantDeclares c) ∨ ∃ q, p.Reads c q ∧ at_ (hydrate c n) q = .panic := by
  have part : ∀ fmt σ, ComponentFormat c p fmt σ ∨ VariantFormat c p fmt σ → subValue (hydrate c n) p.graph fmt σ = .panic →
      (PanicCause c p ∨ p.VariantDeclares c) ∨ ∃ q, p.Reads c q ∧ at_ (hydrate c n) q = .panic := by
    intro fmt σ hf h
    rcases sub_panic h with h | ⟨q, hq, h⟩
    · exact .inl (.inl (.unboundPart hf h))
    · exact .inr ⟨q, ⟨fmt, σ, hf, hq⟩, h⟩
  unfold at_ hydrate at h
  split at h
  · simp at h
  rename_i l hl
  split at h
  · simp at h
  rename_i hne
  have hi : ∀ k, l.inputCount = some k → p.inputs.length = k := by
    intro k hk
    rw [hk] at hne
    simp at hne
    exact hne.symm
  have hp : p.Has c l := ⟨hl, hi⟩
  have hcl := hreg p.layout l hl
  cases l with
  | never => simp [layout] at h
  | always => simp [layout] at h
  | unit l =>
    obtain ⟨σ, -, -, h⟩ := first_panic hds hcl (hi 1 rfl) h
    simp at h
  | boolean l =>
    refine (.inl ∘ .inl) (data_panic hds hp rfl (hi 1 rfl) hcl.1 ?_ (Out.map_eq_panic.1 h))
    intro r lit i hat hlit ht hpar
    refine .boolean hp hat hlit ht fun e => ?_
    unfold booleanValue at hpar
    rw [if_pos e] at hpar
    revert hpar
    cases c.xsd.parseBoolean lit.value <;> simp
  | number l =>
    refine (.inl ∘ .inl) (data_panic hds hp rfl (hi 1 rfl) hcl.1 ?_ (Out.map_eq_panic.1 h))
    intro r lit i hat hlit ht hpar
    unfold numberValue at hpar
    split at hpar
    · rename_i hd
      refine .number hp hat hlit ht hd ?_
      revert hpar
      cases c.xsd.parseDecimal lit.value <;> simp
    · simp at hpar
  | byteString l =>
    exact (.inl ∘ .inl) (data_panic hds hp rfl (hi 1 rfl) hcl.1 (fun r lit i hat hlit ht _ => .byteString hp hat hlit ht) (Out.map_eq_panic.1 h))
  | textString l =>
    exact (.inl ∘ .inl) (data_panic hds hp rfl (hi 1 rfl) hcl.1 (fun r lit i _ _ _ hpar => by simp [textStringValue] at hpar)
      (Out.map_eq_panic.1 h))
  | id l =>
    have h := Out.map_eq_panic.1 h
    unfold hydrateId at h
    obtain ⟨σ, hm, -, h⟩ := first_panic hds hcl.1 (hi 1 rfl) h
    rcases Out.bind_eq_panic.1 h with h | ⟨r, hr, h⟩
    · exact (.inl ∘ .inl) (.unboundId hp hm (resource_eq_panic h))
    · refine (.inl ∘ .inl) (.iris hp hm ((resource_eq_ok _ _ _).1 hr) fun e => ?_)
      obtain ⟨i, hi⟩ := List.length_eq_one_iff.1 e
      rw [hi] at h
      simp at h
  | sum l =>
    obtain ⟨σ, hm, hlen, h⟩ := first_panic hds hcl.1 (hi _ rfl) h
    by_cases h0 : ∀ x ∈ l.variants, x.intro = 0
    case neg =>
      simp only [not_forall] at h0
      obtain ⟨x, hx, h0⟩ := h0
      exact .inl (.inr ⟨l, hp, x, hx, h0⟩)
    have hc : ∀ v ∈ l.variants, PatsBelow σ.length v.dataset := fun v hv => by
      have := (hcl.2 v hv).1
      rw [h0 v hv] at this
      rw [hlen]
      exact this
    rcases variants_panic hds h0 hc h with ⟨x, hx, σ', hu, h⟩ | ⟨-, h⟩ | ⟨h, -⟩ | ⟨j, k, x, y, hj, hk, hne, h1, h2⟩
    · exact part x.value σ' (.inr (.variant hp hm hx hu)) h
    · exact (.inl ∘ .inl) (.noVariant hp hm fun x hx => variantMeaningless_of_fail hreg hds hle (h x hx))
    · exact absurd rfl h
    · exact (.inl ∘ .inl) (.variants hp hm hj hk hne (variantMeans_of_ok hreg hds hle h1) (variantMeans_of_ok hreg hds hle h2))
  | product l =>
    obtain ⟨σ, hm, hlen, h⟩ := first_panic hds hcl.1 (hi _ rfl) h
    rcases Out.bind_eq_panic.1 h with h | ⟨_, -, h⟩
    · obtain ⟨e, he, σ', hu, h⟩ := fields_panic hds (fun e he => by rw [hlen]; exact (hcl.2 e he).1) h
      exact part e.2.value σ' (.inl (.field hp hm he hu)) h
    · simp at h
  | unordered l =>
    obtain ⟨σ, hm, hlen, h⟩ := first_panic hds hcl.1 (hi _ rfl) h
    have hd : Declared (σ.intro l.item.intro) (withDefaultGraph l.item.dataset p.graph) :=
      declared_ext (σ := σ) hcl.2.1 (by rw [hlen])
    simp only at h
    rw [unorderedItems_eq c _ p.graph l.item.value _ _ (by omega) (Matching.inv_new hd), Matching.stackEnum_new] at h
    rcases Out.bind_eq_panic.1 h with h | ⟨_, -, h⟩
    · obtain ⟨τ, hτ, h⟩ := mapM_panic h
      have hmτ := (Matching.mem_enum c.ds _ _ hd τ).1 hτ
      rw [← inGraph_eq] at hmτ
      exact part l.item.value τ (.inl (.item hp hm hmτ)) h
    · simp at h
  | ordered l =>
    obtain ⟨σ, hm, hlen, h⟩ := first_panic hds hcl.1 (hi _ rfl) h
    rcases Out.bind_eq_panic.1 h with h | ⟨head, hhead, h⟩
    · exact (.inl ∘ .inl) (.unboundHead hp hm (resource_eq_panic h))
    have hhead := (resource_eq_ok _ _ _).1 hhead
    rcases Out.bind_eq_panic.1 h with h | ⟨tail, htail, h⟩
    · exact (.inl ∘ .inl) (.unboundTail hp hm (resource_eq_panic h))
    have htail := (resource_eq_ok _ _ _).1 htail
    rcases Out.bind_eq_panic.1 h with h | ⟨_, -, h⟩
    · obtain ⟨σ', hn, h | h⟩ := nodes_panic hds (by rw [hlen]; exact hcl.2.2.2.1) h
      · exact part l.node.value σ' (.inl (.node hp hm hhead htail hn)) h
      · exact (.inl ∘ .inl) (.unboundRest hp hm hhead htail hn h)
    · simp at h
  | sized l =>
    obtain ⟨σ, hm, hlen, h⟩ := first_panic hds hcl.1 (hi _ rfl) h
    rcases Out.bind_eq_panic.1 h with h | ⟨_, -, h⟩
    · obtain ⟨e, he, σ', hu, h⟩ := sized_panic hds (fun e he => by rw [hlen]; exact (hcl.2 e he).1) h
      exact part e.value σ' (.inl (.element hp hm he hu)) h
    · simp at h

theorem panic_cause (hreg : c.reg.Closed) (hds : c.ds.Nodup) (hle : TotalOrder c.le) {n : Nat} {p : Place R}
    (h : at_ (hydrate c n) p = .panic) : ∃ q, Relation.ReflTransGen (Place.Reads c) p q ∧ (PanicCause c q ∨ q.VariantDeclares c) := by
  induction n generalizing p with
  | zero => simp [at_, hydrate] at h
  | succ n ih =>
    rcases step_panic hreg hds hle h with h | ⟨q, hq, h⟩
    · exact ⟨p, .refl, h⟩
    · obtain ⟨q', hq', hc⟩ := ih h
      exact ⟨q', .head hq hq', hc⟩

/-! ## Causes prevent success -/

theorem data_none (hds : c.ds.Nodup) {p : Place R} {d : DataLayout R} (hi : p.inputs.length = 1)
    (hc : PatsBelow (1 + d.intro) d.dataset) {α} {parse : String → String → Out (HyError R) α} {mk : α → TypedLiteral R} {t}
    (h : hydrateData c p.graph p.layout d p.inputs parse mk = .ok t) :
    (∀ σ, p.Match c d.intro d.dataset σ → ∃ r, d.resource.Denotes σ.get r) ∧
    ∀ r, LiteralAt c p d r → (∀ lit ∈ c.literalsOf r, ∀ t, lit.type ≠ .langString t) ∧
      (∀ lit ∈ c.literalsOf r, ∀ i, OfType c d lit i → ∃ a, parse lit.value i = .ok a) ∧
      ((c.literalsOf r).filter (typed (c.irisOf d.datatype))).length ≤ 1 := by
  unfold hydrateData at h
  obtain ⟨σ, hm, huniq, -, h⟩ := first_ok hds hc hi h
  obtain ⟨r, hr, h⟩ := Out.bind_eq_ok.1 h
  obtain ⟨o, ho, -⟩ := Out.bind_eq_ok.1 h
  have hr' := (resource_eq_ok _ _ _).1 hr
  obtain ⟨h1, h2, h3, -⟩ := scan_ok ho
  refine ⟨fun τ hτ => ⟨r, by rw [huniq τ hτ]; exact hr'⟩, ?_⟩
  rintro r' ⟨τ, hτ, hd⟩
  rw [huniq τ hτ, ← resource_eq_ok, hr, Out.ok.injEq] at hd
  subst hd
  exact ⟨h1, fun lit hlit i hti => h2 lit hlit i hti.2 hti.1, h3⟩

theorem has_unique {p : Place R} {l l' : Layout R} (h : p.Has c l) (h' : p.Has c l') : l = l' := by
  have := h.1.symm.trans h'.1
  simpa using this

theorem hydrate_has {n : Nat} {p : Place R} {l : Layout R} (h : p.Has c l) :
    at_ (hydrate c (n + 1)) p = layout c (hydrate c n) n p.graph p.layout p.inputs l := by
  have hne : ¬ (l.inputCount.any (· ≠ p.inputs.length)) = true := by
    intro e
    cases hk : l.inputCount with
    | none => simp [hk] at e
    | some k =>
      rw [hk] at e
      have := h.2 k hk
      simp at e
      exact e this.symm
  simp only [at_, hydrate, h.1]
  rw [if_neg hne]

section Prevent

variable (hreg : c.reg.Closed) (hds : c.ds.Nodup) {n : Nat} {p : Place R} {v : TypedValue R}
include hreg hds

/-- If a layout is hydrated, so is each of its components. -/
theorem component_ok (h : at_ (hydrate c (n + 1)) p = .ok v) {fmt : ValueFormat R} {σ : Subst R} (hf : ComponentFormat c p fmt σ) :
    ∃ w, subValue (hydrate c n) p.graph fmt σ = .ok w := by
  cases hf with
  | @field l σ e σ' hp hm he hu =>
    have hcl := hreg p.layout _ hp.1
    rw [hydrate_has hp] at h
    obtain ⟨τ, -, huniq, hlen, h⟩ := first_ok hds hcl.1 (hp.2 _ rfl) h
    obtain rfl := huniq σ hm
    obtain ⟨_, h, -⟩ := Out.bind_eq_ok.1 h
    exact fields_all hds (fun e he => by rw [hlen]; exact (hcl.2 e he).1) h he hu
  | @item l σ σ' hp hm hu =>
    have hcl := hreg p.layout _ hp.1
    rw [hydrate_has hp] at h
    obtain ⟨τ, -, huniq, hlen, h⟩ := first_ok hds hcl.1 (hp.2 _ rfl) h
    obtain rfl := huniq σ hm
    have hd : Declared (σ.intro l.item.intro) (withDefaultGraph l.item.dataset p.graph) :=
      declared_ext (σ := σ) hcl.2.1 (by rw [hlen])
    simp only at h
    rw [unorderedItems_eq c _ p.graph l.item.value _ _ (by omega) (Matching.inv_new hd), Matching.stackEnum_new] at h
    obtain ⟨_, h, -⟩ := Out.bind_eq_ok.1 h
    refine mapM_all h _ ((Matching.mem_enum c.ds _ _ hd _).2 ?_)
    rw [← inGraph_eq]
    exact hu
  | @node l σ head tail σ' hp hm hh ht hn =>
    have hcl := hreg p.layout _ hp.1
    rw [hydrate_has hp] at h
    obtain ⟨τ, -, huniq, hlen, h⟩ := first_ok hds hcl.1 (hp.2 _ rfl) h
    obtain rfl := huniq σ hm
    rw [(resource_eq_ok _ _ _).2 hh, (resource_eq_ok _ _ _).2 ht, Out.bind_ok, Out.bind_ok] at h
    obtain ⟨_, h, -⟩ := Out.bind_eq_ok.1 h
    have hch := ((nodes_eq_ok c hds _ _ _ _ _ _ (by rw [hlen]; exact hcl.2.2.2.1) _ _ _).1 h).1
    obtain ⟨⟨w, hw⟩, -⟩ := chain_all hch hn
    exact ⟨w, (subValue_eq_ok _ _ _ _ _).2 hw⟩
  | @element l σ i σ' hp hm he hu =>
    have hcl := hreg p.layout _ hp.1
    rw [hydrate_has hp] at h
    obtain ⟨τ, -, huniq, hlen, h⟩ := first_ok hds hcl.1 (hp.2 _ rfl) h
    obtain rfl := huniq σ hm
    obtain ⟨_, h, -⟩ := Out.bind_eq_ok.1 h
    exact sized_all hds (fun e he => by rw [hlen]; exact (hcl.2 e he).1) h he hu

/-- If a literal layout is hydrated, there is no cause of panic in its literals. -/
theorem literal_ok (h : at_ (hydrate c (n + 1)) p = .ok v) {l : Layout R} {d : DataLayout R} (hp : p.Has c l)
    (hd : l.literalLayout = some d) :
    (∀ σ, p.Match c d.intro d.dataset σ → ∃ r, d.resource.Denotes σ.get r) ∧
    ∀ r, LiteralAt c p d r → (∀ lit ∈ c.literalsOf r, ∀ t, lit.type ≠ .langString t) ∧
      ((c.literalsOf r).filter (typed (c.irisOf d.datatype))).length ≤ 1 := by
  have hcl := hreg p.layout _ hp.1
  rw [hydrate_has hp] at h
  cases l with
  | boolean l =>
    cases hd
    obtain ⟨_, h, -⟩ := Out.map_eq_ok_iff.1 h
    have := data_none hds (hp.2 _ rfl) hcl.1 h
    exact ⟨this.1, fun r hr => ⟨(this.2 r hr).1, (this.2 r hr).2.2⟩⟩
  | number l =>
    cases hd
    obtain ⟨_, h, -⟩ := Out.map_eq_ok_iff.1 h
    have := data_none hds (hp.2 _ rfl) hcl.1 h
    exact ⟨this.1, fun r hr => ⟨(this.2 r hr).1, (this.2 r hr).2.2⟩⟩
  | byteString l =>
    cases hd
    obtain ⟨_, h, -⟩ := Out.map_eq_ok_iff.1 h
    have := data_none hds (hp.2 _ rfl) hcl.1 h
    exact ⟨this.1, fun r hr => ⟨(this.2 r hr).1, (this.2 r hr).2.2⟩⟩
  | textString l =>
    cases hd
    obtain ⟨_, h, -⟩ := Out.map_eq_ok_iff.1 h
    have := data_none hds (hp.2 _ rfl) hcl.1 h
    exact ⟨this.1, fun r hr => ⟨(this.2 r hr).1, (this.2 r hr).2.2⟩⟩
  | _ => simp [Layout.literalLayout] at hd

variable (hle : TotalOrder c.le) (hni : c.reg.NoVariantIntro)
include hle hni

/-- If a sum is hydrated, exactly one variant has a value. -/
theorem sum_ok (h : at_ (hydrate c (n + 1)) p = .ok v) {l : SumLayout R} (hp : p.Has c (.sum l)) {σ : Subst R}
    (hm : p.Match c l.intro l.dataset σ) : ∃ (k : Nat) (x : Variant R), l.variants[k]? = some x ∧ OkV c (hydrate c n) p.graph σ x ∧
      ∀ (j : Nat) y, l.variants[j]? = some y → j ≠ k → FailV c (hydrate c n) p.graph σ y := by
  have hcl := hreg p.layout _ hp.1
  have h0 := hni p.layout l hp.1
  rw [hydrate_has hp] at h
  obtain ⟨τ, -, huniq, hlen, h⟩ := first_ok hds hcl.1 (hp.2 _ rfl) h
  obtain rfl := huniq σ hm
  rcases (variants_eq_ok c hds _ _ _ _ _ h0 (fun x hx => by
      have := (hcl.2 x hx).1
      rw [h0 x hx] at this
      rw [hlen]
      exact this) _ _ _).1 h with ⟨_, _, h, -⟩ | ⟨-, k, x, w, hk, ⟨σ', hu, hw⟩, hf, -⟩
  · simp at h
  · refine ⟨k, x, hk, ⟨w, σ', hu, (subValue_eq_ok _ _ _ _ _).2 hw⟩, fun j y hj hne => ?_⟩
    rcases hf j y hj hne with h | ⟨τ, ins, g', hu', h1, h2, e, h3⟩
    · exact .inl h
    · obtain ⟨e', h⟩ := (subValue_eq_err _ _ _ _).2 ⟨ins, g', h1, h2, e, h3⟩
      exact .inr ⟨e', τ, hu', h⟩

theorem cause_prevents (hc : PanicCause c p) : at_ (hydrate c (n + 1)) p ≠ .ok v := by
  intro h
  cases hc with
  | @unboundPart fmt σ hf hno =>
    rcases hf with hf | hf
    · obtain ⟨w, hw⟩ := component_ok hreg hds h hf
      obtain ⟨q, hq, -⟩ := sub_ok hw
      exact hno q hq
    · cases hf with
      | @variant l σ x σ' hp hm hx hu =>
        obtain ⟨k, y, hk, hok, hfail⟩ := sum_ok hreg hds hle hni h hp hm
        obtain ⟨j, hj⟩ := List.mem_iff_getElem?.1 hx
        have : OkV c (hydrate c n) p.graph σ x ∨ FailV c (hydrate c n) p.graph σ x := by
          by_cases e : j = k
          · subst e
            rw [hj] at hk
            injection hk with hk
            subst hk
            exact .inl hok
          · exact .inr (hfail j x hj e)
        rcases this with ⟨w, τ, hu', hw⟩ | h | ⟨e, τ, hu', hw⟩
        · obtain rfl := hu.2 τ hu'.1
          obtain ⟨q, hq, -⟩ := sub_ok hw
          exact hno q hq
        · exact h _ hu.1
        · obtain rfl := hu.2 τ hu'.1
          obtain ⟨q, _, hq, -⟩ := sub_err hw
          exact hno q hq
  | unboundLiteral hp hd hm hno =>
    obtain ⟨r, hr⟩ := (literal_ok hreg hds h hp hd).1 _ hm
    exact hno r hr
  | language hp hd hat hlit e => exact ((literal_ok hreg hds h hp hd).2 _ hat).1 _ hlit _ e
  | literals hp hd hat h2 =>
    have h1 := ((literal_ok hreg hds h hp hd).2 _ hat).2
    exact absurd h2 (Nat.not_le.2 (Nat.lt_succ_of_le h1))
  | boolean hp hat hlit ht hpar =>
    rw [hydrate_has hp] at h
    obtain ⟨_, h, -⟩ := Out.map_eq_ok_iff.1 h
    obtain ⟨a, ha⟩ := ((data_none hds (hp.2 _ rfl) (hreg p.layout _ hp.1).1 h).2 _ hat).2.1 _ hlit _ ht
    unfold booleanValue at ha
    split at ha
    · rename_i e
      simp [hpar e] at ha
    · simp at ha
  | number hp hat hlit ht hdec hpar =>
    rw [hydrate_has hp] at h
    obtain ⟨_, h, -⟩ := Out.map_eq_ok_iff.1 h
    obtain ⟨a, ha⟩ := ((data_none hds (hp.2 _ rfl) (hreg p.layout _ hp.1).1 h).2 _ hat).2.1 _ hlit _ ht
    unfold numberValue at ha
    simp [hdec, hpar] at ha
  | byteString hp hat hlit ht =>
    rw [hydrate_has hp] at h
    obtain ⟨_, h, -⟩ := Out.map_eq_ok_iff.1 h
    obtain ⟨a, ha⟩ := ((data_none hds (hp.2 _ rfl) (hreg p.layout _ hp.1).1 h).2 _ hat).2.1 _ hlit _ ht
    simp [byteStringValue] at ha
  | @unboundId l σ hp hm hno =>
    rw [hydrate_has hp] at h
    obtain ⟨_, h, -⟩ := Out.map_eq_ok_iff.1 h
    obtain ⟨τ, -, huniq, -, h⟩ := first_ok hds (hreg p.layout _ hp.1).1 (hp.2 _ rfl) h
    obtain rfl := huniq σ hm
    obtain ⟨r, hr, -⟩ := Out.bind_eq_ok.1 h
    exact hno r ((resource_eq_ok _ _ _).1 hr)
  | @iris l σ r hp hm hr hne =>
    rw [hydrate_has hp] at h
    obtain ⟨_, h, -⟩ := Out.map_eq_ok_iff.1 h
    obtain ⟨τ, -, huniq, -, h⟩ := first_ok hds (hreg p.layout _ hp.1).1 (hp.2 _ rfl) h
    obtain rfl := huniq σ hm
    rw [(resource_eq_ok _ _ _).2 hr, Out.bind_ok] at h
    split at h
    · rename_i e
      simp [e] at hne
    · simp at h
  | @unboundHead l σ hp hm hno =>
    rw [hydrate_has hp] at h
    obtain ⟨τ, -, huniq, hlen, h⟩ := first_ok hds (hreg p.layout _ hp.1).1 (hp.2 _ rfl) h
    obtain rfl := huniq σ hm
    obtain ⟨r, hr, -⟩ := Out.bind_eq_ok.1 h
    exact hno r ((resource_eq_ok _ _ _).1 hr)
  | @unboundTail l σ hp hm hno =>
    rw [hydrate_has hp] at h
    obtain ⟨τ, -, huniq, hlen, h⟩ := first_ok hds (hreg p.layout _ hp.1).1 (hp.2 _ rfl) h
    obtain rfl := huniq σ hm
    obtain ⟨_, -, h⟩ := Out.bind_eq_ok.1 h
    obtain ⟨r, hr, -⟩ := Out.bind_eq_ok.1 h
    exact hno r ((resource_eq_ok _ _ _).1 hr)
  | @unboundRest l σ head tail σ' hp hm hh ht hn hno =>
    have hcl := hreg p.layout _ hp.1
    rw [hydrate_has hp] at h
    obtain ⟨τ, -, huniq, hlen, h⟩ := first_ok hds hcl.1 (hp.2 _ rfl) h
    obtain rfl := huniq σ hm
    rw [(resource_eq_ok _ _ _).2 hh, (resource_eq_ok _ _ _).2 ht, Out.bind_ok, Out.bind_ok] at h
    obtain ⟨_, h, -⟩ := Out.bind_eq_ok.1 h
    obtain ⟨-, next, hnext⟩ := chain_all ((nodes_eq_ok c hds _ _ _ _ _ _ (by rw [hlen]; exact hcl.2.2.2.1) _ _ _).1 h).1 hn
    rw [hno] at hnext
    cases hnext
  | noVariant hp hm hno =>
    obtain ⟨k, x, hk, hok, -⟩ := sum_ok hreg hds hle hni h hp hm
    exact variant_exclusive (variantMeans_of_ok hreg hds hle hok) (hno x (List.mem_iff_getElem?.2 ⟨k, hk⟩))
  | @variants l σ i j x y hp hm hi hj hne h1 h2 =>
    obtain ⟨k, z, hk, -, hfail⟩ := sum_ok hreg hds hle hni h hp hm
    by_cases e : i = k
    · exact variant_exclusive h2 (variantMeaningless_of_fail hreg hds hle (hfail j y hj (by omega)))
    · exact variant_exclusive h1 (variantMeaningless_of_fail hreg hds hle (hfail i x hi e))

theorem cause_component (n : Nat) (q : Place R) (hpq : Relation.ReflTransGen (Place.Component c) p q) (hc : PanicCause c q) :
    at_ (hydrate c n) p ≠ .ok v := by
  induction hpq using Relation.ReflTransGen.head_induction_on generalizing n v with
  | refl =>
    cases n with
    | zero => simp [at_, hydrate]
    | succ n => exact cause_prevents hreg hds hle hni hc
  | head hcomp _ ih =>
    intro h
    cases n with
    | zero => simp [at_, hydrate] at h
    | succ n =>
      obtain ⟨fmt, σ, hf, hsub⟩ := hcomp
      obtain ⟨w, hw⟩ := component_ok hreg hds h hf
      obtain ⟨q', hq', hw⟩ := sub_ok hw
      obtain rfl := sub_unique hq' hsub
      exact ih n hw

end Prevent

/-! ## Values: the causes are exactly what makes hydration panic -/

/-- Without errors in the literals, a scan succeeds or panics. -/
theorem scan_ok_or_panic {α} {parse : String → String → Out (HyError R) α} (hparse : ∀ v i, (∃ a, parse v i = .ok a) ∨ parse v i = .panic)
    {types : List String} (ls : List RdfLit) (value : Option α) :
    (∃ o, scanLiterals parse types ls value = .ok o) ∨ scanLiterals parse types ls value = .panic := by
  induction ls generalizing value with
  | nil => exact .inl ⟨_, rfl⟩
  | cons l ls ih =>
    unfold scanLiterals
    split
    · exact .inr rfl
    · rename_i i _
      split
      · rcases hparse l.value i with ⟨a, e⟩ | e
        · rw [e, Out.bind_ok]
          cases value with
          | none => exact ih _
          | some _ => exact .inr rfl
        · rw [e]
          exact .inr rfl
      · exact ih _

/-- The literals of a resource have a cause of panic. -/
def LiteralCause {α} (c : HyCtx R) (d : DataLayout R) (parse : String → String → Out (HyError R) α) (r : R) : Prop :=
  (∃ lit ∈ c.literalsOf r, ∃ t, lit.type = .langString t) ∨
  (∃ lit ∈ c.literalsOf r, ∃ i, OfType c d lit i ∧ parse lit.value i = .panic) ∨
  2 ≤ ((c.literalsOf r).filter (typed (c.irisOf d.datatype))).length

theorem data_cause (hds : c.ds.Nodup) {p : Place R} {d : DataLayout R} (hi : p.inputs.length = 1)
    (hc : PatsBelow (1 + d.intro) d.dataset) {α} {parse : String → String → Out (HyError R) α} {mk : α → TypedLiteral R}
    (hparse : ∀ v i, (∃ a, parse v i = .ok a) ∨ parse v i = .panic) {σ : Subst R} (hm : p.Match c d.intro d.dataset σ)
    (hr : ∀ r, d.resource.Denotes σ.get r → LiteralCause c d parse r) :
    hydrateData c p.graph p.layout d p.inputs parse mk = .panic := by
  unfold hydrateData
  rw [(match_place hds hc hi).2 hm, Out.bind_ok]
  cases hres : resource d.resource σ with
  | panic => rfl
  | fuel => unfold resource at hres; cases h : d.resource.value σ <;> simp [h, Out.ofOption] at hres
  | err _ => unfold resource at hres; cases h : d.resource.value σ <;> simp [h, Out.ofOption] at hres
  | ok r =>
    rw [Out.bind_ok]
    rcases scan_ok_or_panic (types := c.irisOf d.datatype) hparse (c.literalsOf r) none with ⟨o, ho⟩ | h
    · exfalso
      obtain ⟨h1, h2, h3, -⟩ := scan_ok ho
      rcases hr r ((resource_eq_ok _ _ _).1 hres) with ⟨lit, hlit, t, e⟩ | ⟨lit, hlit, i, ht, e⟩ | h
      · exact h1 lit hlit t e
      · obtain ⟨a, ha⟩ := h2 lit hlit i ht.2 ht.1
        rw [ha] at e
        simp at e
      · omega
    · rw [h]
      rfl

theorem booleanValue_ok_or_panic (v i : String) : (∃ a, booleanValue c v i = .ok a) ∨ booleanValue c v i = .panic := by
  unfold booleanValue
  split
  · cases c.xsd.parseBoolean v with
    | none => exact .inr rfl
    | some a => exact .inl ⟨a, rfl⟩
  · exact .inr rfl

/-- A cause of panic at a literal layout comes from its literals, or from its resource. -/
theorem literal_cause {p : Place R} {l : Layout R} {d : DataLayout R} (hp : p.Has c l) (hd : l.literalLayout = some d) {α}
    {parse : String → String → Out (HyError R) α}
    (hb : ∀ b, l = .boolean b → ∀ v i, (i = c.xsd.boolean → c.xsd.parseBoolean v = none) → parse v i = .panic)
    (hn : ∀ b, l ≠ .number b) (hs : ∀ b, l = .byteString b → ∀ v i, parse v i = .panic) (hc : PanicCause c p) :
    ∃ σ, p.Match c d.intro d.dataset σ ∧ ∀ r, d.resource.Denotes σ.get r → LiteralCause c d parse r := by
  have same : ∀ {l' d'}, p.Has c l' → l'.literalLayout = some d' → d' = d := fun h e => by
    rw [has_unique h hp, hd] at e
    exact (Option.some.inj e).symm
  have denotes : ∀ {σ : Subst R} {r r' : R}, d.resource.Denotes σ.get r → d.resource.Denotes σ.get r' → r = r' := fun h h' => by
    have h1 := (resource_eq_ok d.resource _ _).2 h
    have h2 := (resource_eq_ok d.resource _ _).2 h'
    rw [h1] at h2
    injection h2
  have other : ∀ {l'}, p.Has c l' → l'.literalLayout = none → False := fun h e => by
    rw [has_unique h hp, hd] at e
    simp at e
  cases hc with
  | unboundPart hf =>
    rcases hf with hf | hf <;> cases hf <;> exact (other (by assumption) rfl).elim
  | unboundLiteral h e hm hno =>
    obtain rfl := same h e
    exact ⟨_, hm, fun r hr => (hno r hr).elim⟩
  | language h e hat hlit ht =>
    obtain rfl := same h e
    obtain ⟨σ, hm, hr⟩ := hat
    exact ⟨σ, hm, fun r' hr' => denotes hr hr' ▸ .inl ⟨_, hlit, _, ht⟩⟩
  | literals h e hat h2 =>
    obtain rfl := same h e
    obtain ⟨σ, hm, hr⟩ := hat
    exact ⟨σ, hm, fun r' hr' => denotes hr hr' ▸ .inr (.inr h2)⟩
  | boolean h hat hlit ht hpar =>
    obtain rfl := same h rfl
    obtain ⟨σ, hm, hr⟩ := hat
    exact ⟨σ, hm, fun r' hr' => denotes hr hr' ▸ .inr (.inl ⟨_, hlit, _, ht, hb _ (has_unique hp h) _ _ hpar⟩)⟩
  | number h => exact (hn _ (has_unique hp h)).elim
  | byteString h hat hlit ht =>
    obtain rfl := same h rfl
    obtain ⟨σ, hm, hr⟩ := hat
    exact ⟨σ, hm, fun r' hr' => denotes hr hr' ▸ .inr (.inl ⟨_, hlit, _, ht, hs _ (has_unique hp h) _ _⟩)⟩
  | unboundId h => exact (other h rfl).elim
  | iris h => exact (other h rfl).elim
  | unboundHead h => exact (other h rfl).elim
  | unboundTail h => exact (other h rfl).elim
  | unboundRest h => exact (other h rfl).elim
  | noVariant h => exact (other h rfl).elim
  | variants h => exact (other h rfl).elim

/-- At a layout of Booleans, byte strings, texts or identifiers, a cause of panic makes hydration panic. -/
theorem value_cause (hreg : c.reg.Closed) (hds : c.ds.Nodup) {p : Place R} {l : Layout R} (hp : p.Has c l)
    (hl : (∃ b, l = .boolean b) ∨ (∃ b, l = .byteString b) ∨ (∃ b, l = .textString b) ∨ ∃ b, l = .id b) (hc : PanicCause c p)
    (n : Nat) : at_ (hydrate c (n + 1)) p = .panic := by
  have hcl := hreg p.layout _ hp.1
  rw [hydrate_has hp]
  rcases hl with ⟨b, rfl⟩ | ⟨b, rfl⟩ | ⟨b, rfl⟩ | ⟨b, rfl⟩
  · obtain ⟨σ, hm, hr⟩ := literal_cause (parse := booleanValue c) hp rfl (fun _ _ v i h => by
      unfold booleanValue
      split
      · rw [h ‹_›]; rfl
      · rfl) (by simp) (by simp) hc
    show Out.map _ (hydrateData c p.graph p.layout b p.inputs (booleanValue c) (.boolean · p.layout)) = _
    rw [data_cause (parse := booleanValue c) hds (hp.2 _ rfl) hcl.1 booleanValue_ok_or_panic hm hr]
    rfl
  · obtain ⟨σ, hm, hr⟩ := literal_cause (parse := byteStringValue) hp rfl (by simp) (by simp) (fun _ _ _ _ => rfl) hc
    show Out.map _ (hydrateData c p.graph p.layout b p.inputs (byteStringValue) (.byteString · p.layout)) = _
    rw [data_cause (parse := byteStringValue) hds (hp.2 _ rfl) hcl.1 (fun _ _ => .inr rfl) hm hr]
    rfl
  · obtain ⟨σ, hm, hr⟩ := literal_cause (parse := textStringValue) hp rfl (by simp) (by simp) (by simp) hc
    show Out.map _ (hydrateData c p.graph p.layout b.toDataLayout p.inputs (textStringValue) (.textString · p.layout)) = _
    rw [data_cause (parse := textStringValue) hds (hp.2 _ rfl) hcl.1 (fun v _ => .inl ⟨v, rfl⟩) hm hr]
    rfl
  · have key : ∃ σ, p.Match c b.intro b.dataset σ ∧ ∀ r, b.resource.Denotes σ.get r → (c.irisOf r).length ≠ 1 := by
      have other : ∀ {l'}, p.Has c l' → (∀ b, l' ≠ .id b) → False := fun h e => e _ (has_unique h hp)
      have lit : ∀ {l' d'}, p.Has c l' → l'.literalLayout = some d' → False := fun h e => by
        rw [has_unique h hp] at e
        simp [Layout.literalLayout] at e
      cases hc with
      | unboundPart hf => rcases hf with hf | hf <;> cases hf <;> exact (other (by assumption) (by simp)).elim
      | unboundId h hm hno =>
        cases has_unique h hp
        exact ⟨_, hm, fun r hr => (hno r hr).elim⟩
      | iris h hm hr hi =>
        cases has_unique h hp
        refine ⟨_, hm, fun r' hr' => ?_⟩
        have h1 := (resource_eq_ok b.resource _ _).2 hr
        rw [(resource_eq_ok b.resource _ _).2 hr'] at h1
        injection h1 with h1
        exact h1 ▸ hi
      | unboundLiteral h e => exact (lit h e).elim
      | language h e => exact (lit h e).elim
      | literals h e => exact (lit h e).elim
      | boolean h => exact (other h (by simp)).elim
      | number h => exact (other h (by simp)).elim
      | byteString h => exact (other h (by simp)).elim
      | unboundHead h => exact (other h (by simp)).elim
      | unboundTail h => exact (other h (by simp)).elim
      | unboundRest h => exact (other h (by simp)).elim
      | noVariant h => exact (other h (by simp)).elim
      | variants h => exact (other h (by simp)).elim
    obtain ⟨σ, hm, hr⟩ := key
    have : hydrateId c p.graph p.layout b p.inputs = .panic := by
      unfold hydrateId
      rw [(match_place hds hcl.1 (hp.2 _ rfl)).2 hm, Out.bind_ok]
      cases hres : resource b.resource σ with
      | panic => rfl
      | fuel => unfold resource at hres; cases h : b.resource.value σ <;> simp [h, Out.ofOption] at hres
      | err _ => unfold resource at hres; cases h : b.resource.value σ <;> simp [h, Out.ofOption] at hres
      | ok r =>
        rw [Out.bind_ok]
        split
        · rename_i e
          exact absurd (by rw [e]; rfl) (hr r ((resource_eq_ok _ _ _).1 hres))
        · rfl
    show Out.map _ (hydrateId c p.graph p.layout b p.inputs) = _
    rw [this]
    rfl

end Verif.Hydrate
