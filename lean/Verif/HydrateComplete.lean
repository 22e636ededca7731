import Verif.HydrateOk

/-! # Hydration returns the meaning, when there is one

`decides_hydrate` says nothing about panics and about the bound on the recursion. Here, resources have at most one literal
each, and the variants of a sum are told apart by their patterns: then the value of meaning `v` is hydrated as `v`. -/

set_option linter.unusedSectionVars false
set_option linter.unusedSimpArgs false

namespace Verif

variable {R : Type _} [DecidableEq R]

/-- `hydrate` returns `v`, given enough fuel. -/
def Hydrate.Returns {α : Type _} (x : Nat → Out (HyError R) α) (v : α) : Prop := ∃ N, ∀ n, N ≤ n → x n = .ok v

namespace Hydrate

variable (c : HyCtx R)

theorem returns_sub {M : Option R → R → List R → TypedValue R → Prop}
    (hM : ∀ g r i v, M g r i v → Returns (fun n => hydrate c n g r i) v) {g : Option R} {fmt : ValueFormat R}
    {σ : Subst R} {v : TypedValue R} (h : SubMeaning M g fmt σ v) :
    Returns (fun n => subValue (hydrate c n) g fmt σ) v := by
  obtain ⟨ins, g', h1, h2, h3⟩ := h
  obtain ⟨N, hN⟩ := hM _ _ _ _ h3
  exact ⟨N, fun n hn => (subValue_eq_ok _ _ _ _ _).2 ⟨ins, g', h1, h2, hN n hn⟩⟩

theorem returns_fields (hds : c.ds.Nodup) {M : Option R → R → List R → TypedValue R → Prop}
    (hM : ∀ g r i v, M g r i v → Returns (fun n => hydrate c n g r i) v) {g : Option R} (ref : R)
    {σ : Subst R} {fs : List (Value × Field R)} (hf : ∀ e ∈ fs, PatsBelow (σ.length + e.2.intro) e.2.dataset)
    {m : List (Value × TypedValue R)} (h : FieldsMeaning c.ds M g σ fs m) :
    Returns (fun n => fields c (hydrate c n) g ref σ fs) m := by
  induction h with
  | nil => exact ⟨0, fun _ _ => rfl⟩
  | @present key field fs σ' v m h1 h2 _ ih =>
    obtain ⟨N, hN⟩ := ih fun e he => hf e (List.mem_cons_of_mem _ he)
    obtain ⟨K, hK⟩ := returns_sub c hM h2
    have hd : Declared (σ.intro field.intro) (withDefaultGraph field.dataset g) :=
      declared_of_below (hf (key, field) (by simp)) (by simp [length_intro])
    refine ⟨max N K, fun n hn => ?_⟩
    simp only [fields, (uniqueMatch_eq_some c hds _ _ _ g hd σ').2 h1, Out.bind_ok]
    have hK := hK n (by omega)
    have hN := hN n (by omega)
    dsimp only at hK hN
    rw [hK, Out.bind_ok, hN, Out.bind_ok]
  | @absent key field fs m h1 h2 _ ih =>
    obtain ⟨N, hN⟩ := ih fun e he => hf e (List.mem_cons_of_mem _ he)
    have hd : Declared (σ.intro field.intro) (withDefaultGraph field.dataset g) :=
      declared_of_below (hf (key, field) (by simp)) (by simp [length_intro])
    refine ⟨N, fun n hn => ?_⟩
    simp only [fields, (uniqueMatch_eq_none c hds _ _ _ g hd).2 h1, Out.bind_ok, h2]
    exact hN n hn

theorem returns_sized (hds : c.ds.Nodup) {M : Option R → R → List R → TypedValue R → Prop}
    (hM : ∀ g r i v, M g r i v → Returns (fun n => hydrate c n g r i) v) {g : Option R} (ref : R)
    {σ : Subst R} {is : List (ItemLayout R)} (hf : ∀ i ∈ is, PatsBelow (σ.length + i.intro) i.dataset) (k : Nat)
    {vs : List (TypedValue R)} (h : List.Forall₂ (fun (item : ItemLayout R) v => ∃ σ',
        UniqueMatch c.ds (σ ++ List.replicate item.intro none) (inGraph g item.dataset) σ' ∧
        SubMeaning M g item.value σ' v) is vs) :
    Returns (fun n => sizedItems c (hydrate c n) g ref σ k is) vs := by
  induction h generalizing k with
  | nil => exact ⟨0, fun _ _ => rfl⟩
  | @cons item v is vs h1 _ ih =>
    obtain ⟨N, hN⟩ := ih (fun e he => hf e (List.mem_cons_of_mem _ he)) (k + 1)
    obtain ⟨σ', h1, h2⟩ := h1
    obtain ⟨K, hK⟩ := returns_sub c hM h2
    have hd : Declared (σ.intro item.intro) (withDefaultGraph item.dataset g) :=
      declared_of_below (hf _ (by simp)) (by simp [length_intro])
    refine ⟨max N K, fun n hn => ?_⟩
    simp only [sizedItems, (requiredMatch_eq_ok c hds _ _ _ g hd σ').2 h1, Out.bind_ok]
    have hK := hK n (by omega)
    have hN := hN n (by omega)
    dsimp only at hK hN
    rw [hK, Out.bind_ok, hN, Out.bind_ok]

theorem returns_chain {M : Option R → R → List R → TypedValue R → Prop}
    (hM : ∀ g r i v, M g r i v → Returns (fun n => hydrate c n g r i) v) {g : Option R} {node : ItemLayout R}
    {σ : Subst R} {tail head : R} {vs : List (TypedValue R)} (h : ChainMeaning c.ds M g node σ tail head vs) :
    ∃ N, ∀ n, N ≤ n → ChainMeaning c.ds (fun g r i v => hydrate c n g r i = .ok v) g node σ tail head vs := by
  induction h with
  | nil => exact ⟨0, fun _ _ => .nil⟩
  | cons h1 h2 h3 h4 _ ih =>
    obtain ⟨N, hN⟩ := ih
    obtain ⟨K, hK⟩ := returns_sub c hM h3
    exact ⟨max N K, fun n hn => .cons h1 h2 ((subValue_eq_ok _ _ _ _ _).1 (hK n (by omega))) h4 (hN n (by omega))⟩

theorem returns_mapM {M : Option R → R → List R → TypedValue R → Prop}
    (hM : ∀ g r i v, M g r i v → Returns (fun n => hydrate c n g r i) v) {g : Option R} {fmt : ValueFormat R}
    {l : List (Subst R)} {vs : List (TypedValue R)} (h : List.Forall₂ (fun τ v => SubMeaning M g fmt τ v) l vs) :
    Returns (fun n => Out.mapM' (subValue (hydrate c n) g fmt) l) vs := by
  induction h with
  | nil => exact ⟨0, fun _ _ => rfl⟩
  | cons h1 _ ih =>
    obtain ⟨N, hN⟩ := ih
    obtain ⟨K, hK⟩ := returns_sub c hM h1
    refine ⟨max N K, fun n hn => ?_⟩
    have hK := hK n (by omega)
    have hN := hN n (by omega)
    dsimp only at hK hN
    simp only [Out.mapM', hK, hN, Out.bind_ok]

theorem data_ok {α : Type _} (hds : c.ds.Nodup) (hsingle : ∀ r, (c.literalsOf r).length ≤ 1)
    {parse : String → String → Out (HyError R) α} {mk : α → TypedLiteral R} {g : Option R} {ref : R} {l : DataLayout R}
    {inputs : List R} (hi : inputs.length = 1) (hc : PatsBelow (1 + l.intro) l.dataset) {a : α}
    (h : DataMeaning c parse g l inputs a) :
    (hydrateData c g ref l inputs parse mk).map TypedValue.literal = .ok (.literal (mk a)) := by
  obtain ⟨σ, r, lit, i, h1, h2, h3, h4, h5⟩ := h
  have hd : Declared ((Subst.fromInputs inputs).intro l.intro) (withDefaultGraph l.dataset g) :=
    declared_of_below hc (by simp [length_intro, Subst.fromInputs, hi])
  have hlit : c.literalsOf r = [lit] := by
    have hlen := hsingle r
    have hmem : lit ∈ c.literalsOf r := (List.mem_filter.1 (h3 ▸ List.mem_singleton.2 rfl : lit ∈ List.filter _ _)).1
    match hl : c.literalsOf r with
    | [] => rw [hl] at hmem; exact nomatch hmem
    | [x] => rw [hl] at hmem; rw [List.mem_singleton.1 hmem]
    | _ :: _ :: _ => rw [hl] at hlen; simp at hlen
  have hany : ((c.irisOf l.datatype).any fun j => i == j) = true := by
    have := (List.mem_filter.1 (h3 ▸ List.mem_singleton.2 rfl : lit ∈ List.filter _ _)).2
    rw [h4] at this
    simpa using this
  unfold hydrateData
  rw [(requiredMatch_eq_ok c hds _ _ _ g hd σ).2 h1, Out.bind_ok, (resource_eq_ok _ _ _).2 h2, Out.bind_ok, hlit]
  simp only [scanLiterals, h4, hany, if_true, h5, Out.bind_ok, Out.map]

theorem returns_layout (hreg : c.reg.Closed) (hno : c.reg.NoVariantIntro) (hds : c.ds.Nodup) (hle : TotalOrder c.le)
    (hsingle : ∀ r, (c.literalsOf r).length ≤ 1) (hsums : c.ToldApart)
    {M : Option R → R → List R → TypedValue R → Prop}
    (hM : ∀ g r i v, M g r i v → Returns (fun n => hydrate c n g r i) v) {g : Option R} {ref : R} {inputs : List R}
    {l : Layout R} (hr : c.reg ref = some l) (hi : ∀ k, l.inputCount = some k → inputs.length = k) {v : TypedValue R}
    (h : LayoutMeaning c M g ref inputs v l) :
    Returns (fun n => layout c (hydrate c n) n g ref inputs l) v := by
  have hl : l.Closed := hreg _ _ hr
  have hreq : ∀ k m (pats : List (QuadPat R)) frag σ, PatsBelow (k + m) pats → inputs.length = k →
      UniqueMatch c.ds (inputs.map some ++ List.replicate m none) (inGraph g pats) σ →
      requiredMatch c frag ((Subst.fromInputs inputs).intro m) pats g = .ok σ := by
    intro k m pats frag σ hb hk hu
    exact (requiredMatch_eq_ok c hds _ _ _ g
      (declared_of_below hb (by simp [length_intro, Subst.fromInputs, hk])) σ).2 hu
  have hlen : ∀ k m (pats : List (QuadPat R)) σ, inputs.length = k →
      UniqueMatch c.ds (inputs.map some ++ List.replicate m none) (inGraph g pats) σ → σ.length = k + m := by
    intro k m pats σ hk h
    rw [h.1.length_eq]
    simp [hk]
  cases l with
  | never => exact h.elim
  | always => exact ⟨0, fun _ _ => by rw [h]; rfl⟩
  | unit l =>
    obtain ⟨⟨σ, h1⟩, rfl⟩ := h
    exact ⟨0, fun _ _ => by simp only [layout, hreq _ _ _ _ _ hl (hi 1 rfl) h1, Out.bind_ok]⟩
  | boolean l =>
    obtain ⟨a, h, rfl⟩ := h
    exact ⟨0, fun _ _ => data_ok c hds hsingle (mk := (.boolean · ref)) (hi 1 rfl) hl.1 h⟩
  | number l =>
    obtain ⟨a, h, rfl⟩ := h
    exact ⟨0, fun _ _ => data_ok c hds hsingle (mk := (.number · ref)) (hi 1 rfl) hl.1 h⟩
  | byteString l =>
    obtain ⟨a, h, rfl⟩ := h
    exact ⟨0, fun _ _ => data_ok c hds hsingle (mk := (.byteString · ref)) (hi 1 rfl) hl.1 h⟩
  | textString l =>
    obtain ⟨a, h, rfl⟩ := h
    exact ⟨0, fun _ _ => data_ok c hds hsingle (mk := (.textString · ref)) (hi 1 rfl) hl.1 h⟩
  | id l =>
    obtain ⟨σ, r, iri, h1, h2, h3, rfl⟩ := h
    refine ⟨0, fun _ _ => ?_⟩
    simp only [layout, hydrateId, hreq _ _ _ _ _ hl.1 (hi 1 rfl) h1, Out.bind_ok, (resource_eq_ok _ _ _).2 h2, h3, Out.map]
  | product l =>
    obtain ⟨σ, m, h1, h2, rfl⟩ := h
    obtain ⟨N, hN⟩ := returns_fields c hds hM ref (fun e he => by
      rw [hlen _ _ _ _ (hi _ rfl) h1]; exact (hl.2 e he).1) h2
    refine ⟨N, fun n hn => ?_⟩
    have hN := hN n hn
    dsimp only at hN
    simp only [layout, hreq _ _ _ _ _ hl.1 (hi _ rfl) h1, Out.bind_ok, hN]
  | sized l =>
    obtain ⟨σ, m, h1, h2, rfl⟩ := h
    obtain ⟨N, hN⟩ := returns_sized c hds hM ref (fun e he => by
      rw [hlen _ _ _ _ (hi _ rfl) h1]; exact (hl.2 e he).1) 0 h2
    refine ⟨N, fun n hn => ?_⟩
    have hN := hN n hn
    dsimp only at hN
    simp only [layout, hreq _ _ _ _ _ hl.1 (hi _ rfl) h1, Out.bind_ok, hN]
  | ordered l =>
    obtain ⟨σ, head, tail, items, h1, h2, h3, h4, rfl⟩ := h
    obtain ⟨N, hN⟩ := returns_chain c hM h4
    refine ⟨max N items.length, fun n hn => ?_⟩
    simp only [layout, hreq _ _ _ _ _ hl.1 (hi _ rfl) h1, Out.bind_ok, (resource_eq_ok _ _ _).2 h2,
      (resource_eq_ok _ _ _).2 h3]
    rw [(nodes_eq_ok c hds (hydrate c n) g ref l.node σ tail (by
      rw [hlen _ _ _ _ (hi _ rfl) h1]; exact hl.2.2.2.1) n head items).2 ⟨hN n (by omega), by omega⟩, Out.bind_ok]
  | unordered l =>
    obtain ⟨σ, matchings, values, items, h1, h2, h3, h4, h5, h6, rfl⟩ := h
    have hd : Declared (σ.intro l.item.intro) (withDefaultGraph l.item.dataset g) :=
      declared_ext (σ := σ) hl.2.1 (by rw [hlen _ _ _ _ (hi _ rfl) h1])
    have hmem := Matching.mem_enum c.ds _ _ hd
    have hnd := Matching.nodup_enum c.ds hds _ _ hd
    change ∀ τ, τ ∈ _ ↔ IsMatch c.ds (σ ++ List.replicate l.item.intro none) (withDefaultGraph l.item.dataset g) τ at hmem
    obtain ⟨z, hz, hzp⟩ : ∃ z, List.Forall₂ (fun τ v => SubMeaning M g l.item.value τ v)
        (Matching.enum c.ds (withDefaultGraph l.item.dataset g) (σ.intro l.item.intro)) z ∧ z.Perm values := by
      refine List.perm_comp_forall₂ ?_ h4
      rw [List.perm_ext_iff_of_nodup hnd h2]
      intro τ
      rw [hmem, h3, inGraph_eq]
    obtain ⟨N, hN⟩ := returns_mapM c hM hz
    refine ⟨N, fun n hn => ?_⟩
    have hN := hN n hn
    dsimp only at hN
    simp only [layout, hreq _ _ _ _ _ hl.1 (hi _ rfl) h1, Out.bind_ok]
    rw [unorderedItems_eq c _ g l.item.value _ _ (by omega) (Matching.inv_new hd), Matching.stackEnum_new, hN, Out.bind_ok]
    have hp : items.Perm (sortBy c.le z) := h5.trans (hzp.symm.trans (sortBy_perm c.le z).symm)
    rw [hp.eq_of_pairwise (fun a b _ _ h h' => hle.antisymm a b h h') h6 (pairwise_sortBy hle.total hle.trans z)]
  | sum l =>
    obtain ⟨σ, i, variant, w, h1, h2, h3, ⟨σ', h4, h5⟩, h6, rfl⟩ := h
    obtain ⟨N, hN⟩ := returns_sub c hM h5
    have h0 := hno ref l hr
    refine ⟨N, fun n hn => ?_⟩
    simp only [layout, hreq _ _ _ _ _ hl.1 (hi _ rfl) h1, Out.bind_ok]
    rw [variants_eq_ok c hds (hydrate c n) g ref σ l.variants h0 (fun x hx => by
      rw [hlen _ _ _ _ (hi _ rfl) h1]
      have := (hl.2 x hx).1
      rwa [h0 x hx] at this) 0 none]
    refine .inr ⟨rfl, i, variant, w, h3, ⟨σ', h4, (subValue_eq_ok _ _ _ _ _).1 (hN n hn)⟩, fun j x hj hne => ?_, by simp⟩
    refine .inl fun τ hτ => hne ?_
    exact hsums ref l hr g σ ⟨_, hi _ rfl, h1.1⟩ j i x variant τ σ' hj h3 hτ h4.1

/-- What has a meaning is hydrated. -/
theorem returns_hydrate (hreg : c.reg.Closed) (hno : c.reg.NoVariantIntro) (hds : c.ds.Nodup) (hle : TotalOrder c.le)
    (hsingle : ∀ r, (c.literalsOf r).length ≤ 1) (hsums : c.ToldApart) (m : Nat) (g : Option R) (ref : R)
    (inputs : List R) (v : TypedValue R) (h : Meaning c m g ref inputs v) :
    Returns (fun n => hydrate c n g ref inputs) v := by
  induction m generalizing g ref inputs v with
  | zero => exact h.elim
  | succ m ih =>
    obtain ⟨l, hr, hi, h⟩ := h
    obtain ⟨N, hN⟩ := returns_layout c hreg hno hds hle hsingle hsums (fun g r i v => ih g r i v) hr hi h
    refine ⟨N + 1, fun n hn => ?_⟩
    obtain ⟨n, rfl⟩ : ∃ n', n = n' + 1 := ⟨n - 1, by omega⟩
    unfold hydrate
    simp only [hr]
    rw [if_neg]
    · exact hN n (by omega)
    · cases hk : l.inputCount with
      | none => simp
      | some k => simp [hi k hk]

end Hydrate

end Verif
