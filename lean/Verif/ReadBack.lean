import Verif.Said
import Verif.HydrateComplete

/-! # What the dataset says is read, if it is not ambiguous and says nothing else -/

set_option linter.unusedSectionVars false
set_option linter.unusedSimpArgs false

namespace Verif.Keeping

open Verif.RoundTrip

section Visits

variable {R : Type} [DecidableEq R] {c : HyCtx R}

theorem visits_trans {g g' g'' : Option R} {ref ref' ref'' : R} {ins ins' ins'' : List R} (h : Visits c g ref ins g' ref' ins')
    (h' : Visits c g' ref' ins' g'' ref'' ins'') : Visits c g ref ins g'' ref'' ins'' := by
  induction h' with
  | here => exact h
  | part _ h1 h2 h3 h4 h5 h6 ih => exact .part ih h1 h2 h3 h4 h5 h6

theorem unambiguous_part {g g' : Option R} {ref : R} {ins ins' : List R} (h : Unambiguous c g ref ins) {l : Layout R}
    (hl : c.reg ref = some l) {σ σ₀ τ : Subst R} {pats : List (QuadPat R)} {fmt : ValueFormat R}
    (h1 : l.OwnMatch c.ds g ins σ) (h2 : l.Part σ σ₀ pats fmt) (h3 : IsMatch c.ds σ₀ (inGraph g pats) τ)
    (h4 : List.Forall₂ (fun p r => p.Denotes τ.get r) fmt.input ins') (h5 : GraphDenotes g fmt.graph τ g') :
    Unambiguous c g' fmt.layout ins' :=
  fun _ _ _ hv => h _ _ _ (visits_trans (.part .here hl h1 h2 h3 h4 h5) hv)

theorem finds_trans {g g' g'' : Option R} {ref ref' ref'' : R} {ins ins' ins'' : List R} {v v' v'' : Value}
    (h : Finds c g ref ins v g' ref' ins' v') (h' : Finds c g' ref' ins' v' g'' ref'' ins'' v'') :
    Finds c g ref ins v g'' ref'' ins'' v'' := by
  induction h' with
  | here => exact h
  | part _ h1 h2 h3 h4 h5 h6 ih => exact .part ih h1 h2 h3 h4 h5 h6

theorem absent_part {g g' : Option R} {ref : R} {ins ins' : List R} {v v' : Value} (h : Absent c g ref ins v) {l : Layout R}
    (hl : c.reg ref = some l) {σ σ₀ τ : Subst R} {pats : List (QuadPat R)} {fmt : ValueFormat R}
    (h1 : l.OwnMatch c.ds g ins σ) (h2 : l.PartOf v σ σ₀ pats fmt v') (h3 : IsMatch c.ds σ₀ (inGraph g pats) τ)
    (h4 : List.Forall₂ (fun p r => p.Denotes τ.get r) fmt.input ins') (h5 : GraphDenotes g fmt.graph τ g') :
    Absent c g' fmt.layout ins' v' :=
  fun _ _ _ _ hv => h _ _ _ _ (finds_trans (.part .here hl h1 h2 h3 h4 h5) hv)

/-- A part of a value is found as a part of the layout. -/
theorem part_of {l : Layout R} {v v' : Value} {σ σ₀ : Subst R} {pats : List (QuadPat R)} {fmt : ValueFormat R}
    (h : l.PartOf v σ σ₀ pats fmt v') : l.Part σ σ₀ pats fmt := by
  cases h with
  | field h1 _ => exact .field h1
  | element _ => exact .element
  | node head _ => exact .node head
  | item h => exact .item (List.of_mem_zip h).1
  | variant h => exact .variant h

end Visits

section Meant

variable {R : Type} [DecidableEq R] {c : HyCtx R} {ds : List (Quad R)} {M : Option R → R → List R → TypedValue R → Prop}

theorem pattern_unique {p : Pattern R} {σ : Subst R} {r r' : R} (h1 : p.Denotes σ.get r) (h2 : p.Denotes σ.get r') : r = r' := by
  cases p with
  | res t => exact Eq.trans (show r = t from h1) (show r' = t from h2).symm
  | var x =>
    have e1 : σ.get x = some r := h1
    have e2 : σ.get x = some r' := h2
    rw [e1] at e2
    exact Option.some.inj e2

theorem inputs_unique {ps : List (Pattern R)} {σ : Subst R} {rs rs' : List R}
    (h1 : List.Forall₂ (fun p r => p.Denotes σ.get r) ps rs) (h2 : List.Forall₂ (fun p r => p.Denotes σ.get r) ps rs') :
    rs = rs' := by
  induction h1 generalizing rs' with
  | nil => cases h2; rfl
  | cons h _ ih => cases h2 with
    | cons h' h2 => rw [pattern_unique h h', ih h2]

theorem graph_unique {g g1 g2 : Option R} {pat : Option (Option (Pattern R))} {σ : Subst R} (h1 : GraphDenotes g pat σ g1)
    (h2 : GraphDenotes g pat σ g2) : g1 = g2 := by
  unfold GraphDenotes at h1 h2
  split at h1
  · rw [h1, h2]
  · rw [h1, h2]
  · obtain ⟨r, h1, rfl⟩ := h1
    obtain ⟨r', h2, rfl⟩ := h2
    rw [pattern_unique h1 h2]

/-- A tree has one meaning. -/
def Single (M : Option R → R → List R → TypedValue R → Prop) : Prop := ∀ g ref ins w w', M g ref ins w → M g ref ins w' → w = w'

theorem sub_unique (hM : Single M) {g : Option R} {fmt : ValueFormat R} {τ : Subst R} {w w' : TypedValue R}
    (h1 : SubMeaning M g fmt τ w) (h2 : SubMeaning M g fmt τ w') : w = w' := by
  obtain ⟨ins, g1, a1, a2, a3⟩ := h1
  obtain ⟨ins', g2, b1, b2, b3⟩ := h2
  obtain rfl := inputs_unique a1 b1
  obtain rfl := graph_unique a2 b2
  exact hM _ _ _ _ _ a3 b3

theorem meaning_single (hreg : c.reg.Closed) (hno : c.reg.NoVariantIntro) (hds : c.ds.Nodup) (hle : TotalOrder c.le)
    (hsingle : ∀ r, (c.literalsOf r).length ≤ 1) (hsums : c.ToldApart) (n : Nat) : Single (Meaning c n) := by
  intro g ref ins w w' h h'
  obtain ⟨N, hN⟩ := Hydrate.returns_hydrate c hreg hno hds hle hsingle hsums n g ref ins w h
  obtain ⟨N', hN'⟩ := Hydrate.returns_hydrate c hreg hno hds hle hsingle hsums n g ref ins w' h'
  have e1 := hN (max N N') (by omega)
  have e2 := hN' (max N N') (by omega)
  simp only at e1 e2
  rw [e1] at e2
  injection e2

theorem forall₂_exists {α β : Type _} {P : α → β → Prop} {as : List α} (h : ∀ a ∈ as, ∃ b, P a b) : ∃ bs, List.Forall₂ P as bs := by
  induction as with
  | nil => exact ⟨[], .nil⟩
  | cons a as ih =>
    rw [List.forall_mem_cons] at h
    obtain ⟨b, hb⟩ := h.1
    obtain ⟨bs, hbs⟩ := ih h.2
    exact ⟨b :: bs, .cons hb hbs⟩

/-- What is known of a layout and of the place where it is read. -/
structure Place (c : HyCtx R) (n : Nat) (g : Option R) (ref : R) (l : Layout R) (ins : List R) (σ : Subst R) (v : Value) : Prop where
  layout : c.reg ref = some l
  own : l.OwnMatch c.ds g ins σ
  unambiguous : Unambiguous c g ref ins
  parts : ∀ σ₀ pats fmt v' τ inputs' g', l.PartOf v σ σ₀ pats fmt v' → IsMatch c.ds σ₀ (inGraph g pats) τ →
    List.Forall₂ (fun p r => p.Denotes τ.get r) fmt.input inputs' → GraphDenotes g fmt.graph τ g' →
    Says c n g' fmt.layout inputs' v' → Exact c n g' fmt.layout inputs' v'

/-- What is said with nesting at most `n` is meant. -/
def Meant (c : HyCtx R) (n : Nat) : Prop :=
  ∀ g ref ins v, Says c n g ref ins v → Unambiguous c g ref ins → Exact c n g ref ins v → v.Sorted →
    ∃ w, Meaning c n g ref ins w ∧ SameTree c.reg ref v w.untype

variable {n : Nat} {g : Option R} {ref : R} {l : Layout R} {ins : List R} {σ : Subst R} {v : Value}

theorem sub_meant (ih : Meant c n) (P : Place c n g ref l ins σ v) {σ₀ τ : Subst R} {pats : List (QuadPat R)}
    {fmt : ValueFormat R} {v' : Value} (hpart : l.PartOf v σ σ₀ pats fmt v') (hτ : IsMatch c.ds σ₀ (inGraph g pats) τ)
    (hs : SubSays (Says c n) g fmt τ v') (hv : v'.Sorted) :
    ∃ w, SubMeaning (Meaning c n) g fmt τ w ∧ SameTree c.reg fmt.layout v' w.untype := by
  obtain ⟨ins', g', h1, h2, h3⟩ := hs
  obtain ⟨w, hw, he⟩ := ih g' fmt.layout ins' v' h3
    (unambiguous_part P.unambiguous P.layout P.own (part_of hpart) hτ h1 h2) (P.parts _ _ _ _ _ _ _ hpart hτ h1 h2 h3) hv
  exact ⟨w, ⟨ins', g', h1, h2, hw⟩, he⟩

theorem part_meant (ih : Meant c n) (P : Place c n g ref l ins σ v) (hset : ∀ s, l ≠ .unordered s) {σ₀ τ : Subst R}
    {pats : List (QuadPat R)}
    {fmt : ValueFormat R} {v' : Value} (hpart : l.PartOf v σ σ₀ pats fmt v') (hτ : IsMatch c.ds σ₀ (inGraph g pats) τ)
    (hs : SubSays (Says c n) g fmt τ v') (hv : v'.Sorted) :
    UniqueMatch c.ds σ₀ (inGraph g pats) τ ∧
    ∃ w, SubMeaning (Meaning c n) g fmt τ w ∧ SameTree c.reg fmt.layout v' w.untype :=
  ⟨⟨hτ, fun _ h => (P.unambiguous _ _ _ .here l P.layout).2 σ σ₀ pats fmt _ _ hset P.own (part_of hpart) h hτ⟩,
    sub_meant ih P hpart hτ hs hv⟩

/-- The members of the record read: those of the record said, in the order of the fields. -/
theorem fields_exist {reg : Registry R} {mv : List (Value × Value)} {fs : List (Value × Field R)}
    (h : ∀ k fd v, (k, fd) ∈ fs → (k, v) ∈ mv →
      ∃ σ' w, UniqueMatch ds (σ ++ List.replicate fd.intro none) (inGraph g fd.dataset) σ' ∧
        SubMeaning M g fd.value σ' w ∧ SameTree reg fd.value.layout v w.untype)
    (h' : ∀ k fd, (k, fd) ∈ fs → k ∉ mv.map Prod.fst →
      (∀ τ, ¬ IsMatch ds (σ ++ List.replicate fd.intro none) (inGraph g fd.dataset) τ) ∧ fd.required = false) :
    ∃ m, FieldsMeaning ds M g σ fs m ∧ (m.map Prod.fst).Sublist (fs.map Prod.fst) ∧
      (∀ e ∈ m, ∃ fd v, (e.1, fd) ∈ fs ∧ (e.1, v) ∈ mv ∧ SameTree reg fd.value.layout v e.2.untype) ∧
      ∀ k, k ∈ fs.map Prod.fst → k ∈ mv.map Prod.fst → k ∈ m.map Prod.fst := by
  induction fs with
  | nil => exact ⟨[], .nil, .slnil, by simp, by simp⟩
  | cons e fs ih =>
    obtain ⟨k, fd⟩ := e
    obtain ⟨m, hm, h1, h2, h3⟩ := ih (fun k fd v hf => h k fd v (by simp [hf])) (fun k fd hf => h' k fd (by simp [hf]))
    have h2' : ∀ e ∈ m, ∃ fd' v, (e.1, fd') ∈ (k, fd) :: fs ∧ (e.1, v) ∈ mv ∧ SameTree reg fd'.value.layout v e.2.untype := by
      intro e he
      obtain ⟨fd', v, a, b⟩ := h2 e he
      exact ⟨fd', v, List.mem_cons_of_mem _ a, b⟩
    by_cases hk : k ∈ mv.map Prod.fst
    · obtain ⟨⟨k', v⟩, hkv, hkk⟩ := List.mem_map.1 hk
      simp only at hkk
      subst hkk
      obtain ⟨σ', w, h4, h5, h6⟩ := h k' fd v (by simp) hkv
      refine ⟨(k', w) :: m, .present h4 h5 hm, by simpa using h1.cons_cons k', ?_, ?_⟩
      · rw [List.forall_mem_cons]
        exact ⟨⟨fd, v, by simp, hkv, h6⟩, h2'⟩
      · intro k hk1 hk2
        rw [List.map_cons, List.mem_cons] at hk1 ⊢
        exact hk1.imp id fun hk1 => h3 k hk1 hk2
    · obtain ⟨h4, h5⟩ := h' k fd (by simp) hk
      refine ⟨m, .absent h4 h5 hm, by simpa using h1.cons k, h2', ?_⟩
      intro k' hk1 hk2
      rw [List.map_cons, List.mem_cons] at hk1
      rcases hk1 with rfl | hk1
      · exact absurd hk2 hk
      · exact h3 k' hk1 hk2

theorem same_keys {ks ks' : List Value} (h1 : ks.Pairwise fun a b => Value.le a b = true ∧ a ≠ b)
    (h2 : ks'.Pairwise fun a b => Value.le a b = true ∧ a ≠ b) (h : ∀ k, k ∈ ks ↔ k ∈ ks') : ks = ks' := by
  have n1 : ks.Nodup := h1.imp fun h => h.2
  have n2 : ks'.Nodup := h2.imp fun h => h.2
  refine ((List.perm_ext_iff_of_nodup n1 n2).2 h).eq_of_pairwise ?_ h1 h2
  intro a b _ _ hab hba
  have := lexLe_antisymm _ _ hab.1 hba.1
  exact absurd (Value.prefixFree a b [] [] (by rw [this])).1 hab.2

/-- The items of a list. -/
theorem chain_meant (ih : Meant c n) {l : OrderedLayout R} {us : List Value}
    (P : Place c n g ref (.ordered l) ins σ (.list us)) {tail head : R} {vs : List Value} (hsub : ∀ v ∈ vs, v ∈ us)
    (hv : ∀ v ∈ vs, v.Sorted) (h : ChainSays c.ds (Says c n) g l.node σ tail head vs) :
    ∃ ws, ChainMeaning c.ds (Meaning c n) g l.node σ tail head ws ∧
      List.Forall₂ (fun v (w : TypedValue R) => SameTree c.reg l.node.value.layout v w.untype) vs ws := by
  induction h with
  | nil => exact ⟨[], .nil, .nil⟩
  | cons h1 h2 h3 h4 _ ih' =>
    rw [List.forall_mem_cons] at hsub hv
    obtain ⟨ws, hws, hes⟩ := ih' hsub.2 hv.2
    obtain ⟨hu, w, hw, he⟩ := part_meant ih P (by simp) (.node _ hsub.1) h2 h3 hv.1
    exact ⟨w :: ws, .cons h1 hu hw h4 hws, .cons he hes⟩

/-- The items of a tuple. -/
theorem sized_meant (ih : Meant c n) {l : SizedLayout R} {us : List Value}
    (P : Place c n g ref (.sized l) ins σ (.list us)) {is : List (ItemLayout R)} {vs : List Value}
    (hsub : ∀ e ∈ is.zip vs, e ∈ l.items.zip us) (hv : ∀ v ∈ vs, v.Sorted)
    (h : List.Forall₂ (fun (item : ItemLayout R) x => ∃ τ,
        IsMatch c.ds (σ ++ List.replicate item.intro none) (inGraph g item.dataset) τ ∧
        SubSays (Says c n) g item.value τ x) is vs) :
    ∃ ws, List.Forall₂ (fun (item : ItemLayout R) w => ∃ σ',
        UniqueMatch c.ds (σ ++ List.replicate item.intro none) (inGraph g item.dataset) σ' ∧
        SubMeaning (Meaning c n) g item.value σ' w) is ws ∧ vs.length = ws.length ∧
      ∀ e ∈ is.zip (vs.zip (ws.map TypedValue.untype)), SameTree c.reg e.1.value.layout e.2.1 e.2.2 := by
  induction h with
  | nil => exact ⟨[], .nil, rfl, by simp⟩
  | cons h1 _ ih' =>
    rw [List.zip_cons_cons, List.forall_mem_cons] at hsub
    rw [List.forall_mem_cons] at hv
    obtain ⟨τ, h2, h3⟩ := h1
    obtain ⟨ws, hws, hlen, hes⟩ := ih' hsub.2 hv.2
    obtain ⟨hu, w, hw, he⟩ := part_meant ih P (by simp) (.item hsub.1) h2 h3 hv.1
    refine ⟨w :: ws, .cons ⟨τ, hu, hw⟩ hws, by simp [hlen], ?_⟩
    rw [List.map_cons, List.zip_cons_cons, List.zip_cons_cons, List.forall_mem_cons]
    exact ⟨he, hes⟩

/-- Two sets are the same tree if their items are. -/
theorem sameTree_items {reg : Registry R} {ref : R} {l : UnorderedLayout R} (hr : reg ref = some (.unordered l))
    {vs ws : List Value} (h1 : ∀ v ∈ vs, ∃ w ∈ ws, SameTree reg l.item.value.layout v w)
    (h2 : ∀ w ∈ ws, ∃ v ∈ vs, SameTree reg l.item.value.layout v w) : SameTree reg ref (.list vs) (.list ws) := by
  classical
  refine .unordered vs ws (fun v => if h : v ∈ vs then (h1 v h).choose else v)
    (fun w => if h : w ∈ ws then (h2 w h).choose else w) hr ?_ ?_ ?_ ?_
  · intro v hv; simp only [hv, dif_pos]; exact (h1 v hv).choose_spec.1
  · intro v hv; simp only [hv, dif_pos]; exact (h1 v hv).choose_spec.2
  · intro v hv; simp only [hv, dif_pos]; exact (h2 v hv).choose_spec.1
  · intro v hv; simp only [hv, dif_pos]; exact (h2 v hv).choose_spec.2

/-- The items of a set. -/
theorem set_meant (ih : Meant c n) (hM : Single (Meaning c n)) (hds : c.ds.Nodup) (hle : TotalOrder c.le) {l : UnorderedLayout R}
    {vs : List Value} (P : Place c n g ref (.unordered l) ins σ (.list vs)) (hcl : (Layout.unordered l).Closed)
    (hlen : ins.length = l.input) (hv : ∀ v ∈ vs, v.Sorted)
    (hsay : ∀ x ∈ vs, ∃ τ, IsMatch c.ds (σ ++ List.replicate l.item.intro none) (inGraph g l.item.dataset) τ ∧
        SubSays (Says c n) g l.item.value τ x)
    (hno : ∀ τ, IsMatch c.ds (σ ++ List.replicate l.item.intro none) (inGraph g l.item.dataset) τ →
      ∃ x ∈ vs, SubSays (Says c n) g l.item.value τ x) :
    ∃ matchings : List (Subst R), ∃ values items : List (TypedValue R), matchings.Nodup ∧
      (∀ τ, τ ∈ matchings ↔ IsMatch c.ds (σ ++ List.replicate l.item.intro none) (inGraph g l.item.dataset) τ) ∧
      List.Forall₂ (fun τ v => SubMeaning (Meaning c n) g l.item.value τ v) matchings values ∧
      items.Perm values ∧ items.Pairwise (fun a b => c.le a b = true) ∧
      SameTree c.reg ref (.list vs) (.list (items.map TypedValue.untype)) := by
  have hσ := P.own.length_eq
  simp only [List.length_append, List.length_map, List.length_replicate, hlen, Layout.own] at hσ
  have hd : Declared (σ.intro l.item.intro) (withDefaultGraph l.item.dataset g) :=
    declared_of_below hcl.2.1 (by rw [Hydrate.length_intro, hσ])
  have hmem := Matching.mem_enum c.ds _ _ hd
  have hnd := Matching.nodup_enum c.ds hds _ _ hd
  rw [← inGraph_eq] at hmem hnd
  change ∀ τ, τ ∈ _ ↔ IsMatch c.ds (σ ++ List.replicate l.item.intro none) (inGraph g l.item.dataset) τ at hmem
  generalize Matching.enum c.ds (inGraph g l.item.dataset) (σ.intro l.item.intro) = L at hmem hnd
  obtain ⟨ws, hws⟩ := forall₂_exists (as := L) (P := fun τ (w : TypedValue R) => SubMeaning (Meaning c n) g l.item.value τ w ∧
      ∃ x ∈ vs, SameTree c.reg l.item.value.layout x w.untype) (by
    intro τ hτ
    obtain ⟨x, hx, hs⟩ := hno τ ((hmem τ).1 hτ)
    obtain ⟨w, hw, he⟩ := sub_meant ih P (.element hx) ((hmem τ).1 hτ) hs (hv x hx)
    exact ⟨w, hw, x, hx, he⟩)
  have hperm := sortBy_perm c.le ws
  refine ⟨L, ws, sortBy c.le ws, hnd, hmem, hws.imp fun _ _ h => h.1, hperm, pairwise_sortBy hle.total hle.trans ws, ?_⟩
  refine sameTree_items P.layout ?_ ?_
  · intro x hx
    obtain ⟨τ, hτ, hs⟩ := hsay x hx
    obtain ⟨w', hw', he'⟩ := sub_meant ih P (.element hx) hτ hs (hv x hx)
    obtain ⟨w, hw, h1, _⟩ := Reproduce.forall₂_left hws ((hmem τ).2 hτ)
    obtain rfl := sub_unique hM hw' h1
    exact ⟨_, List.mem_map_of_mem (hperm.mem_iff.2 hw), he'⟩
  · intro u hu
    obtain ⟨w, hw, rfl⟩ := List.mem_map.1 hu
    obtain ⟨τ, _, _, h2⟩ := Reproduce.forall₂_left (List.Forall₂.flip hws) (hperm.mem_iff.1 hw)
    exact h2

theorem meant (hreg : c.reg.Closed) (hno : c.reg.NoVariantIntro) (hds : c.ds.Nodup) (hle : TotalOrder c.le)
    (hsingle : ∀ r, (c.literalsOf r).length ≤ 1) (hap : c.ToldApart) (hso : c.reg.Sorted) (n : Nat) : Meant c n := by
  induction n with
  | zero => intro g ref ins v h; exact h.elim
  | succ n ih =>
    intro g ref ins v h hun hex hv
    obtain ⟨l, σ, hl, hcount, hσ, hsay⟩ := h
    obtain ⟨helse, hparts⟩ := hex l σ hl hσ
    have hu : UniqueMatch c.ds (ins.map some ++ List.replicate l.own.1 none) (inGraph g l.own.2) σ :=
      ⟨hσ, fun τ h => (hun _ _ _ .here l hl).1 τ σ h hσ⟩
    have P : Place c n g ref l ins σ v := ⟨hl, hσ, hun, hparts⟩
    suffices ∃ w, LayoutMeaning c (Meaning c n) g ref ins w l ∧ SameTree c.reg ref v w.untype by
      obtain ⟨w, hw, he⟩ := this
      exact ⟨w, ⟨l, hl, hcount, hw⟩, he⟩
    have hdata : ∀ {α : Type} {parse : String → String → Out (HyError R) α} {d : DataLayout R} {a : α},
        l.own = (d.intro, d.dataset) → DataSays c parse d σ a → DataMeaning c parse g d ins a := by
      rintro α parse d a hown ⟨r, lit, i, h1, h2, h3, h4⟩
      rw [hown] at hu
      exact ⟨σ, r, lit, i, hu, h1, h2, h3, h4⟩
    cases l with
    | never => exact hsay.elim
    | always => exact helse.elim
    | unit l =>
      obtain rfl : v = l.const := hsay
      exact ⟨_, ⟨⟨σ, hu⟩, rfl⟩, .leaf _⟩
    | boolean l =>
      obtain ⟨b, h, rfl⟩ := hsay
      exact ⟨_, ⟨b, hdata rfl h, rfl⟩, .leaf _⟩
    | number l =>
      obtain ⟨b, h, rfl⟩ := hsay
      exact ⟨_, ⟨b, hdata rfl h, rfl⟩, .leaf _⟩
    | byteString l =>
      obtain ⟨b, h, rfl⟩ := hsay
      exact ⟨_, ⟨b, hdata rfl h, rfl⟩, .leaf _⟩
    | textString l =>
      obtain ⟨b, h, rfl⟩ := hsay
      exact ⟨_, ⟨b, hdata rfl h, rfl⟩, .leaf _⟩
    | id l =>
      obtain ⟨r, iri, h1, h2, rfl⟩ := hsay
      exact ⟨_, ⟨σ, r, iri, hu, h1, h2, rfl⟩, .leaf _⟩
    | product l =>
      obtain ⟨mv, rfl, h1, h2⟩ := hsay
      have hsame : ∀ k (fd fd' : Field R), (k, fd) ∈ l.fields → (k, fd') ∈ l.fields → fd' = fd := by
        intro k fd fd' hf hf'
        have := List.inj_on_of_nodup_map (SortedKeys.nodup (hso ref l hl)) hf' hf rfl
        simpa using this
      have hmv : SortedKeys mv := by cases hv; assumption
      have hmk : ∀ k v v', (k, v) ∈ mv → (k, v') ∈ mv → v = v' := by
        intro k v v' h h'
        have := List.inj_on_of_nodup_map (SortedKeys.nodup hmv) h h' rfl
        simpa using this
      have hvs : ∀ e ∈ mv, e.2.Sorted := by cases hv; assumption
      obtain ⟨m, hm, hm1, hm2, hm3⟩ := fields_exist (ds := c.ds) (M := Meaning c n) (g := g) (σ := σ) (reg := c.reg) (mv := mv)
        (fs := l.fields) (by
          intro k fd x hf hkv
          obtain ⟨fd', τ, h3, h4, h5⟩ := h1 k x hkv
          obtain rfl := hsame k fd fd' hf h3
          obtain ⟨a, w, b⟩ := part_meant ih P (by simp) (.field h3 hkv) h4 h5 (hvs _ hkv)
          exact ⟨τ, w, a, b⟩) (by
          intro k fd hf hk
          have hopt : fd.required = false := by
            by_contra hreq
            exact hk (h2 k fd hf (by simpa using hreq))
          exact ⟨fun τ => helse k fd hf hopt hk τ, hopt⟩)
      refine ⟨_, ⟨σ, m, hu, hm, rfl⟩, ?_⟩
      simp only [TypedValue.untype, TypedValue.untypeMap_eq]
      have hkeys : (m.map fun e => (e.1, e.2.untype)).map Prod.fst = m.map Prod.fst := by simp
      refine .product _ _ hl ?_ ?_ ?_
      · rw [hkeys]
        refine same_keys hmv ((hso ref l hl).sublist hm1) fun k => ⟨fun hk => ?_, fun hk => ?_⟩
        · obtain ⟨⟨k', x⟩, hkv, hkk⟩ := List.mem_map.1 hk
          simp only at hkk
          subst hkk
          obtain ⟨fd, _, hf, _⟩ := h1 k' x hkv
          exact hm3 k' (List.mem_map_of_mem (f := Prod.fst) hf) hk
        · obtain ⟨e, he, rfl⟩ := List.mem_map.1 hk
          obtain ⟨_, x, _, hx, _⟩ := hm2 e he
          exact List.mem_map_of_mem (f := Prod.fst) hx
      · intro k x hkv
        obtain ⟨fd, _, hf, _⟩ := h1 k x hkv
        exact ⟨fd, hf⟩
      · intro k x x' fd hkv hkv' hf
        obtain ⟨e, he, heq⟩ := List.mem_map.1 hkv'
        injection heq with e1 e2
        subst e1 e2
        obtain ⟨fd', x'', hf', hx'', hst⟩ := hm2 e he
        obtain rfl := hsame _ _ _ hf hf'
        obtain rfl := hmk _ _ _ hkv hx''
        exact hst
    | unordered l =>
      obtain ⟨vs, rfl, h1⟩ := hsay
      obtain ⟨L, values, items, a1, a2, a3, a4, a5, a6⟩ := set_meant ih
        (meaning_single hreg hno hds hle hsingle hap n) hds hle P (hreg ref _ hl) (hcount _ rfl) (by cases hv; assumption) h1 helse
      refine ⟨_, ⟨σ, L, values, items, hu, a1, a2, a3, a4, a5, rfl⟩, ?_⟩
      simp only [TypedValue.untype, TypedValue.untypeList_eq]
      exact a6
    | ordered l =>
      obtain ⟨vs, head, tail, rfl, h1, h2, h3⟩ := hsay
      obtain ⟨ws, hws, hes⟩ := chain_meant ih P (fun _ h => h) (by cases hv; assumption) (h3 helse)
      refine ⟨_, ⟨σ, head, tail, ws, hu, h1, h2, hws, rfl⟩, ?_⟩
      simp only [TypedValue.untype, TypedValue.untypeList_eq]
      refine .ordered _ _ hl (by rw [List.length_map]; exact hes.length_eq) ?_
      rw [← List.forall₂_map_right_iff (f := TypedValue.untype) (R := fun v w => SameTree c.reg l.node.value.layout v w)] at hes
      intro e he
      exact List.forall₂_zip hes he
    | sized l =>
      obtain ⟨vs, rfl, h1⟩ := hsay
      obtain ⟨ws, hws, hlen, hes⟩ := sized_meant ih P (fun _ h => h) (by cases hv; assumption) h1
      refine ⟨_, ⟨σ, ws, hu, hws, rfl⟩, ?_⟩
      simp only [TypedValue.untype, TypedValue.untypeList_eq]
      exact .sized _ _ hl h1.length_eq (by rw [List.length_map]; exact hlen) hes
    | sum l =>
      obtain ⟨x, hx, τ, h1, h2⟩ := hsay
      obtain ⟨hux, w, hw, he⟩ := part_meant ih P (by simp) (.variant hx) h1 h2 hv
      obtain ⟨j, hj⟩ := List.mem_iff_getElem?.1 hx
      refine ⟨_, ⟨σ, j, x, w, hu, fun y hy τ τ' hτ hτ' => ?_, hj, ⟨τ, hux, hw⟩, ?_, rfl⟩, .sum _ _ hl hx he⟩
      · exact (hun _ _ _ .here _ hl).2 σ _ _ _ τ τ' (by simp) hσ (.variant hy) hτ hτ'
      · rintro i y w' hy ⟨σ', hσ', _⟩
        exact hap ref l hl g σ ⟨ins, hcount _ rfl, hu.1⟩ i j y x σ' _ hy hj hσ'.1 hux.1

end Meant

end Verif.Keeping
