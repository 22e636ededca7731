import Verif.RereadView

/-! # Writing back what was read: layout by layout -/

set_option linter.unusedSectionVars false
set_option linter.unusedSimpArgs false

namespace Verif.Reproduce

open Verif.Dehydrate Verif.RoundTrip

variable {x : Xsd} {P : Term → Prop} {ds : List (Quad Term)} {reg : Registry Term}
  {le : TypedValue Term → TypedValue Term → Bool}

/-- Writing what `M` read, with `rec`. `M'` reads it again from what was written. -/
def Back (x : Xsd) (P : Term → Prop) (ds : List (Quad Term)) (reg : Registry Term)
    (le : TypedValue Term → TypedValue Term → Bool) (M : Option Term → Term → List Term → TypedValue Term → Prop)
    (M' : HyCtx Term → Nat → Option Term → Term → List Term → TypedValue Term → Prop) (rec : Rec) : Prop :=
  ∀ g ref ins dins v s s' (h : IRes → Term), M none ref ins v → WellDecided reg v →
    rec v.untype g ref dins s = (.ok (), s') → (∀ t, h (.term t) = t) → dins.map h = ins → (∀ r ∈ dins, Old s.fresh r) →
    (∀ t ∈ ins, P t) → ∃ h', Step x P ds h s h' s' ∧
      ∀ K (j : Nat) U, View reg x le ds K U → Fits K U h' s' → (∀ r ∈ dins, U r) → M' K j none ref ins v

variable {M : Option Term → Term → List Term → TypedValue Term → Prop}
  {M' : HyCtx Term → Nat → Option Term → Term → List Term → TypedValue Term → Prop} {rec : Rec}

/-- The parts of the format that are constants are known, and it does not select a graph. -/
structure FormatOk (reg : Registry Term) (f : ValueFormat Term) : Prop where
  input : ∀ t, .res t ∈ f.input → reg.HasConstant t
  graph : ∀ p, f.graph ≠ some (some p)

theorem Stands.mono {h h' : IRes → Term} {ρ : List IRes} {σ : Subst Term} {k : Nat} (hst : Stands P h ρ σ)
    (hρ : ∀ r ∈ ρ, Old k r) (hag : ∀ r, Old k r → h' r = h r) : Stands P h' ρ σ := by
  refine ⟨hst.length, fun y t hy => ?_⟩
  obtain ⟨h1, h2⟩ := hst.get y t hy
  refine ⟨?_, h2⟩
  rw [hag, h1]
  have := old_inst hρ (.var y)
  exact this

theorem Step.term {h h' : IRes → Term} {s s' : DeState} (st : Step x P ds h s h' s') (hterm : ∀ t, h (.term t) = t) :
    ∀ t, h' (.term t) = t := fun t => (st.agree _ (old_term _ t)).trans (hterm t)

theorem forall₂_left {α β : Type} {R : α → β → Prop} {as : List α} {bs : List β} (h : List.Forall₂ R as bs) {a : α}
    (ha : a ∈ as) : ∃ b ∈ bs, R a b := by
  induction h with
  | nil => exact nomatch ha
  | cons hab _ ih =>
    rcases List.mem_cons.1 ha with rfl | ha
    · exact ⟨_, by simp, hab⟩
    · obtain ⟨b, hb, h⟩ := ih ha
      exact ⟨b, by simp [hb], h⟩

/-- A sub-value. -/
theorem sub_step (hP : Domain P reg ds) (hrec : Back x P ds reg le M M' rec) {h : IRes → Term} (hterm : ∀ t, h (.term t) = t) {g : Option IRes}
    {f : ValueFormat Term} (hf : FormatOk reg f) {ρ : List IRes} {σ : Subst Term} {v : TypedValue Term} {s s' : DeState}
    (hρ : ∀ r ∈ ρ, Old s.fresh r) (hst : Stands P h ρ σ) (hm : SubMeaning M none f σ v) (hd : WellDecided reg v)
    (hrun : call rec g f ρ v.untype s = (.ok (), s')) : ∃ h', Step x P ds h s h' s' ∧
      ∀ K (j : Nat) U, View reg x le ds K U → Fits K U h' s' → Covers U ρ σ → SubMeaning (M' K j) none f σ v := by
  obtain ⟨ins, g', hins, hg, hm⟩ := hm
  have hg' : g' = none := by
    unfold GraphDenotes at hg
    cases hfg : f.graph with
    | none => rw [hfg] at hg; exact hg
    | some o =>
      cases o with
      | none => rw [hfg] at hg; exact hg
      | some p => exact absurd hfg (hf.graph p)
  subst hg'
  have hins' : ∀ {ps : List (Pattern Term)} {ins : List Term}, List.Forall₂ (fun p r => p.Denotes σ.get r) ps ins →
      (∀ t, .res t ∈ ps → P t) → (ps.map (patInst ρ)).map h = ins ∧ ∀ t ∈ ins, P t := by
    intro ps ins hall
    induction hall with
    | nil => exact fun _ => ⟨rfl, fun _ h => nomatch h⟩
    | @cons p t ps ts hp _ ih =>
      intro hc
      obtain ⟨h1, h2⟩ := ih fun t ht => hc t (by simp [ht])
      refine ⟨?_, ?_⟩
      · rw [List.map_cons, List.map_cons, h1, hst.inst hterm hp]
      · intro u hu
        rcases List.mem_cons.1 hu with rfl | hu
        · cases p with
          | res t => cases hp; exact hc _ (by simp)
          | var y => exact (hst.get y u hp).2
        · exact h2 u hu
  obtain ⟨h1, h2⟩ := hins' hins fun t ht => hP.constants t (hf.input t ht)
  obtain ⟨h', st, hre⟩ := hrec _ _ ins _ v s s' h hm hd hrun hterm h1 (by
    intro r hr
    obtain ⟨p, _, rfl⟩ := List.mem_map.1 hr
    exact old_inst hρ p) h2
  refine ⟨h', st, fun K j U hv hfit hc => ⟨ins, none, hins, hg, hre K j U hv hfit fun r hr => ?_⟩⟩
  obtain ⟨p, hp, rfl⟩ := List.mem_map.1 hr
  obtain ⟨t, _, ht⟩ := forall₂_left hins hp
  exact hc.inst ht fun t ht => hv.const t (hf.input t (ht ▸ hp))

/-- A part of a layout (field, item): its patterns, then its value. -/
theorem part_step (hP : Domain P reg ds) (hrec : Back x P ds reg le M M' rec) {h : IRes → Term} (hterm : ∀ t, h (.term t) = t)
    {g : Option IRes} {f : ValueFormat Term} (hf : FormatOk reg f) {ρ : List IRes} {k : Nat} {σ σ' : Subst Term}
    {pats : List (QuadPat Term)} {v : TypedValue Term} {s s' : DeState} (hρ : ∀ r ∈ ρ, Old s.fresh r)
    (hst : Stands P h ρ σ) (htot : Total σ) (hmatch : IsMatch ds (σ ++ List.replicate k none) (inGraph none pats) σ')
    (hm : SubMeaning M none f σ' v) (hd : WellDecided reg v)
    (hrun : call rec g f (scope ρ k s) v.untype (emit (scope ρ k s) pats (alloc k s)) = (.ok (), s')) :
    ∃ h', Step x P ds h s h' s' ∧ ∀ K (j : Nat) U, View reg x le ds K U → Fits K U h' s' → Covers U ρ σ →
      IsMatch K.ds (σ ++ List.replicate k none) (inGraph none pats) σ' ∧ SubMeaning (M' K j) none f σ' v := by
  rw [inGraph_none] at hmatch ⊢
  obtain ⟨h1, st1, hst1⟩ := enter (x := x) hP hterm hρ hst htot hmatch
  obtain ⟨h2, st2, hre⟩ := sub_step hP hrec (st1.term hterm) hf (old_scope hρ) hst1 hm hd hrun
  refine ⟨h2, st1.trans st2, fun K j U hv hfit hc => ?_⟩
  obtain ⟨hm1, hc1⟩ := (hfit.back st2).entered hρ (st1.term hterm) hst1 hmatch
  exact ⟨hm1, hre K j U hv hfit (hc1 (covers_scope hst.length hc k s))⟩

theorem uniqueMatch_sub {ds' : List (Quad Term)} (hsub : ∀ q ∈ ds', q ∈ ds) {σ₀ σ : Subst Term}
    {pats : List (QuadPat Term)} (hu : UniqueMatch ds σ₀ pats σ) (hm : IsMatch ds' σ₀ pats σ) :
    UniqueMatch ds' σ₀ pats σ :=
  ⟨hm, fun τ hτ => hu.2 τ (isMatch_sub hsub hτ)⟩

theorem old_mono {ρ : List IRes} {k k' : Nat} (hρ : ∀ r ∈ ρ, Old k r) (hk : k ≤ k') : ∀ r ∈ ρ, Old k' r :=
  fun r hr => (hρ r hr).mono hk

/-- The fields of a record. -/
theorem entries_step (hP : Domain P reg ds) (hrec : Back x P ds reg le M M' rec) {g : Option IRes} {env : Env IRes}
    {fields : List (Value × Field Term)} (hnd : (fields.map Prod.fst).Nodup)
    (hcl : ∀ e ∈ fields, PatsBelow (env.flat.length + e.2.intro) e.2.dataset ∧ e.2.value.Below (env.flat.length + e.2.intro))
    (hf : ∀ e ∈ fields, FormatOk reg e.2.value) {σ : Subst Term} (htot : Total σ)
    {fs : List (Value × Field Term)} {m : List (Value × TypedValue Term)} (hm : FieldsMeaning ds M none σ fs m)
    (hfs : ∀ e ∈ fs, e ∈ fields) (hd : ∀ e ∈ m, WellDecided reg e.2) {h : IRes → Term} (hterm : ∀ t, h (.term t) = t)
    {s s' : DeState} (hρ : ∀ r ∈ env.flat, Old s.fresh r) (hst : Stands P h env.flat σ)
    (hrun : entries rec g env fields (TypedValue.untypeMap m) s = (.ok (), s')) : ∃ h', Step x P ds h s h' s' ∧
      ∀ K (j : Nat) U, View reg x le ds K U → Fits K U h' s' → Covers U env.flat σ → FieldsMeaning K.ds (M' K j) none σ fs m := by
  induction hm generalizing h s with
  | nil =>
    simp only [TypedValue.untypeMap, entries, DeM.pure, Prod.mk.injEq, true_and] at hrun
    subst hrun
    exact ⟨h, Step.refl h s, fun _ _ _ _ _ _ => .nil⟩
  | @present key field fs σ' v m hmatch hsub _ ih =>
    have hin := hfs _ (List.mem_cons_self ..)
    rw [TypedValue.untypeMap, entries_cons (lookup_eq hnd hin) (hcl _ hin).1 (hcl _ hin).2, DeM.bind_eq_ok] at hrun
    obtain ⟨⟨⟩, s1, h1, h2⟩ := hrun
    obtain ⟨h', st, hre⟩ := part_step hP hrec hterm (hf _ hin) hρ hst htot hmatch.1 hsub (hd _ (List.mem_cons_self ..)) h1
    obtain ⟨h'', st', hre'⟩ := ih (fun e he => hfs e (by simp [he])) (fun e he => hd e (by simp [he])) (st.term hterm)
      (old_mono hρ st.fresh) (hst.mono hρ st.agree) h2
    refine ⟨h'', st.trans st', fun K j U hv hfit hc => ?_⟩
    obtain ⟨hm1, hs1⟩ := hre K j U hv (hfit.back st') hc
    exact .present (uniqueMatch_sub hv.part.ds hmatch hm1) hs1 (hre' K j U hv hfit hc)
  | absent hno hreq _ ih =>
    obtain ⟨h', st, hre⟩ := ih (fun e he => hfs e (by simp [he])) hd hterm hρ hst hrun
    exact ⟨h', st, fun K j U hv hfit hc => .absent (fun τ hτ => hno τ (isMatch_sub hv.part.ds hτ)) hreq (hre K j U hv hfit hc)⟩

/-- The items of an unordered list. -/
theorem items_step (hP : Domain P reg ds) (hrec : Back x P ds reg le M M' rec) {g : Option IRes} {env : Env IRes}
    {item : ItemLayout Term} (hcl : item.Closed (env.flat.length + item.intro)) (hf : FormatOk reg item.value)
    {σ : Subst Term} (htot : Total σ) {τs : List (Subst Term)} {vs : List (TypedValue Term)}
    (hm : List.Forall₂ (fun τ v => IsMatch ds (σ ++ List.replicate item.intro none) (inGraph none item.dataset) τ ∧
      SubMeaning M none item.value τ v) τs vs) (hd : ∀ v ∈ vs, WellDecided reg v) {h : IRes → Term} (hterm : ∀ t, h (.term t) = t)
    {s s' : DeState} (hρ : ∀ r ∈ env.flat, Old s.fresh r) (hst : Stands P h env.flat σ)
    (hrun : items rec g env item (TypedValue.untypeList vs) s = (.ok (), s')) : ∃ h', Step x P ds h s h' s' ∧
      ∀ K (j : Nat) U, View reg x le ds K U → Fits K U h' s' → Covers U env.flat σ →
        List.Forall₂ (fun τ v => IsMatch K.ds (σ ++ List.replicate item.intro none) (inGraph none item.dataset) τ ∧
          SubMeaning (M' K j) none item.value τ v) τs vs := by
  induction hm generalizing h s with
  | nil =>
    simp only [TypedValue.untypeList, items, DeM.pure, Prod.mk.injEq, true_and] at hrun
    subst hrun
    exact ⟨h, Step.refl h s, fun _ _ _ _ _ _ => .nil⟩
  | @cons τ v τs vs hhead _ ih =>
    rw [TypedValue.untypeList, items_cons hcl, DeM.bind_eq_ok] at hrun
    obtain ⟨⟨⟩, s1, h1, h2⟩ := hrun
    obtain ⟨hmatch, hsub⟩ := hhead
    obtain ⟨h', st, hre⟩ := part_step hP hrec hterm hf hρ hst htot hmatch hsub (hd _ (List.mem_cons_self ..)) h1
    obtain ⟨h'', st', hre'⟩ := ih (fun e he => hd e (by simp [he])) (st.term hterm)
      (old_mono hρ st.fresh) (hst.mono hρ st.agree) h2
    exact ⟨h'', st.trans st', fun K j U hv hfit hc => .cons (hre K j U hv (hfit.back st') hc) (hre' K j U hv hfit hc)⟩

/-- The items of a sized list. -/
theorem sized_step (hP : Domain P reg ds) (hrec : Back x P ds reg le M M' rec) {g : Option IRes} {env : Env IRes}
    {σ : Subst Term} (htot : Total σ) {is : List (ItemLayout Term)} {vs : List (TypedValue Term)}
    (hcl : ∀ i ∈ is, i.Closed (env.flat.length + i.intro)) (hf : ∀ i ∈ is, FormatOk reg i.value)
    (hm : List.Forall₂ (fun (item : ItemLayout Term) v => ∃ σ',
        UniqueMatch ds (σ ++ List.replicate item.intro none) (inGraph none item.dataset) σ' ∧
        SubMeaning M none item.value σ' v) is vs)
    (hd : ∀ v ∈ vs, WellDecided reg v) {h : IRes → Term} (hterm : ∀ t, h (.term t) = t)
    {s s' : DeState} (hρ : ∀ r ∈ env.flat, Old s.fresh r) (hst : Stands P h env.flat σ)
    (hrun : sizedItems rec g env (TypedValue.untypeList vs) is s = (.ok (), s')) : ∃ h', Step x P ds h s h' s' ∧
      ∀ K (j : Nat) U, View reg x le ds K U → Fits K U h' s' → Covers U env.flat σ →
        List.Forall₂ (fun (item : ItemLayout Term) v => ∃ σ',
          UniqueMatch K.ds (σ ++ List.replicate item.intro none) (inGraph none item.dataset) σ' ∧
          SubMeaning (M' K j) none item.value σ' v) is vs := by
  induction hm generalizing h s with
  | nil =>
    simp only [TypedValue.untypeList, sizedItems, DeM.pure, Prod.mk.injEq, true_and] at hrun
    subst hrun
    exact ⟨h, Step.refl h s, fun _ _ _ _ _ _ => .nil⟩
  | @cons i v is vs hi _ ih =>
    rw [TypedValue.untypeList, sizedItems_cons (hcl i (by simp)), DeM.bind_eq_ok] at hrun
    obtain ⟨⟨⟩, s1, h1, h2⟩ := hrun
    obtain ⟨τ, hmatch, hsub⟩ := hi
    obtain ⟨h', st, hre⟩ := part_step hP hrec hterm (hf i (by simp)) hρ hst htot hmatch.1 hsub (hd _ (List.mem_cons_self ..)) h1
    obtain ⟨h'', st', hre'⟩ := ih (fun e he => hcl e (by simp [he])) (fun e he => hf e (by simp [he]))
      (fun e he => hd e (by simp [he])) (st.term hterm) (old_mono hρ st.fresh) (hst.mono hρ st.agree) h2
    refine ⟨h'', st.trans st', fun K j U hv hfit hc => .cons ?_ (hre' K j U hv hfit hc)⟩
    obtain ⟨hm1, hs1⟩ := hre K j U hv (hfit.back st') hc
    exact ⟨τ, uniqueMatch_sub hv.part.ds hmatch hm1, hs1⟩

theorem scope_next (ρ : List IRes) (r : IRes) (k : Nat) (s : DeState) :
    scope (ρ ++ [r, .anon s.fresh]) k (alloc 1 s) = scope (ρ ++ [r]) (1 + k) s := by
  simp only [scope, freshList, alloc_fresh, List.append_assoc, List.cons_append, List.nil_append]
  rw [Nat.add_comm 1 k, List.range'_succ, List.map_cons]

theorem alloc_alloc (j k : Nat) (s : DeState) : alloc k (alloc j s) = alloc (j + k) s := by
  simp [alloc, Nat.add_assoc]

/-- The nodes of an ordered list. -/
theorem nodes_step (hP : Domain P reg ds) (hrec : Back x P ds reg le M M' rec) {g : Option IRes} {env : Env IRes}
    {node : ItemLayout Term} {tailPat : Pattern Term} (hb : tailPat.Below env.flat.length)
    (hcl : node.Closed (env.flat.length + 2 + node.intro)) (hf : FormatOk reg node.value)
    {σ : Subst Term} (htot : Total σ) {tail head : Term} {vs : List (TypedValue Term)}
    (hm : ChainMeaning ds M none node σ tail head vs) (hd : ∀ v ∈ vs, WellDecided reg v) (hPh : P head)
    {h : IRes → Term} (hterm : ∀ t, h (.term t) = t) {s s' : DeState} (hρ : ∀ r ∈ env.flat, Old s.fresh r)
    (hst : Stands P h env.flat σ) {headR : IRes} (hh : h headR = head) (ho : Old s.fresh headR)
    (ht : h (patInst env.flat tailPat) = tail)
    (hrun : nodes rec g env node tailPat headR (TypedValue.untypeList vs) s = (.ok (), s')) :
    ∃ h', Step x P ds h s h' s' ∧ ∀ K (j : Nat) U, View reg x le ds K U → Fits K U h' s' → Covers U env.flat σ → U headR →
      ChainMeaning K.ds (M' K j) none node σ tail head vs := by
  induction hm generalizing h s headR with
  | nil =>
    simp only [TypedValue.untypeList, nodes, DeM.pure, Prod.mk.injEq, true_and] at hrun
    subst hrun
    exact ⟨h, Step.refl h s, fun _ _ _ _ _ _ _ => .nil⟩
  | @cons head σ' v next vs hne huniq hsub hnext hrest ih =>
    rw [TypedValue.untypeList, nodes_cons hb hcl, DeM.bind_eq_ok] at hrun
    obtain ⟨⟨⟩, s1, h1, h2⟩ := hrun
    have hmatch := huniq.1
    rw [inGraph_none] at hmatch
    have hlen : σ'.length = env.flat.length + 2 + node.intro := by
      rw [hmatch.length_eq]; simp [hst.length]; omega
    have hsl := hst.length
    have h0 : ∀ y, y < env.flat.length → ∃ u, σ.get y = some u ∧ σ'.get y = some u := by
      intro y hy
      obtain ⟨u, hu⟩ := htot y (by rw [hsl]; exact hy)
      refine ⟨u, hu, hmatch.keeps y u ?_⟩
      rw [List.append_assoc, get_append_left (by rw [hsl]; exact hy)]
      exact hu
    have hhead : σ'.get env.flat.length = some head := by
      apply hmatch.keeps
      unfold Subst.get
      rw [List.append_assoc, List.getElem?_append_right (by omega), hsl]
      simp
    have hPσ : ∀ y t, σ'.get y = some t → P t := by
      apply match_P hP hmatch
      intro y t hy
      replace hy := get_append_none hy
      by_cases hlt : y < σ.length
      · rw [get_append_left hlt] at hy
        exact (hst.get y t hy).2
      · unfold Subst.get at hy
        rw [List.getElem?_append_right (by omega)] at hy
        rcases hk : y - σ.length with _ | _ | k <;> rw [hk] at hy <;> simp at hy
        subst hy
        exact hPh
    have hnext' := hnext
    rw [hsl] at hnext
    -- the part that does not depend on how the next node is obtained
    have fin : ∀ (ρ' : List IRes) (k : Nat) (nextR : IRes), (∀ r ∈ ρ', Old s.fresh r) →
        scope (env.flat ++ [headR, nextNode env.flat tailPat (TypedValue.untypeList vs) s]) node.intro
          (allocNext (TypedValue.untypeList vs) s) = scope ρ' k s →
        alloc node.intro (allocNext (TypedValue.untypeList vs) s) = alloc k s → σ'.length = ρ'.length + k →
        (∀ y t, y < ρ'.length → σ'.get y = some t → h (ρ'.getD y (.input 0)) = t) →
        nextNode env.flat tailPat (TypedValue.untypeList vs) s = (scope ρ' k s).getD (env.flat.length + 1) (.input 0) →
        (∃ τ, ρ' = env.flat ++ headR :: τ) →
        ∃ h', Step x P ds h s h' s' ∧ ∀ K (j : Nat) U, View reg x le ds K U → Fits K U h' s' → Covers U env.flat σ → U headR →
          ChainMeaning K.ds (M' K j) none node σ tail head (v :: vs) := by
      intro ρ' k _ hρ' hs ha hl hget hnx hshape
      rw [hs, ha] at h1
      rw [hnx] at h2
      obtain ⟨h', hag, hst'⟩ := intro_stands (P := P) (h := h) hρ' hl hget hPσ
      have st1 : Step x P ds h s h' (emit (scope ρ' k s) node.dataset (alloc k s)) :=
        emit_step hρ' hterm hag hst' hmatch.sat
      obtain ⟨h'', st2, hre⟩ := sub_step hP hrec (st1.term hterm) hf (old_scope hρ') hst' hsub (hd v (by simp)) h1
      have st := st1.trans st2
      obtain ⟨h''', st3, hre'⟩ := ih (fun w hw => hd w (by simp [hw])) (hPσ _ _ hnext) (st.term hterm)
        (old_mono hρ st.fresh) (hst.mono hρ st.agree)
        (headR := (scope ρ' k s).getD (env.flat.length + 1) (.input 0))
        ((st2.agree _ (old_inst (old_scope hρ') (.var (env.flat.length + 1)))).trans (hst'.get _ _ hnext).1)
        ((old_inst (old_scope hρ') (.var (env.flat.length + 1))).mono st2.fresh)
        (by rw [st.agree _ (old_inst hρ _)]; exact ht) h2
      refine ⟨h''', st.trans st3, fun K j U hv hfit hc hU => ?_⟩
      have hfit2 := hfit.back st3
      obtain ⟨hm1, hc1⟩ := (hfit2.back st2).entered hρ' (st1.term hterm) hst' hmatch
      have hc1 := hc1 (by
        intro y t hy
        replace hy := get_append_none hy
        obtain ⟨τ, rfl⟩ := hshape
        by_cases hlt : y < σ.length
        · rw [get_append_left hlt] at hy
          rw [scope_getD_old (by rw [List.length_append]; omega), List.getD_eq_getElem?_getD,
            List.getElem?_append_left (by omega), ← List.getD_eq_getElem?_getD]
          exact hc y t hy
        · unfold Subst.get at hy
          rw [List.getElem?_append_right (by omega)] at hy
          rcases hk : y - σ.length with _ | _ | k <;> rw [hk] at hy <;> simp at hy
          obtain rfl : y = env.flat.length := by omega
          rw [scope_getD_old (by rw [List.length_append, List.length_cons]; omega), List.getD_eq_getElem?_getD,
            List.getElem?_append_right (by omega)]
          simpa using hU)
      exact .cons hne (uniqueMatch_sub hv.part.ds huniq (by rw [inGraph_none]; exact hm1)) (hre K j U hv hfit2 hc1) hnext'
        (hre' K j U hv hfit hc (hc1 _ _ hnext))
    cases vs with
    | nil =>
      cases hrest
      refine fin (env.flat ++ [headR, patInst env.flat tailPat]) node.intro headR ?_ rfl rfl (by simp [hlen]) ?_ ?_ ⟨_, rfl⟩
      · intro r hr
        rcases List.mem_append.1 hr with hr | hr
        · exact hρ r hr
        · simp only [List.mem_cons, List.not_mem_nil, or_false] at hr
          rcases hr with rfl | rfl
          · exact ho
          · exact old_inst hρ _
      · intro y t hy hget
        simp only [List.length_append, List.length_cons, List.length_nil] at hy
        rw [List.getD_eq_getElem?_getD]
        by_cases hlt : y < env.flat.length
        · obtain ⟨u, hu, hu'⟩ := h0 y hlt
          rw [hget] at hu'
          obtain rfl := Option.some.inj hu'
          rw [List.getElem?_append_left hlt, ← List.getD_eq_getElem?_getD]
          exact (hst.get y t hu).1
        · rw [List.getElem?_append_right (by omega)]
          obtain rfl | rfl : y = env.flat.length ∨ y = env.flat.length + 1 := by omega
          · rw [hhead] at hget
            obtain rfl := Option.some.inj hget
            simp [hh]
          · rw [hnext] at hget
            obtain rfl := Option.some.inj hget
            simp [ht]
      · rw [scope_getD_old (by simp), List.getD_eq_getElem?_getD, List.getElem?_append_right (by omega)]
        simp [nextNode, TypedValue.untypeList]
    | cons w ws =>
      refine fin (env.flat ++ [headR]) (1 + node.intro) headR ?_ (scope_next ..) (alloc_alloc ..) (by simp [hlen]; omega) ?_ ?_
        ⟨_, rfl⟩
      · intro r hr
        rcases List.mem_append.1 hr with hr | hr
        · exact hρ r hr
        · simp only [List.mem_cons, List.not_mem_nil, or_false] at hr
          subst hr
          exact ho
      · intro y t hy hget
        simp only [List.length_append, List.length_cons, List.length_nil] at hy
        rw [List.getD_eq_getElem?_getD]
        by_cases hlt : y < env.flat.length
        · obtain ⟨u, hu, hu'⟩ := h0 y hlt
          rw [hget] at hu'
          obtain rfl := Option.some.inj hu'
          rw [List.getElem?_append_left hlt, ← List.getD_eq_getElem?_getD]
          exact (hst.get y t hu).1
        · rw [List.getElem?_append_right (by omega)]
          obtain rfl : y = env.flat.length := by omega
          rw [hhead] at hget
          obtain rfl := Option.some.inj hget
          simp [hh]
      · have := scope_getD_new (ρ := env.flat ++ [headR]) (k := 1 + node.intro) (i := 0) (s := s) (by omega)
        rw [List.length_append, List.length_singleton, Nat.add_zero, Nat.add_zero] at this
        rw [this]
        simp [nextNode, TypedValue.untypeList]


/-- Variants that decline the value are passed over. -/
theorem variants_skip {c : DeCtx} (hcl : c.reg.Closed) {n : Nat} {g : Option IRes} {env : Env IRes} {v : Value}
    {vs rest : List (Variant Term)} {sel : Option (List (Quad IRes))}
    (hb : ∀ y ∈ vs, PatsBelow (env.flat.length + y.intro) y.dataset ∧ y.value.Below (env.flat.length + y.intro))
    (hd : ∀ y ∈ vs, Declines c.reg y.value.layout v) {s s' : DeState}
    (hrun : variants (dehydrateWith c n) g env v (vs ++ rest) sel s = (.ok (), s')) :
    ∃ k, variants (dehydrateWith c n) g env v rest sel (alloc k s) = (.ok (), s') := by
  induction vs generalizing s with
  | nil => exact ⟨0, hrun⟩
  | cons y vs ih =>
    rw [List.cons_append, variants_cons (hb y (by simp)).1 (hb y (by simp)).2] at hrun
    obtain ⟨h1, k, h2⟩ := declines hcl (hd y (by simp)) n (graphInst (scope env.flat y.intro s) g y.value.graph)
      (y.value.input.map (patInst (scope env.flat y.intro s))) (alloc y.intro s)
    change (∀ a, (call (dehydrateWith c n) g y.value (scope env.flat y.intro s) v (alloc y.intro s)).1 ≠ .ok a) at h1
    change (call (dehydrateWith c n) g y.value (scope env.flat y.intro s) v (alloc y.intro s)).2 = _ at h2
    rcases hx : call (dehydrateWith c n) g y.value (scope env.flat y.intro s) v (alloc y.intro s) with ⟨a | e | _ | _, s1⟩ <;>
      rw [hx] at hrun h1 h2 <;> simp only at hrun h1 h2
    · exact absurd rfl (h1 a)
    · subst h2
      obtain ⟨k', h'⟩ := ih (fun z hz => hb z (by simp [hz])) (fun z hz => hd z (by simp [hz])) hrun
      rw [alloc_alloc, alloc_alloc] at h'
      exact ⟨_, h'⟩
    · exact nomatch hrun
    · exact nomatch hrun

theorem alloc_step (h : IRes → Term) (k : Nat) (s : DeState) : Step x P ds h s h (alloc k s) :=
  ⟨fun _ _ => rfl, Nat.le_add_right _ _, fun _ hq => .inl hq, fun _ he => .inl he, fun _ hq => hq, fun _ he => he⟩

/-- The selected variant of a sum. -/
theorem variants_step {c : DeCtx} (hP : Domain P c.reg ds) (hcl : c.reg.Closed) {n : Nat}
    (hrec : Back x P ds c.reg le M M' (dehydrateWith c n)) {g : Option IRes} {env : Env IRes} {v : TypedValue Term}
    {before after : List (Variant Term)} {y : Variant Term}
    (hb : ∀ z ∈ before ++ y :: after, PatsBelow (env.flat.length + z.intro) z.dataset ∧
      z.value.Below (env.flat.length + z.intro))
    (hde : ∀ z ∈ before ++ after, Declines c.reg z.value.layout v.untype) (hf : FormatOk c.reg y.value) {σ : Subst Term}
    (htot : Total σ) (hm : VariantMeaning ds M none σ y v) (hd : WellDecided c.reg v) {h : IRes → Term}
    (hterm : ∀ t, h (.term t) = t) {s s' : DeState} (hρ : ∀ r ∈ env.flat, Old s.fresh r) (hst : Stands P h env.flat σ)
    (hrun : variants (dehydrateWith c n) g env v.untype (before ++ y :: after) none s = (.ok (), s')) :
    ∃ h', Step x P ds h s h' s' ∧ ∀ K (j : Nat) U, View c.reg x le ds K U → Fits K U h' s' → Covers U env.flat σ →
      VariantMeaning K.ds (M' K j) none σ y v := by
  obtain ⟨k, hrun⟩ := variants_skip hcl (fun z hz => hb z (by simp [hz])) (fun z hz => hde z (by simp [hz])) hrun
  have st0 : Step x P ds h s h (alloc k s) := alloc_step h k s
  replace hρ := old_mono hρ st0.fresh
  generalize alloc k s = s0 at hrun st0 hρ
  rw [variants_cons (hb y (by simp)).1 (hb y (by simp)).2] at hrun
  obtain ⟨σ', huniq, hsub⟩ := hm
  have hmatch := huniq.1
  rw [inGraph_none] at hmatch
  have hba : ∀ z ∈ after, PatsBelow (env.flat.length + z.intro) z.dataset ∧ z.value.Below (env.flat.length + z.intro) :=
    fun z hz => hb z (by simp [hz])
  have hda : ∀ z ∈ after, Declines c.reg z.value.layout v.untype := fun z hz => hde z (by simp [hz])
  rcases hx : call (dehydrateWith c n) g y.value (scope env.flat y.intro s0) v.untype (alloc y.intro s0) with
    ⟨a | e | _ | _, s1⟩ <;> rw [hx] at hrun <;> simp only at hrun
  · rw [← List.append_nil after] at hrun
    obtain ⟨k', hrun⟩ := variants_skip hcl hba hda hrun
    simp only [variants, DeM.modify, Prod.mk.injEq, true_and] at hrun
    obtain ⟨h1, st1, hst1⟩ := enter (x := x) hP hterm hρ hst htot hmatch
    have st1' : Step x P ds h s0 h1 (alloc y.intro s0) :=
      ⟨st1.agree, Nat.le_add_right _ _, fun _ hq => .inl hq, fun _ he => .inl he, fun _ hq => hq, fun _ he => he⟩
    obtain ⟨h2, st2, hre⟩ := sub_step hP hrec (st1'.term hterm) hf (old_scope hρ) hst1 hsub hd hx
    have st3 : Step x P ds h2 s1 h2 (alloc k' s1) := alloc_step h2 k' s1
    have st := (st0.trans st1').trans (st2.trans st3)
    have st4 : Step x P ds h2 s1 h2 s' := by
      refine ⟨fun _ _ => rfl, by rw [← hrun]; exact st3.fresh, fun q hq => ?_, fun e he => .inl ?_, fun q hq => ?_,
        fun e he => ?_⟩
      rotate_left
      · rw [← hrun] at he; exact he
      · rw [← hrun]; simp only [mem_foldl_insertQuad]; exact .inl hq
      · rw [← hrun]; exact he
      rw [← hrun] at hq ⊢
      simp only [mem_foldl_insertQuad] at hq
      rcases hq with hq | hq
      · exact .inl hq
      · obtain ⟨p, hp, rfl⟩ := List.mem_map.1 hq
        obtain ⟨q, hq, hden⟩ := hmatch.sat p hp
        have hρ' := old_scope (k := y.intro) hρ
        refine .inr ⟨Uses.mono (old_quad hρ' p) fun r hr => hr.mono (st2.trans st3).fresh, ?_⟩
        rw [(hst1.mono hρ' st2.agree).quad ((st2.term (st1'.term hterm))) hden]
        exact hq
    refine ⟨h2, (st0.trans st1').trans (st2.trans st4), fun K j U hv hfit hc => ?_⟩
    have hout : ∀ p ∈ y.dataset, quadInst (scope env.flat y.intro s0) p ∈ s'.out := by
      intro p hp
      rw [← hrun]
      simp only [mem_foldl_insertQuad]
      exact .inr (List.mem_map.2 ⟨p, hp, rfl⟩)
    have hρ' : ∀ r ∈ scope env.flat y.intro s0, Old s'.fresh r :=
      old_mono (old_scope (k := y.intro) hρ) (st2.trans st4).fresh
    have hm1 := hfit.isMatch hρ' (st2.term (st1'.term hterm)) (hst1.mono (old_scope hρ) st2.agree) hmatch hout
    exact ⟨σ', uniqueMatch_sub hv.part.ds huniq (by rw [inGraph_none]; exact hm1), hre K j U hv (hfit.back st4)
      (hfit.covers hmatch hout (covers_scope hst.length hc _ _))⟩
  · rw [← List.append_nil after] at hrun
    obtain ⟨k', hrun⟩ := variants_skip hcl hba hda hrun
    exact nomatch hrun
  · exact nomatch hrun
  · exact nomatch hrun

theorem assign_step {h : IRes → Term} {r : IRes} {t : Term} {s s' : DeState} (ho : Old s.fresh r) (hp : P (h r))
    (hw : WrittenAs x (h r) t) (hrun : assign r t s = (.ok (), s')) : Step x P ds h s h s' := by
  obtain ⟨h1, h2, h3⟩ := mem_assign hrun
  refine ⟨fun _ _ => rfl, by rw [h2], fun q hq => .inl (by rw [← h1]; exact hq), fun e he => ?_,
    fun q hq => by rw [h1]; exact hq, fun e he => (h3 e).2 (.inl he)⟩
  rcases (h3 e).1 he with he | rfl
  · exact .inl he
  · exact .inr ⟨by rw [h2]; exact ho, hp, hw⟩

theorem literal_of_filter {l : DataLayout Term} {le : TypedValue Term → TypedValue Term → Bool} {r : Term} {lit : RdfLit} {i : String}
    (hl : ((HyCtx.ofTerms reg x le ds).literalsOf r).filter (fun lit =>
      ((HyCtx.ofTerms reg x le ds).irisOf l.datatype).any fun j => lit.type == .any j) = [lit]) (ht : lit.type = .any i) :
    r = .literal ⟨lit.value, .any i⟩ ∧ l.datatype = .iri i := by
  have hmem : lit ∈ ((HyCtx.ofTerms reg x le ds).literalsOf r).filter (fun lit =>
      ((HyCtx.ofTerms reg x le ds).irisOf l.datatype).any fun j => lit.type == .any j) := by rw [hl]; simp
  rw [List.mem_filter] at hmem
  obtain ⟨h1, h2⟩ := hmem
  constructor
  · cases r <;> simp only [HyCtx.ofTerms, List.not_mem_nil, List.mem_singleton] at h1
    subst h1
    obtain ⟨v, t⟩ := lit
    simp only at ht
    subst ht
    rfl
  · rw [List.any_eq_true] at h2
    obtain ⟨j, hj, h2⟩ := h2
    rw [ht] at h2
    have hij : i = j := by simpa using h2
    subst hij
    cases hd : l.datatype <;> rw [hd] at hj <;> simp only [HyCtx.ofTerms, List.not_mem_nil, List.mem_singleton] at hj
    rw [hj]

/-- Literals. -/
theorem data_step {α : Type} (hP : Domain P reg ds)
    {parse : String → String → Out (HyError Term) α} {l : DataLayout Term} {ins : List Term} {a : α}
    (hm : DataMeaning (HyCtx.ofTerms reg x le ds) parse none l ins a) {dins : List IRes} {h : IRes → Term}
    (hcl : PatsBelow (1 + l.intro) l.dataset) (hclr : l.resource.Below (1 + l.intro)) (hone : dins.length = 1)
    (hconst : ∀ t, l.resource = .res t → reg.HasConstant t) (hdata : reg.HasConstant l.datatype) (hterm : ∀ t, h (.term t) = t) (hins : dins.map h = ins)
    (hPi : ∀ t ∈ ins, P t) {s s' : DeState} (hρ : ∀ r ∈ dins, Old s.fresh r) {lit : List String → Out DeError RdfLit}
    (hlit : ∀ text i rest r, parse text i = .ok a → lit (i :: rest) = .ok r →
      WrittenAs x (.literal ⟨text, .any i⟩) (.literal r))
    (hrun : data dins l lit s = (.ok (), s')) : ∃ h', Step x P ds h s h' s' ∧
      ∀ K (j : Nat) U, View reg x le ds K U → Fits K U h' s' → (∀ r ∈ dins, U r) → ∀ parse' : String → String → Out (HyError Term) α,
        (∀ text i rest r, parse text i = .ok a → lit (i :: rest) = .ok r → r.type = .any i ∧ parse' r.value i = .ok a) →
        DataMeaning K parse' none l ins a := by
  obtain ⟨σ, r, tl, i, huniq, hden, hfil, htype, hparse⟩ := hm
  have hmatch := huniq.1
  rw [inGraph_none] at hmatch
  obtain ⟨rfl, hdt⟩ := literal_of_filter hfil htype
  rw [data_eq (by rw [hone]; exact hcl) (by rw [hone]; exact hclr), DeM.bind_eq_ok] at hrun
  obtain ⟨w, s1, h1, h2⟩ := hrun
  rw [DeM.read_eq_ok] at h1
  obtain ⟨h1, rfl⟩ := h1
  obtain ⟨h', st, hst⟩ := enter (x := x) hP hterm hρ (stands_inputs hins hPi) (total_inputs ins) hmatch
  have hr := hst.inst (st.term hterm) hden
  rw [hdt] at h1
  have st' := assign_step (x := x) (P := P) (ds := ds) (h := h') (old_inst (old_scope hρ) l.resource) (by
    rw [hr]
    cases hres : l.resource with
    | res t => rw [hres] at hden; cases hden; exact hP.constants _ (hconst _ hres)
    | var y => rw [hres] at hden; exact (hst.get y _ hden).2) (by rw [hr]; exact hlit _ _ _ _ hparse h1) h2
  refine ⟨h', st.trans st', fun K j U hv hfit hU parse' hp' => ?_⟩
  have hfit1 := hfit.back st'
  obtain ⟨hm1, hc1⟩ := hfit1.entered hρ (st.term hterm) hst hmatch
  have hc1 := hc1 (covers_scope (by rw [← hins]; simp) (covers_inputs hins hU) _ _)
  obtain ⟨ht', hp'⟩ := hp' _ _ _ _ hparse h1
  obtain ⟨_, hf2, hmem⟩ := mem_assign h2
  obtain ⟨_, hl2⟩ := hfit.terms _ ((hmem _).2 (.inr rfl)) (by rw [hf2]; exact old_inst (old_scope hρ) _)
    (hc1.inst hden fun t ht => hv.const t (hconst t ht))
  rw [hr] at hl2
  have hi : K.irisOf l.datatype = [i] := by rw [hv.iris _ hdata, hdt]; rfl
  refine ⟨σ, _, _, i, uniqueMatch_sub hv.part.ds huniq (by rw [inGraph_none]; exact hm1), hden, ?_, ht', hp'⟩
  rw [hl2, hi]
  simp [Term.ownLiterals, ht']

end Verif.Reproduce
