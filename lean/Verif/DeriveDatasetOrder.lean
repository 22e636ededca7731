import Verif.DeriveTotal

/-!
# Derived deserialization and the order of the dataset

Helper lemmas for C97: what derived code reads is the same with another enumeration of the same quads, up to the order of unordered
lists. No further code is modelled.
-/

set_option linter.unusedSectionVars false
set_option linter.unusedSimpArgs false

namespace Verif.Derived

variable {R : Type} [DecidableEq R]

variable {c : DsCtx R} {ds' : List (Quad R)} (hds : c.ds.Nodup) (hds' : ds'.Nodup) (hset : ∀ q, q ∈ c.ds ↔ q ∈ ds')

include hds hds' hset

theorem requiredMatch_reorder {σ : Subst R} {pats : List (QuadPat R)} {g : Option R} (hd : Declared σ (withDefaultGraph pats g))
    {τ : Subst R} (h : requiredMatch c σ pats g = .ok τ) : requiredMatch { c with ds := ds' } σ pats g = .ok τ := by
  obtain ⟨h1, h2⟩ := (requiredMatch_eq_ok c hds _ _ g hd τ).1 h
  exact (requiredMatch_eq_ok { c with ds := ds' } hds' _ _ g hd τ).2 ⟨h1, (uniqueMatch_congr hset _ _ _).1 h2⟩

theorem uniqueMatch_reorder {σ : Subst R} {pats : List (QuadPat R)} {g : Option R} (hd : Declared σ (withDefaultGraph pats g))
    {o : Option (Subst R)} (h : uniqueMatch c σ pats g = .ok o) : uniqueMatch { c with ds := ds' } σ pats g = .ok o := by
  cases o with
  | some τ =>
    obtain ⟨h1, h2⟩ := (uniqueMatch_eq_some c hds _ _ g hd τ).1 h
    exact (uniqueMatch_eq_some { c with ds := ds' } hds' _ _ g hd τ).2 ⟨h1, (uniqueMatch_congr hset _ _ _).1 h2⟩
  | none =>
    obtain ⟨h1, h2⟩ := (uniqueMatch_eq_none c hds _ _ g hd).1 h
    exact (uniqueMatch_eq_none { c with ds := ds' } hds' _ _ g hd).2 ⟨h1, fun τ hτ => h2 τ ((isMatch_congr hset _ _ _).2 hτ)⟩

theorem data_reorder {g : Option R} {ref : R} {l : DataLayout R} {inputs : List R} (hi : inputs.length = 1)
    (hc : PatsBelow (1 + l.intro) l.dataset) {v : TypedValue R} (h : data c g ref l inputs = .ok v) :
    data { c with ds := ds' } g ref l inputs = .ok v := by
  have hd : Declared ((Subst.fromInputs inputs).intro l.intro) (withDefaultGraph l.dataset g) :=
    Hydrate.declared_ext (σ := []) hc (by simp [Subst.fromInputs, hi])
  unfold data at h ⊢
  obtain ⟨σ, h1, h2⟩ := Out.bind_eq_ok.1 h
  rw [requiredMatch_reorder hds hds' hset hd h1]
  exact h2

/-- What is read by `rec` in the layout of the format is read by `rec'`. -/
def FormatAlike (reg : Registry R) (rec rec' : Rec R) (f : ValueFormat R) : Prop :=
  ∀ g i v, i.length = f.input.length → rec g f.layout i = .ok v → ∃ w, rec' g f.layout i = .ok w ∧ UpToOrder reg v w

variable {rec rec' : Rec R}

omit hds hds' hset in
theorem sub_reorder {f : ValueFormat R} (hf : FormatAlike c.reg rec rec' f) {g : Option R} {σ : Subst R} {v : TypedValue R}
    (h : subValue c rec g f σ = .ok v) : ∃ w, subValue { c with ds := ds' } rec' g f σ = .ok w ∧ UpToOrder c.reg v w := by
  obtain ⟨hk, ins, g', h1, h2, h3⟩ := (subValue_eq_ok ..).1 h
  obtain ⟨w, hw, hu⟩ := hf g' ins v h1.length_eq.symm h3
  exact ⟨w, (subValue_eq_ok ..).2 ⟨hk, ins, g', h1, h2, hw⟩, hu⟩

theorem readFields_reorder {g : Option R} {σ : Subst R} {fs : List (Value × Field R)}
    (hc : ∀ e ∈ fs, PatsBelow (σ.length + e.2.intro) e.2.dataset) (hf : ∀ e ∈ fs, FormatAlike c.reg rec rec' e.2.value)
    {os : List (Option (TypedValue R))} (h : readFields c rec g σ fs = .ok os) :
    ∃ os', readFields { c with ds := ds' } rec' g σ fs = .ok os' ∧ List.Forall₂ (Option.Rel (UpToOrder c.reg)) os os' := by
  induction fs generalizing os with
  | nil => obtain rfl := Out.ok.inj h; exact ⟨[], rfl, .nil⟩
  | cons e fs ih =>
    obtain ⟨key, field⟩ := e
    have ih := fun {os} => ih (os := os) (fun e he => hc e (List.mem_cons_of_mem _ he)) (fun e he => hf e (List.mem_cons_of_mem _ he))
    have hd : Declared (σ.intro field.intro) (withDefaultGraph field.dataset g) :=
      Hydrate.declared_ext (σ := σ) (hc (key, field) (by simp)) (Nat.le_refl _)
    simp only [readFields] at h ⊢
    obtain ⟨o, h1, h2⟩ := Out.bind_eq_ok.1 h
    rw [uniqueMatch_reorder hds hds' hset hd h1, Out.bind_ok]
    cases o with
    | some σ' =>
      dsimp only at h2 ⊢
      obtain ⟨v, h3, h4⟩ := Out.bind_eq_ok.1 h2
      obtain ⟨r, h5, h6⟩ := Out.bind_eq_ok.1 h4
      obtain rfl := Out.ok.inj h6
      obtain ⟨w, hw, hu⟩ := sub_reorder (ds' := ds') (hf (key, field) (by simp)) h3
      obtain ⟨r', hr', hu'⟩ := ih h5
      exact ⟨some w :: r', by rw [hw, Out.bind_ok, hr', Out.bind_ok], .cons (.some hu) hu'⟩
    | none =>
      dsimp only at h2 ⊢
      obtain ⟨r, h5, h6⟩ := Out.bind_eq_ok.1 h2
      obtain rfl := Out.ok.inj h6
      obtain ⟨r', hr', hu'⟩ := ih h5
      exact ⟨none :: r', by rw [hr', Out.bind_ok], .cons .none hu'⟩

omit hds hds' hset in
theorem unwrapFields_reorder {fs : List (Value × Field R)} {os os' : List (Option (TypedValue R))}
    (h : List.Forall₂ (Option.Rel (UpToOrder c.reg)) os os') {m : List (Value × TypedValue R)} (hm : unwrapFields fs os = .ok m) :
    ∃ m', unwrapFields fs os' = .ok m' ∧ List.Forall₂ (fun a b => a.1 = b.1 ∧ UpToOrder c.reg a.2 b.2) m m' := by
  induction h generalizing fs m with
  | nil =>
    simp only [unwrapFields] at hm ⊢
    obtain rfl := Out.ok.inj hm
    exact ⟨[], rfl, .nil⟩
  | @cons o o' os os' h1 _ ih =>
    rcases fs with _ | ⟨⟨key, field⟩, fs⟩
    · simp only [unwrapFields] at hm ⊢
      obtain rfl := Out.ok.inj hm
      exact ⟨[], rfl, .nil⟩
    · cases h1 with
      | @some v w hu =>
        simp only [unwrapFields] at hm ⊢
        obtain ⟨r, h2, h3⟩ := Out.bind_eq_ok.1 hm
        obtain rfl := Out.ok.inj h3
        obtain ⟨r', hr', hu'⟩ := ih h2
        exact ⟨(key, w) :: r', by rw [hr', Out.bind_ok], .cons ⟨rfl, hu⟩ hu'⟩
      | none =>
        simp only [unwrapFields] at hm ⊢
        split at hm
        · exact nomatch hm
        · rename_i hr
          rw [if_neg hr]
          exact ih hm

theorem variants_reorder {g : Option R} {ref : R} {σ : Subst R} {vs : List (Variant R)}
    (hc : ∀ x ∈ vs, PatsBelow (σ.length + x.intro) x.dataset) (hf : ∀ x ∈ vs, FormatAlike c.reg rec rec' x.value) {i : Nat}
    {result result' : Option (TypedValue R)} (hres : Option.Rel (UpToOrder c.reg) result result') {v : TypedValue R}
    (h : variants c rec g ref σ i vs result = .ok v) :
    ∃ w, variants { c with ds := ds' } rec' g ref σ i vs result' = .ok w ∧ UpToOrder c.reg v w := by
  induction vs generalizing i result result' with
  | nil =>
    cases hres with
    | @some a b hu =>
      simp only [variants] at h ⊢
      obtain rfl := Out.ok.inj h
      exact ⟨_, rfl, hu⟩
    | none => simp only [variants] at h; exact nomatch h
  | cons x vs ih =>
    have ih := fun {i result result'} => ih (i := i) (result := result) (result' := result')
      (fun e he => hc e (List.mem_cons_of_mem _ he)) (fun e he => hf e (List.mem_cons_of_mem _ he))
    have hd : Declared (σ.intro x.intro) (withDefaultGraph x.dataset g) :=
      Hydrate.declared_ext (σ := σ) (hc x (by simp)) (Nat.le_refl _)
    simp only [variants] at h ⊢
    obtain ⟨o, h1, h2⟩ := Out.bind_eq_ok.1 h
    rw [uniqueMatch_reorder hds hds' hset hd h1, Out.bind_ok]
    cases o with
    | some σ' =>
      dsimp only at h2 ⊢
      obtain ⟨a, h3, h4⟩ := Out.bind_eq_ok.1 h2
      obtain ⟨w, hw, hu⟩ := sub_reorder (ds' := ds') (hf x (by simp)) h3
      rw [hw, Out.bind_ok]
      cases hres with
      | some _ => simp only [Option.isSome_some, if_true] at h4; exact nomatch h4
      | none =>
        simp only [Option.isSome_none, Bool.false_eq_true, if_false] at h4 ⊢
        exact ih (.some (.variant hu)) h4
    | none => exact ih hres h2

theorem nodes_reorder {g : Option R} {node : ItemLayout R} {σ : Subst R} {tail : R}
    (hc : PatsBelow (σ.length + 2 + node.intro) node.dataset) (hf : FormatAlike c.reg rec rec' node.value) {n : Nat} {head : R}
    {vs : List (TypedValue R)} (h : nodes c rec g node σ tail n head = .ok vs) :
    ∃ ws, nodes { c with ds := ds' } rec' g node σ tail n head = .ok ws ∧ List.Forall₂ (UpToOrder c.reg) vs ws := by
  have hd : ∀ head, Declared ((Subst.push σ (some head)).intro (1 + node.intro)) (withDefaultGraph node.dataset g) := fun head =>
    Hydrate.declared_ext (σ := Subst.push σ (some head)) hc (by simp [Subst.push]; omega)
  induction n generalizing head vs with
  | zero =>
    unfold nodes at h ⊢
    split at h
    · rename_i ht
      rw [if_pos ht]
      obtain rfl := Out.ok.inj h
      exact ⟨[], rfl, .nil⟩
    · exact nomatch h
  | succ n ih =>
    unfold nodes at h ⊢
    split at h
    · rename_i ht
      rw [if_pos ht]
      obtain rfl := Out.ok.inj h
      exact ⟨[], rfl, .nil⟩
    · rename_i ht
      rw [if_neg ht]
      dsimp only at h ⊢
      obtain ⟨σ', h1, h2⟩ := Out.bind_eq_ok.1 h
      obtain ⟨v, h3, h4⟩ := Out.bind_eq_ok.1 h2
      obtain ⟨head', h5, h6⟩ := Out.bind_eq_ok.1 h4
      obtain ⟨r, h7, h8⟩ := Out.bind_eq_ok.1 h6
      obtain rfl := Out.ok.inj h8
      obtain ⟨w, hw, hu⟩ := sub_reorder (ds' := ds') hf h3
      obtain ⟨r', hr', hu'⟩ := ih h7
      exact ⟨w :: r', by rw [requiredMatch_reorder hds hds' hset (hd head) h1, Out.bind_ok, hw, Out.bind_ok, h5, Out.bind_ok, hr',
        Out.bind_ok], .cons hu hu'⟩

theorem sized_reorder {g : Option R} {σ : Subst R} {is : List (ItemLayout R)}
    (hc : ∀ e ∈ is, PatsBelow (σ.length + e.intro) e.dataset) (hf : ∀ e ∈ is, FormatAlike c.reg rec rec' e.value)
    {vs : List (TypedValue R)} (h : sizedItems c rec g σ is = .ok vs) :
    ∃ ws, sizedItems { c with ds := ds' } rec' g σ is = .ok ws ∧ List.Forall₂ (UpToOrder c.reg) vs ws := by
  induction is generalizing vs with
  | nil => obtain rfl := Out.ok.inj h; exact ⟨[], rfl, .nil⟩
  | cons item is ih =>
    have ih := fun {vs} => ih (vs := vs) (fun e he => hc e (List.mem_cons_of_mem _ he)) (fun e he => hf e (List.mem_cons_of_mem _ he))
    have hd : Declared (σ.intro item.intro) (withDefaultGraph item.dataset g) :=
      Hydrate.declared_ext (σ := σ) (hc item (by simp)) (Nat.le_refl _)
    simp only [sizedItems] at h ⊢
    obtain ⟨σ', h1, h2⟩ := Out.bind_eq_ok.1 h
    obtain ⟨v, h3, h4⟩ := Out.bind_eq_ok.1 h2
    obtain ⟨r, h5, h6⟩ := Out.bind_eq_ok.1 h4
    obtain rfl := Out.ok.inj h6
    obtain ⟨w, hw, hu⟩ := sub_reorder (ds' := ds') (hf item (by simp)) h3
    obtain ⟨r', hr', hu'⟩ := ih h5
    exact ⟨w :: r', by rw [requiredMatch_reorder hds hds' hset hd h1, Out.bind_ok, hw, Out.bind_ok, hr', Out.bind_ok], .cons hu hu'⟩

omit hds hds' hset in
theorem items_reorder {f : ValueFormat R} (hf : FormatAlike c.reg rec rec' f) {g : Option R} {σs : List (Subst R)}
    {vs : List (TypedValue R)} (h : List.Forall₂ (fun τ v => subValue c rec g f τ = .ok v) σs vs) :
    ∃ ws, List.Forall₂ (fun τ w => subValue { c with ds := ds' } rec' g f τ = .ok w) σs ws ∧
      List.Forall₂ (UpToOrder c.reg) vs ws := by
  induction h with
  | nil => exact ⟨[], .nil, .nil⟩
  | cons h1 _ ih =>
    obtain ⟨ws, h2, h3⟩ := ih
    obtain ⟨w, hw, hu⟩ := sub_reorder (ds' := ds') hf h1
    exact ⟨w :: ws, .cons hw h2, .cons hu h3⟩

theorem layout_reorder (hreg : c.reg.Closed) {n : Nat} {g : Option R} {ref : R} {inputs : List R} {l : Layout R}
    (hr : c.reg ref = some l) (hi : ∀ k, l.inputCount = some k → inputs.length = k)
    (hf : ∀ f ∈ l.formats, FormatAlike c.reg rec rec' f) {v : TypedValue R} (h : layout c rec n g ref inputs l = .ok v) :
    ∃ w, layout { c with ds := ds' } rec' n g ref inputs l = .ok w ∧ UpToOrder c.reg v w := by
  have hl : l.Closed := hreg _ _ hr
  have hdecl : ∀ k m (pats : List (QuadPat R)), PatsBelow (k + m) pats → inputs.length = k →
      Declared ((Subst.fromInputs inputs).intro m) (withDefaultGraph pats g) := by
    intro k m pats hb hk
    exact Hydrate.declared_ext (σ := []) hb (by simp [Subst.fromInputs, hk])
  have hlen : ∀ k m (pats : List (QuadPat R)) σ, PatsBelow (k + m) pats → inputs.length = k →
      requiredMatch c ((Subst.fromInputs inputs).intro m) pats g = .ok σ → σ.length = k + m := by
    intro k m pats σ hb hk h
    have h := ((requiredMatch_eq_ok c hds _ _ g (hdecl _ _ _ hb hk) σ).1 h).2
    rw [h.1.length_eq]
    simp [Hydrate.length_intro, Subst.fromInputs, hk]
  have hdata : ∀ {l : DataLayout R}, inputs.length = 1 → PatsBelow (1 + l.intro) l.dataset → ∀ {v : TypedValue R},
      data c g ref l inputs = .ok v → ∃ w, data { c with ds := ds' } g ref l inputs = .ok w ∧ UpToOrder c.reg v w := by
    intro l hi hc v h
    refine ⟨v, data_reorder hds hds' hset hi hc h, ?_⟩
    unfold data at h
    obtain ⟨σ, _, h2⟩ := Out.bind_eq_ok.1 h
    obtain ⟨r, _, h4⟩ := Out.bind_eq_ok.1 h2
    obtain ⟨o, _, h6⟩ := Out.bind_eq_ok.1 h4
    cases h7 : literalResult (c.literalsOf r) o with
    | ok a => rw [h7] at h6; obtain rfl := Out.ok.inj h6; exact .literal _
    | _ => rw [h7] at h6; exact nomatch h6
  cases l with
  | never => exact nomatch h
  | always => exact nomatch h
  | unit l =>
    simp only [layout] at h ⊢
    obtain ⟨σ, h1, h2⟩ := Out.bind_eq_ok.1 h
    rw [requiredMatch_reorder hds hds' hset (hdecl _ _ _ hl (hi 1 rfl)) h1]
    obtain rfl := Out.ok.inj h2
    exact ⟨_, rfl, .literal _⟩
  | boolean l => exact hdata (hi 1 rfl) hl.1 h
  | number l => exact hdata (hi 1 rfl) hl.1 h
  | byteString l => exact hdata (hi 1 rfl) hl.1 h
  | textString l => exact hdata (hi 1 rfl) hl.1 h
  | id l =>
    simp only [layout] at h ⊢
    obtain ⟨σ, h1, h2⟩ := Out.bind_eq_ok.1 h
    obtain ⟨r, h3, h4⟩ := Out.bind_eq_ok.1 h2
    rw [requiredMatch_reorder hds hds' hset (hdecl _ _ _ hl.1 (hi 1 rfl)) h1, Out.bind_ok]
    refine ⟨v, h2, ?_⟩
    cases h5 : idValue c r with
    | ok a => rw [h5] at h4; obtain rfl := Out.ok.inj h4; exact .literal _
    | _ => rw [h5] at h4; exact nomatch h4
  | product l =>
    simp only [layout] at h ⊢
    obtain ⟨σ, h1, h2⟩ := Out.bind_eq_ok.1 h
    obtain ⟨os, h3, h4⟩ := Out.bind_eq_ok.1 h2
    obtain ⟨m, h5, h6⟩ := Out.bind_eq_ok.1 h4
    obtain rfl := Out.ok.inj h6
    obtain ⟨os', hos, hu⟩ := readFields_reorder hds hds' hset (fun e he => by
      rw [hlen _ _ _ _ hl.1 (hi _ rfl) h1]; exact (hl.2 e he).1)
      (fun e he => hf _ (List.mem_map_of_mem (f := fun e : Value × Field R => e.2.value) he)) h3
    obtain ⟨m', hm', hum⟩ := unwrapFields_reorder hu h5
    exact ⟨.map m' ref, by rw [requiredMatch_reorder hds hds' hset (hdecl _ _ _ hl.1 (hi _ rfl)) h1, Out.bind_ok, hos, Out.bind_ok,
      hm', Out.bind_ok], UpToOrder.map_of hum⟩
  | sized l =>
    simp only [layout] at h ⊢
    obtain ⟨σ, h1, h2⟩ := Out.bind_eq_ok.1 h
    obtain ⟨m, h3, h4⟩ := Out.bind_eq_ok.1 h2
    obtain rfl := Out.ok.inj h4
    obtain ⟨ws, hws, hu⟩ := sized_reorder hds hds' hset (fun e he => by
      rw [hlen _ _ _ _ hl.1 (hi _ rfl) h1]; exact (hl.2 e he).1) (fun e he => hf _ (List.mem_map_of_mem he)) h3
    exact ⟨.list ws ref, by rw [requiredMatch_reorder hds hds' hset (hdecl _ _ _ hl.1 (hi _ rfl)) h1, Out.bind_ok, hws, Out.bind_ok],
      UpToOrder.list_of hu⟩
  | ordered l =>
    simp only [layout] at h ⊢
    obtain ⟨σ, h1, h2⟩ := Out.bind_eq_ok.1 h
    obtain ⟨head, h3, h4⟩ := Out.bind_eq_ok.1 h2
    obtain ⟨tail, h5, h6⟩ := Out.bind_eq_ok.1 h4
    obtain ⟨items, h7, h8⟩ := Out.bind_eq_ok.1 h6
    obtain rfl := Out.ok.inj h8
    obtain ⟨ws, hws, hu⟩ := nodes_reorder hds hds' hset (by
      rw [hlen _ _ _ _ hl.1 (hi _ rfl) h1]; exact hl.2.2.2.1) (hf _ (by simp [Layout.formats])) h7
    have h3' : resource { c with ds := ds' } l.head σ = .ok head := h3
    have h5' : resource { c with ds := ds' } l.tail σ = .ok tail := h5
    exact ⟨.list ws ref, by rw [requiredMatch_reorder hds hds' hset (hdecl _ _ _ hl.1 (hi _ rfl)) h1, Out.bind_ok, h3', Out.bind_ok, h5',
      Out.bind_ok, hws, Out.bind_ok], UpToOrder.list_of hu⟩
  | unordered l =>
    simp only [layout] at h ⊢
    obtain ⟨σ, h1, h2⟩ := Out.bind_eq_ok.1 h
    obtain ⟨ps, h3, h4⟩ := Out.bind_eq_ok.1 h2
    obtain ⟨items, h5, h6⟩ := Out.bind_eq_ok.1 h4
    obtain rfl := Out.ok.inj h6
    obtain ⟨hk, rfl⟩ := (patterns_eq_ok c _ _).1 h3
    have h3' : patterns { c with ds := ds' } l.item.dataset = .ok l.item.dataset := h3
    have hd : Declared (σ.intro l.item.intro) (withDefaultGraph l.item.dataset g) :=
      Hydrate.declared_ext (σ := σ) hl.2.1 (by rw [hlen _ _ _ _ hl.1 (hi _ rfl) h1])
    obtain ⟨ms, hnd, hmem, heq⟩ := exists_matchings c hds rec g l.item σ hd
    obtain ⟨ms', hnd', hmem', heq'⟩ := exists_matchings { c with ds := ds' } hds' rec' g l.item σ hd
    rw [heq rec, Out.mapM'_eq_ok] at h5
    obtain ⟨z, hz, hzp⟩ : ∃ z, List.Forall₂ (fun τ v => subValue c rec g l.item.value τ = .ok v) ms' z ∧ z.Perm items := by
      refine List.perm_comp_forall₂ ?_ h5
      rw [List.perm_ext_iff_of_nodup hnd' hnd]
      intro τ
      rw [hmem, hmem', isMatch_congr hset]
    obtain ⟨ws, hws, hu⟩ := items_reorder (ds' := ds') (hf _ (by simp [Layout.formats])) hz
    refine ⟨.list ws ref, ?_, ?_⟩
    · rw [requiredMatch_reorder hds hds' hset (hdecl _ _ _ hl.1 (hi _ rfl)) h1, Out.bind_ok, h3', Out.bind_ok]
      rw [heq' rec', Out.mapM'_eq_ok.2 hws, Out.bind_ok]
    · rw [List.forall₂_iff_zip] at hu
      exact .set hr hzp hu.1 fun e he => hu.2 he
  | sum l =>
    simp only [layout] at h ⊢
    obtain ⟨σ, h1, h2⟩ := Out.bind_eq_ok.1 h
    rw [requiredMatch_reorder hds hds' hset (hdecl _ _ _ hl.1 (hi _ rfl)) h1, Out.bind_ok]
    exact variants_reorder hds hds' hset (fun e he => by
      rw [hlen _ _ _ _ hl.1 (hi _ rfl) h1]; exact (hl.2 e he).1) (fun e he => hf _ (List.mem_map_of_mem he)) .none h2

theorem deserialize_reorder (hreg : c.reg.Closed) (hwt : c.reg.WellTyped) {n : Nat} {g : Option R} {ref : R} {inputs : List R}
    (hin : Arity c ref inputs) {v : TypedValue R} (h : deserialize c n g ref inputs = .ok v) :
    ∃ w, deserialize { c with ds := ds' } n g ref inputs = .ok w ∧ UpToOrder c.reg v w := by
  induction n generalizing g ref inputs v with
  | zero => exact nomatch h
  | succ n ih =>
    unfold deserialize at h ⊢
    dsimp only at h ⊢
    cases hp : c.prim ref with
    | some p =>
      rw [hp] at h
      dsimp only at h ⊢
      obtain ⟨r, h1, h2⟩ := Out.bind_eq_ok.1 h
      refine ⟨v, ?_, ?_⟩
      · rw [h1, Out.bind_ok, ← h2]
        cases p <;> rfl
      · cases h3 : primValue c ref r p with
        | ok a => rw [h3] at h2; obtain rfl := Out.ok.inj h2; exact .literal _
        | _ => rw [h3] at h2; exact nomatch h2
    | none =>
      rw [hp] at h
      dsimp only at h ⊢
      cases hr : c.reg ref with
      | none => rw [hr] at h; exact nomatch h
      | some l =>
        rw [hr] at h
        dsimp only at h ⊢
        exact layout_reorder hds hds' hset hreg hr (fun k hk => hin l k hr hk)
          (fun f hf g i v hi h => ih (arity_format c hwt hr hf hi) h) h

end Verif.Derived
