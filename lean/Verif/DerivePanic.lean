import Verif.DeriveSound
import Verif.HydratePanic

/-! # Derived deserialization does not panic -/

set_option linter.unusedSectionVars false
set_option linter.unusedSimpArgs false

namespace Verif

variable {R : Type}

/-- The macros derive code for the layout, and each variable used by the layout to denote a resource is an input or
occurs in a pattern matched before. -/
def Layout.Derivable : Layout R → Prop
  | .never => False
  | .unit _ => True
  | .boolean l => l.resource.BoundIn (boundVars 1 l.dataset)
  | .number l => l.resource.BoundIn (boundVars 1 l.dataset)
  | .byteString l => l.resource.BoundIn (boundVars 1 l.dataset)
  | .textString l => l.resource.BoundIn (boundVars 1 l.dataset)
  | .id l => l.resource.BoundIn (boundVars 1 l.dataset)
  | .product l => ∀ e ∈ l.fields, e.2.value.BoundIn (boundVars l.input (l.dataset ++ e.2.dataset))
  | .unordered l => l.item.value.BoundIn (boundVars l.input (l.dataset ++ l.item.dataset))
  | .ordered l => l.head.BoundIn (boundVars l.input l.dataset) ∧ l.tail.BoundIn (boundVars l.input l.dataset) ∧
      l.node.value.BoundIn (fun x => boundVars l.input (l.dataset ++ l.node.dataset) x ∨ x = l.input + l.intro) ∧
      l.input + l.intro + 1 ∈ patsVars l.node.dataset
  | .sized l => ∀ i ∈ l.items, i.value.BoundIn (boundVars l.input (l.dataset ++ i.dataset))
  | .sum l => ∀ x ∈ l.variants, x.value.BoundIn (boundVars l.input (l.dataset ++ x.dataset))
  | .always => False

namespace Derived

variable [DecidableEq R] (c : DsCtx R)

theorem patterns_ne_panic (pats : List (QuadPat R)) : patterns c pats ≠ .panic := by
  unfold patterns; split <;> simp

theorem uniqueMatch_ne_panic (σ : Subst R) (pats : List (QuadPat R))
    (g : Option R) (hd : Declared σ (withDefaultGraph pats g)) : uniqueMatch c σ pats g ≠ .panic := by
  unfold uniqueMatch
  refine Out.bind_ne_panic (patterns_ne_panic c pats) fun ps hps => ?_
  rw [patterns_eq_ok] at hps
  rw [hps.2, ne_eq, Out.mapErr_eq_panic, Matching.intoUnique_eq _ _ _ hd]
  split <;> simp

theorem requiredMatch_ne_panic (σ : Subst R) (pats : List (QuadPat R))
    (g : Option R) (hd : Declared σ (withDefaultGraph pats g)) : requiredMatch c σ pats g ≠ .panic := by
  unfold requiredMatch
  refine Out.bind_ne_panic (patterns_ne_panic c pats) fun ps hps => ?_
  rw [patterns_eq_ok] at hps
  rw [hps.2, ne_eq, Out.mapErr_eq_panic, Matching.intoRequiredUnique]
  have := Matching.intoUnique_eq c.ds _ _ hd
  rw [this]
  split <;> simp_all

theorem value_ne_panic {p : Pattern R} {σ : Subst R} {B : Nat → Prop} (h : p.BoundIn B)
    (hB : ∀ x, B x → ∃ r, σ.get x = some r) : (Out.ofOption (p.value σ) : Out DsError R) ≠ .panic := by
  cases p with
  | res r => simp [Pattern.value, Pattern.apply, Pattern.intoResource]
  | var x =>
    obtain ⟨r, hr⟩ := hB x (h x (by simp [Pattern.vars]))
    simp [Pattern.value, Pattern.apply, hr, Pattern.intoResource]

theorem resource_ne_panic {p : Pattern R} {σ : Subst R} {B : Nat → Prop} (h : p.BoundIn B)
    (hB : ∀ x, B x → ∃ r, σ.get x = some r) : resource c p σ ≠ .panic := by
  unfold resource
  split
  · exact value_ne_panic h hB
  · simp

theorem subValue_ne_panic {rec : Rec R} {g : Option R} {fmt : ValueFormat R}
    (hrec : ∀ g i, i.length = fmt.input.length → rec g fmt.layout i ≠ .panic)
    {σ : Subst R} {B : Nat → Prop} (h : fmt.BoundIn B) (hB : ∀ x, B x → ∃ r, σ.get x = some r) :
    subValue c rec g fmt σ ≠ .panic := by
  unfold subValue
  refine Out.bind_ne_panic ?_ fun ins hins => Out.bind_ne_panic ?_ fun g' _ =>
    hrec _ _ ((selectInputs_eq_ok c _ _ _).1 hins).2.length_eq.symm
  · have h1 := h.1
    unfold selectInputs
    split
    · clear hrec
      revert h1
      generalize fmt.input = ps
      intro h1
      induction ps with
      | nil => simp [Out.mapM']
      | cons p ps ih =>
        simp only [List.forall_mem_cons] at h1
        exact Out.bind_ne_panic (value_ne_panic h1.1 hB) fun _ _ => Out.bind_ne_panic (ih h1.2) fun _ _ => by simp
    · simp
  · unfold selectGraph
    split
    · simp
    · simp
    · rename_i p hp
      exact Out.map_ne_panic (resource_ne_panic c (h.2 p hp) hB)

theorem scan_ne_panic {α} (parse : String → Option α) (dt : String) (ls : List RdfLit) (o : Option α) :
    scan parse dt ls o ≠ .panic := by
  induction ls generalizing o with
  | nil => simp [scan]
  | cons l ls ih =>
    unfold scan
    split
    · split
      · split
        · simp
        · exact ih _
      · exact ih _
    · exact ih _

theorem scanInt_ne_panic (parse : String → Option Int) (dt : String) (ls : List RdfLit) (o : Option Int) :
    scanInt parse dt ls o ≠ .panic := by
  induction ls generalizing o with
  | nil => simp [scanInt]
  | cons l ls ih =>
    unfold scanInt
    split
    · split
      · split
        · simp
        · exact ih _
      · simp
    · exact ih _

theorem literalResult_ne_panic {α} (ls : List RdfLit) (o : Option α) : literalResult ls o ≠ .panic := by
  cases o <;> simp [literalResult]
  split <;> simp

theorem primValue_ne_panic (ref r : R) (p : Prim) : primValue c ref r p ≠ .panic := by
  cases p with
  | id =>
    refine Out.map_ne_panic ?_
    unfold primId
    split
    · simp
    · simp
    · split <;> simp
  | string =>
    refine Out.map_ne_panic ?_
    generalize c.literalsOf r = ls
    induction ls with
    | nil => simp [primString]
    | cons l ls ih => unfold primString; split; · simp
                      exact ih
  | int dt lo hi =>
    exact Out.bind_ne_panic (scanInt_ne_panic _ _ _ _) fun _ _ => Out.map_ne_panic (literalResult_ne_panic _ _)

theorem data_ne_panic (hds : c.ds.Nodup) {g : Option R} {ref : R} {l : DataLayout R} {inputs : List R}
    (hi : inputs.length = 1) (hc : PatsBelow (1 + l.intro) l.dataset)
    (hb : l.resource.BoundIn (boundVars 1 l.dataset)) : data c g ref l inputs ≠ .panic := by
  have hd : Declared ((Subst.fromInputs inputs).intro l.intro) (withDefaultGraph l.dataset g) :=
    Hydrate.declared_ext (σ := []) hc (by simp [Subst.fromInputs, hi])
  unfold data
  refine Out.bind_ne_panic (requiredMatch_ne_panic c _ _ _ hd) fun σ hσ => ?_
  have hm := ((requiredMatch_eq_ok c hds _ _ g hd σ).1 hσ).2.1
  refine Out.bind_ne_panic (resource_ne_panic c hb fun x hx => Hydrate.IsMatch.bound hm ?_) fun r _ =>
    Out.bind_ne_panic (scan_ne_panic _ _ _ _) fun _ _ => Out.map_ne_panic (literalResult_ne_panic _ _)
  rcases hx with hx | hx
  · exact .inl (Hydrate.get_inputs (by omega))
  · exact .inr hx

theorem unwrapFields_ne_panic (fs : List (Value × Field R)) (os : List (Option (TypedValue R))) :
    unwrapFields fs os ≠ .panic := by
  induction fs generalizing os with
  | nil => cases os <;> simp [unwrapFields]
  | cons e fs ih =>
    obtain ⟨k, f⟩ := e
    rcases os with _ | ⟨_ | v, os⟩
    · simp [unwrapFields]
    · unfold unwrapFields; split; · simp
      exact ih os
    · exact Out.bind_ne_panic (ih os) fun _ _ => by simp

theorem deserialize_ne_panic (hreg : c.reg.Closed) (hwt : c.reg.WellTyped) (hds : c.ds.Nodup)
    (hder : ∀ ref l, c.reg ref = some l → c.prim ref = none → l.Derivable)
    (hprim : ∀ ref p, c.prim ref = some p → ∃ l, c.reg ref = some l ∧ l.inputCount = some 1) (n : Nat) (g : Option R)
    (ref : R) (inputs : List R) (hin : Arity c ref inputs) (hdef : (c.reg ref).isSome) :
    deserialize c n g ref inputs ≠ .panic := by
  induction n generalizing g ref inputs with
  | zero => simp [deserialize]
  | succ n ih =>
    unfold deserialize
    cases hp : c.prim ref with
    | some p =>
      obtain ⟨l, hl, h1⟩ := hprim ref p hp
      obtain ⟨r, rfl⟩ := List.length_eq_one_iff.1 (hin l 1 hl h1)
      exact Out.bind_ne_panic (by simp [Out.ofOption]) fun r _ => Out.map_ne_panic (primValue_ne_panic c _ _ _)
    | none =>
      obtain ⟨l, hl⟩ := Option.isSome_iff_exists.1 hdef
      rw [hl]
      have hcl := hreg ref l hl
      have hsl := hder ref l hl hp
      have hi : ∀ k, l.inputCount = some k → inputs.length = k := fun k hk => hin l k hl hk
      have hrec : ∀ f ∈ l.formats, ∀ g i, i.length = f.input.length → deserialize c n g f.layout i ≠ .panic := by
        intro f hf g i hlen
        obtain ⟨l', hl', -⟩ := hwt ref l hl f hf
        exact ih g f.layout i (arity_format c hwt hl hf hlen) (by simp [hl'])
      have hdecl : ∀ k m (pats : List (QuadPat R)), PatsBelow (k + m) pats → inputs.length = k →
          Declared ((Subst.fromInputs inputs).intro m) (withDefaultGraph pats g) := by
        intro k m pats h hk
        exact declared_of_below h (by simp [Hydrate.length_intro, Subst.fromInputs, hk])
      have hroot : ∀ k m (pats : List (QuadPat R)) σ, inputs.length = k → PatsBelow (k + m) pats →
          requiredMatch c ((Subst.fromInputs inputs).intro m) pats g = .ok σ →
          σ.length = k + m ∧ ∀ x, boundVars k pats x → ∃ r, σ.get x = some r := by
        intro k m pats σ hk hb hm
        have hm := ((requiredMatch_eq_ok c hds _ _ g (hdecl k m pats hb hk) σ).1 hm).2.1
        refine ⟨by rw [hm.length_eq]; simp [Hydrate.length_intro, Subst.fromInputs, hk],
          fun x hx => Hydrate.IsMatch.bound hm ?_⟩
        rcases hx with hx | hx
        · exact .inl (Hydrate.get_inputs (by omega))
        · exact .inr hx
      have hpart : ∀ k (pats pats' : List (QuadPat R)) (σ σ' : Subst R) j,
          (∀ x, boundVars k pats x → ∃ r, σ.get x = some r) →
          IsMatch c.ds (σ.intro j) (inGraph g pats') σ' →
          ∀ x, boundVars k (pats ++ pats') x → ∃ r, σ'.get x = some r := by
        intro k pats pats' σ σ' j h1 h2 x hx
        have : boundVars k pats x ∨ x ∈ patsVars pats' := by
          rcases hx with hx | hx
          · exact .inl (.inl hx)
          · simp only [patsVars, List.flatMap_append, List.mem_append] at hx
            rcases hx with hx | hx
            · exact .inl (.inr hx)
            · exact .inr hx
        refine Hydrate.IsMatch.bound h2 ?_
        rcases this with h | h
        · obtain ⟨r, hr⟩ := h1 x h
          exact .inl ⟨r, Hydrate.get_intro hr⟩
        · exact .inr h
      cases l with
      | never => exact hsl.elim
      | always => exact hsl.elim
      | unit l =>
        exact Out.bind_ne_panic (requiredMatch_ne_panic c _ _ _ (hdecl _ _ _ hcl (hi 1 rfl))) fun _ _ => by simp
      | boolean l => exact data_ne_panic c hds (hi 1 rfl) hcl.1 hsl
      | number l => exact data_ne_panic c hds (hi 1 rfl) hcl.1 hsl
      | byteString l => exact data_ne_panic c hds (hi 1 rfl) hcl.1 hsl
      | textString l => exact data_ne_panic c hds (hi 1 rfl) hcl.1 hsl
      | id l =>
        refine Out.bind_ne_panic (requiredMatch_ne_panic c _ _ _ (hdecl _ _ _ hcl.1 (hi 1 rfl))) fun σ hσ =>
          Out.bind_ne_panic (resource_ne_panic c hsl (hroot 1 _ _ σ (hi 1 rfl) hcl.1 hσ).2) fun r _ =>
            Out.map_ne_panic ?_
        unfold idValue
        split <;> simp
      | sum l =>
        refine Out.bind_ne_panic (requiredMatch_ne_panic c _ _ _ (hdecl _ _ _ hcl.1 (hi _ rfl))) fun σ hσ => ?_
        obtain ⟨hlen, hb⟩ := hroot _ _ _ σ (hi _ rfl) hcl.1 hσ
        have hf : ∀ e ∈ l.variants, PatsBelow (σ.length + e.intro) e.dataset ∧
            e.value.BoundIn (boundVars l.input (l.dataset ++ e.dataset)) ∧
            ∀ g i, i.length = e.value.input.length → deserialize c n g e.value.layout i ≠ .panic := fun e he =>
          ⟨by rw [hlen]; exact (hcl.2 e he).1, hsl e he,
            hrec _ (by simp only [Layout.formats, List.mem_map]; exact ⟨e, he, rfl⟩)⟩
        revert hf
        generalize l.variants = fs
        intro hf
        have : ∀ j o, variants c (deserialize c n) g ref σ j fs o ≠ .panic := by
          induction fs with
          | nil => intro j o; cases o <;> simp [variants]
          | cons f fs ihf =>
            intro j o
            simp only [List.forall_mem_cons] at hf
            have hd : Declared (σ.intro f.intro) (withDefaultGraph f.dataset g) :=
              Hydrate.declared_ext (σ := σ) hf.1.1 (by simp)
            unfold variants
            refine Out.bind_ne_panic (uniqueMatch_ne_panic c _ _ _ hd) fun o' ho => ?_
            cases o' with
            | none => exact ihf hf.2 _ _
            | some σ' =>
              have hm := ((uniqueMatch_eq_some c hds _ _ g hd σ').1 ho).2.1
              refine Out.bind_ne_panic (subValue_ne_panic c hf.1.2.2 hf.1.2.1 (hpart _ _ _ σ σ' _ hb hm)) fun _ _ => ?_
              split
              · simp
              · exact ihf hf.2 _ _
        exact this 0 none
      | product l =>
        refine Out.bind_ne_panic (requiredMatch_ne_panic c _ _ _ (hdecl _ _ _ hcl.1 (hi _ rfl))) fun σ hσ =>
          Out.bind_ne_panic ?_ fun _ _ => Out.bind_ne_panic (unwrapFields_ne_panic _ _) fun _ _ => by simp
        obtain ⟨hlen, hb⟩ := hroot _ _ _ σ (hi _ rfl) hcl.1 hσ
        have hf : ∀ e ∈ l.fields, PatsBelow (σ.length + e.2.intro) e.2.dataset ∧
            e.2.value.BoundIn (boundVars l.input (l.dataset ++ e.2.dataset)) ∧
            ∀ g i, i.length = e.2.value.input.length → deserialize c n g e.2.value.layout i ≠ .panic := fun e he =>
          ⟨by rw [hlen]; exact (hcl.2 e he).1, hsl e he,
            hrec _ (by simp only [Layout.formats, List.mem_map]; exact ⟨e, he, rfl⟩)⟩
        revert hf
        generalize l.fields = fs
        intro hf
        induction fs with
        | nil => simp [readFields]
        | cons e fs ihf =>
          obtain ⟨k, f⟩ := e
          simp only [List.forall_mem_cons] at hf
          have hd : Declared (σ.intro f.intro) (withDefaultGraph f.dataset g) :=
            Hydrate.declared_ext (σ := σ) hf.1.1 (by simp)
          unfold readFields
          refine Out.bind_ne_panic (uniqueMatch_ne_panic c _ _ _ hd) fun o ho => ?_
          cases o with
          | none => exact Out.bind_ne_panic (ihf hf.2) fun _ _ => by simp
          | some σ' =>
            have hm := ((uniqueMatch_eq_some c hds _ _ g hd σ').1 ho).2.1
            exact Out.bind_ne_panic (subValue_ne_panic c hf.1.2.2 hf.1.2.1 (hpart _ _ _ σ σ' _ hb hm)) fun _ _ =>
              Out.bind_ne_panic (ihf hf.2) fun _ _ => by simp
      | unordered l =>
        refine Out.bind_ne_panic (requiredMatch_ne_panic c _ _ _ (hdecl _ _ _ hcl.1 (hi _ rfl))) fun σ hσ => ?_
        obtain ⟨hlen, hb⟩ := hroot _ _ _ σ (hi _ rfl) hcl.1 hσ
        have hd : Declared (σ.intro l.item.intro) (withDefaultGraph l.item.dataset g) :=
          Hydrate.declared_ext (σ := σ) hcl.2.1 (by rw [hlen])
        refine Out.bind_ne_panic (patterns_ne_panic c _) fun ps hps => ?_
        obtain ⟨-, rfl⟩ := (patterns_eq_ok c _ _).1 hps
        simp only
        rw [unorderedItems_eq c _ g l.item.value _ _ (by omega) (Matching.inv_new hd), Matching.stackEnum_new]
        refine Out.bind_ne_panic ?_ fun _ _ => by simp
        have hmem := fun τ => (Matching.mem_enum c.ds _ _ hd τ).1
        rw [← inGraph_eq] at hmem
        revert hmem
        rw [inGraph_eq]
        generalize Matching.enum c.ds (withDefaultGraph l.item.dataset g) (σ.intro l.item.intro) = ms
        intro hmem
        induction ms with
        | nil => simp [Out.mapM']
        | cons τ ms ihm =>
          have h1 := hmem τ (by simp)
          rw [← inGraph_eq] at h1
          exact Out.bind_ne_panic (subValue_ne_panic c (hrec _ (by simp [Layout.formats])) hsl
            (hpart _ _ _ σ τ _ hb h1)) fun _ _ =>
            Out.bind_ne_panic (ihm fun τ' hτ' => hmem τ' (by simp [hτ'])) fun _ _ => by simp
      | ordered l =>
        refine Out.bind_ne_panic (requiredMatch_ne_panic c _ _ _ (hdecl _ _ _ hcl.1 (hi _ rfl))) fun σ hσ => ?_
        obtain ⟨hlen, hb⟩ := hroot _ _ _ σ (hi _ rfl) hcl.1 hσ
        refine Out.bind_ne_panic (resource_ne_panic c hsl.1 hb) fun head _ =>
          Out.bind_ne_panic (resource_ne_panic c hsl.2.1 hb) fun tail _ => Out.bind_ne_panic ?_ fun _ _ => by simp
        have hnodes : ∀ k head, nodes c (deserialize c n) g l.node σ tail k head ≠ .panic := by
          intro k
          induction k with
          | zero => intro head; unfold nodes; split <;> simp
          | succ k ihk =>
            intro head
            unfold nodes
            split
            · simp
            · have hd : Declared ((Subst.push σ (some head)).intro (1 + l.node.intro))
                  (withDefaultGraph l.node.dataset g) :=
                Hydrate.declared_ext (σ := σ) hcl.2.2.2.1 (by simp [Subst.push, hlen]; omega)
              refine Out.bind_ne_panic (requiredMatch_ne_panic c _ _ _ hd) fun σ' hσ' => ?_
              have hm := ((requiredMatch_eq_ok c hds _ _ g hd σ').1 hσ').2.1
              have hb' : ∀ x, (boundVars l.input (l.dataset ++ l.node.dataset) x ∨ x = l.input + l.intro) →
                  ∃ r, σ'.get x = some r := by
                rintro x (hx | rfl)
                · refine hpart l.input l.dataset l.node.dataset (Subst.push σ (some head)) σ' (1 + l.node.intro) ?_ hm x hx
                  intro y hy
                  obtain ⟨r, hr⟩ := hb y hy
                  refine ⟨r, ?_⟩
                  simp only [Subst.get, Subst.push] at hr ⊢
                  have hx : y < σ.length := by
                    by_contra hx
                    simp [List.getElem?_eq_none (Nat.le_of_not_lt hx)] at hr
                  rw [List.getElem?_append_left hx]
                  exact hr
                · refine Hydrate.IsMatch.bound hm (.inl ⟨head, Hydrate.get_intro ?_⟩)
                  simp [Subst.get, Subst.push, ← hlen]
              refine Out.bind_ne_panic (subValue_ne_panic c (hrec _ (by simp [Layout.formats])) hsl.2.2.1 hb') fun _ _ =>
                Out.bind_ne_panic ?_ fun _ _ => Out.bind_ne_panic (ihk _) fun _ _ => by simp
              obtain ⟨r, hr⟩ := Hydrate.IsMatch.bound hm (.inr hsl.2.2.2)
              rw [hlen, hr]
              simp
        exact hnodes n head
      | sized l =>
        refine Out.bind_ne_panic (requiredMatch_ne_panic c _ _ _ (hdecl _ _ _ hcl.1 (hi _ rfl))) fun σ hσ =>
          Out.bind_ne_panic ?_ fun _ _ => by simp
        obtain ⟨hlen, hb⟩ := hroot _ _ _ σ (hi _ rfl) hcl.1 hσ
        have hf : ∀ e ∈ l.items, PatsBelow (σ.length + e.intro) e.dataset ∧
            e.value.BoundIn (boundVars l.input (l.dataset ++ e.dataset)) ∧
            ∀ g i, i.length = e.value.input.length → deserialize c n g e.value.layout i ≠ .panic := fun e he =>
          ⟨by rw [hlen]; exact (hcl.2 e he).1, hsl e he,
            hrec _ (by simp only [Layout.formats, List.mem_map]; exact ⟨e, he, rfl⟩)⟩
        revert hf
        generalize l.items = fs
        intro hf
        induction fs with
        | nil => simp [sizedItems]
        | cons f fs ihf =>
          simp only [List.forall_mem_cons] at hf
          have hd : Declared (σ.intro f.intro) (withDefaultGraph f.dataset g) :=
            Hydrate.declared_ext (σ := σ) hf.1.1 (by simp)
          unfold sizedItems
          refine Out.bind_ne_panic (requiredMatch_ne_panic c _ _ _ hd) fun σ' ho => ?_
          have hm := ((requiredMatch_eq_ok c hds _ _ g hd σ').1 ho).2.1
          exact Out.bind_ne_panic (subValue_ne_panic c hf.1.2.2 hf.1.2.1 (hpart _ _ _ σ σ' _ hb hm)) fun _ _ =>
              Out.bind_ne_panic (ihf hf.2) fun _ _ => by simp

end Derived

end Verif
