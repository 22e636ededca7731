import Verif.CombineSpec
import Verif.PanicSites
import Verif.RegistryLocal

/-! # Record layouts put together: lemmas -/

set_option linter.unusedSectionVars false
set_option linter.unusedSimpArgs false

namespace Verif

variable {R : Type _} [DecidableEq R]

theorem reaches_of_registry {reg : Registry R} {a b : R} (h : reg.Reaches a b) : Reaches reg a b := by
  have trans : ∀ {a b}, reg.Reaches a b → ∀ r, Reaches reg r a → Reaches reg r b := by
    intro a b h
    induction h with
    | refl _ => exact fun _ h => h
    | step hl hm _ ih =>
      intro r hr
      refine ih r ?_
      cases hm with
      | field hf => exact .step hr hl (List.mem_map.2 ⟨_, hf, rfl⟩)
      | variant hf => exact .step hr hl (List.mem_map.2 ⟨_, hf, rfl⟩)
      | unorderedItem => exact .step hr hl (List.mem_singleton.2 rfl)
      | node => exact .step hr hl (List.mem_singleton.2 rfl)
      | sizedItem hf => exact .step hr hl (List.mem_map.2 ⟨_, hf, rfl⟩)
  exact trans h a (.refl a)

namespace Hydrate

variable (c : HyCtx R) {rec : Rec R} {g : Option R} {σ : Subst R}

/-- The field has the value `v`. -/
def FieldGives (rec : Rec R) (g : Option R) (σ : Subst R) (f : Field R) (v : TypedValue R) : Prop :=
  ∃ σ', UniqueMatch c.ds (σ ++ List.replicate f.intro none) (inGraph g f.dataset) σ' ∧ subValue rec g f.value σ' = .ok v

/-- The field has no value, and needs none. -/
def FieldAbsent (g : Option R) (σ : Subst R) (f : Field R) : Prop :=
  (∀ τ, ¬ IsMatch c.ds (σ ++ List.replicate f.intro none) (inGraph g f.dataset) τ) ∧ f.required = false

theorem fields_ok_of (hds : c.ds.Nodup) (ref : R) {fs : List (Value × Field R)}
    (hc : ∀ e ∈ fs, PatsBelow (σ.length + e.2.intro) e.2.dataset)
    (h : ∀ e ∈ fs, (∃ v, FieldGives c rec g σ e.2 v) ∨ FieldAbsent c g σ e.2) : ∃ m, fields c rec g ref σ fs = .ok m := by
  induction fs with
  | nil => exact ⟨_, rfl⟩
  | cons a fs ih =>
    obtain ⟨k, f⟩ := a
    simp only [List.forall_mem_cons] at hc h
    obtain ⟨m, hm⟩ := ih hc.2 h.2
    have hd : Declared (σ.intro f.intro) (withDefaultGraph f.dataset g) := declared_ext (σ := σ) hc.1 (by simp)
    rcases h.1 with ⟨v, σ', h1, h2⟩ | ⟨h1, h2⟩
    · exact ⟨(k, v) :: m, by simp only [fields, (uniqueMatch_eq_some c hds _ _ _ g hd σ').2 h1, Out.bind_ok, h2, hm]⟩
    · exact ⟨m, by simp [fields, (uniqueMatch_eq_none c hds _ _ _ g hd).2 h1, Out.bind_ok, h2, hm]⟩

theorem fields_ok_iff (hds : c.ds.Nodup) {ref : R} {fs : List (Value × Field R)} {m}
    (hc : ∀ e ∈ fs, PatsBelow (σ.length + e.2.intro) e.2.dataset) (h : fields c rec g ref σ fs = .ok m) :
    (∀ e ∈ fs, (∃ v, FieldGives c rec g σ e.2 v) ∨ FieldAbsent c g σ e.2) ∧
    ∀ k v, (k, v) ∈ m ↔ ∃ f, (k, f) ∈ fs ∧ FieldGives c rec g σ f v := by
  induction fs generalizing m with
  | nil =>
    simp only [fields, Out.ok.injEq] at h
    subst h
    simp
  | cons a fs ih =>
    obtain ⟨k, f⟩ := a
    simp only [List.forall_mem_cons] at hc
    have hd : Declared (σ.intro f.intro) (withDefaultGraph f.dataset g) := declared_ext (σ := σ) hc.1 (by simp)
    unfold fields at h
    obtain ⟨o, ho, h⟩ := Out.bind_eq_ok.1 h
    cases o with
    | none =>
      have hno := (uniqueMatch_eq_none c hds _ _ _ g hd).1 ho
      simp only at h
      split at h
      · simp at h
      rename_i hr
      obtain ⟨h1, h2⟩ := ih hc.2 h
      refine ⟨List.forall_mem_cons.2 ⟨.inr ⟨hno, by simpa using hr⟩, h1⟩, fun k' v => ?_⟩
      rw [h2]
      constructor
      · rintro ⟨f', hf', hg⟩
        exact ⟨f', List.mem_cons_of_mem _ hf', hg⟩
      · rintro ⟨f', hf', hg⟩
        rcases List.mem_cons.1 hf' with e | hf'
        · simp only [Prod.mk.injEq] at e
          obtain ⟨rfl, rfl⟩ := e
          obtain ⟨σ', hu, -⟩ := hg
          exact absurd hu.1 (hno σ')
        · exact ⟨f', hf', hg⟩
    | some τ =>
      have hu := (uniqueMatch_eq_some c hds _ _ _ g hd τ).1 ho
      obtain ⟨v, hv, h⟩ := Out.bind_eq_ok.1 h
      obtain ⟨r, hr, h⟩ := Out.bind_eq_ok.1 h
      simp only [Out.ok.injEq] at h
      subst h
      obtain ⟨h1, h2⟩ := ih hc.2 hr
      refine ⟨List.forall_mem_cons.2 ⟨.inl ⟨v, τ, hu, hv⟩, h1⟩, fun k' v' => ?_⟩
      rw [List.mem_cons, h2]
      constructor
      · rintro (e | ⟨f', hf', hg⟩)
        · simp only [Prod.mk.injEq] at e
          obtain ⟨rfl, rfl⟩ := e
          exact ⟨f, by simp, τ, hu, hv⟩
        · exact ⟨f', List.mem_cons_of_mem _ hf', hg⟩
      · rintro ⟨f', hf', hg⟩
        rcases List.mem_cons.1 hf' with e | hf'
        · simp only [Prod.mk.injEq] at e
          obtain ⟨rfl, rfl⟩ := e
          obtain ⟨σ', hu', hv'⟩ := hg
          have := hu.2 _ hu'.1
          subst this
          have e := hv.symm.trans hv'
          injection e with e
          exact .inl (by rw [e])
        · exact .inr ⟨f', hf', hg⟩

/-- What a record layout reads, field by field. -/
theorem product_ok_iff (hds : c.ds.Nodup) {ref : R} {l : ProductLayout R} (hl : c.reg ref = some (.product l))
    (hcl : (Layout.product l).Closed) (n : Nat) (inputs : List R) (w : TypedValue R) :
    hydrate c (n + 1) g ref inputs = .ok w → ∃ σ m, inputs.length = l.input ∧
      UniqueMatch c.ds (inputs.map some ++ List.replicate l.intro none) (inGraph g l.dataset) σ ∧ w = .map m ref ∧
      (∀ e ∈ l.fields, (∃ v, FieldGives c (hydrate c n) g σ e.2 v) ∨ FieldAbsent c g σ e.2) ∧
      ∀ k v, (k, v) ∈ m ↔ ∃ f, (k, f) ∈ l.fields ∧ FieldGives c (hydrate c n) g σ f v := by
  intro h
  simp only [hydrate, hl] at h
  have hlen : inputs.length = l.input := by
    by_contra hne
    rw [if_pos (by simpa [Layout.inputCount] using fun e => hne e.symm)] at h
    simp at h
  rw [if_neg (by simp [Layout.inputCount, hlen])] at h
  simp only [layout] at h
  obtain ⟨σ, h1, h⟩ := Out.bind_eq_ok.1 h
  obtain ⟨m, h2, h⟩ := Out.bind_eq_ok.1 h
  simp only [Out.ok.injEq] at h
  have hu := (requiredMatch_eq_ok c hds _ _ _ g
      (declared_of_below hcl.1 (by simp [length_intro, Subst.fromInputs, hlen])) σ).1 h1
  have hσ : σ.length = l.input + l.intro := by
    rw [hu.1.length_eq]
    simp [Subst.fromInputs, Subst.intro, hlen]
  have := fields_ok_iff c hds (fun e he => by rw [hσ]; exact (hcl.2 e he).1) h2
  exact ⟨σ, m, hlen, hu, h.symm, this.1, this.2⟩

/-- A record layout reads a record when each of its fields can be read. -/
theorem product_ok_of (hds : c.ds.Nodup) {ref : R} {l : ProductLayout R} (hl : c.reg ref = some (.product l))
    (hcl : (Layout.product l).Closed) (n : Nat) (inputs : List R) (hlen : inputs.length = l.input) (σ : Subst R)
    (hu : UniqueMatch c.ds (inputs.map some ++ List.replicate l.intro none) (inGraph g l.dataset) σ)
    (hf : ∀ e ∈ l.fields, (∃ v, FieldGives c (hydrate c n) g σ e.2 v) ∨ FieldAbsent c g σ e.2) :
    ∃ w, hydrate c (n + 1) g ref inputs = .ok w := by
  have hσ : σ.length = l.input + l.intro := by
    rw [hu.1.length_eq]
    simp [hlen]
  obtain ⟨m, hm⟩ := fields_ok_of c hds ref (fun e he => by rw [hσ]; exact (hcl.2 e he).1) hf
  refine ⟨.map m ref, ?_⟩
  simp only [hydrate, hl]
  rw [if_neg (by simp [Layout.inputCount, hlen])]
  simp only [layout]
  rw [(requiredMatch_eq_ok c hds (.discriminant ref) ((Subst.fromInputs inputs).intro l.intro) l.dataset g (declared_of_below hcl.1 (by simp [length_intro, Subst.fromInputs, hlen]))
    σ).2 hu, Out.bind_ok, hm, Out.bind_ok]

/-- Without new variables, patterns have the match that binds nothing, or none. -/
theorem match_known {ds : List (Quad R)} {inputs : List R} {pats : List (QuadPat R)} {σ : Subst R}
    (h : IsMatch ds (inputs.map some) pats σ) : σ = inputs.map some := by
  refine List.ext_getElem (by simpa using h.length_eq) fun i h1 h2 => ?_
  have hi : i < inputs.length := by simpa using h2
  have := h.keeps i inputs[i] (by simp [Subst.get, hi])
  rw [Subst.get, List.getElem?_eq_getElem h1] at this
  simpa using this

theorem match_known_iff {ds : List (Quad R)} {inputs : List R} {pats : List (QuadPat R)} :
    UniqueMatch ds (inputs.map some) pats (inputs.map some) ↔ ∀ p ∈ pats, ∃ q ∈ ds, p.Denotes (Subst.get (inputs.map some)) q :=
  ⟨fun h => h.1.sat, fun h => ⟨⟨rfl, fun _ _ h => h, h, fun _ _ h => .inl h⟩, fun _ h => match_known h⟩⟩

end Hydrate

end Verif
