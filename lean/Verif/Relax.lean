import Verif.RelaxSpec
import Verif.VariantOrderApart

/-!
# Reading and writing with fewer required fields

Helper lemmas for C103. No further code is modelled.
-/

set_option linter.unusedSectionVars false
set_option linter.unusedSimpArgs false

namespace Verif

theorem Layout.Relaxed.inputCount_eq {R : Type _} {l l' : Layout R} (h : l.Relaxed l') : l'.inputCount = l.inputCount := by
  cases h <;> rfl

theorem Out.Leads.same {ε α : Type _} (a : Out ε α) : Out.Leads Eq a a := fun x h => ⟨x, h, rfl⟩

theorem forall₂_eq' {α : Type _} {l l' : List α} (h : List.Forall₂ Eq l l') : l = l' := by
  induction h with
  | nil => rfl
  | cons h _ ih => rw [h, ih]

namespace Hydrate

variable {R : Type _} [DecidableEq R]

variable {c : HyCtx R} {rec rec' : Rec R} {g : Option R} {ref : R} {σ : Subst R}

variable (hrec : ∀ g r i, (rec g r i).Leads Eq (rec' g r i))

include hrec

theorem fields_relax {fs fs' : List (Value × Field R)} (h : List.Forall₂ (fun a b => a.1 = b.1 ∧ a.2.Relaxed b.2) fs fs') :
    (fields c rec g ref σ fs).Leads Eq (fields c rec' g ref σ fs') := by
  induction h with
  | nil => exact .ok rfl
  | @cons a b fs fs' hab _ ih =>
    obtain ⟨k, x⟩ := a
    obtain ⟨k', y⟩ := b
    obtain ⟨hk, h1, h2, h3, h4⟩ := hab
    dsimp only at hk h1 h2 h3 h4
    subst hk
    unfold fields
    rw [h1, h2, h3]
    refine .bindSame fun o => ?_
    cases o with
    | some τ =>
      refine (subValue_leads hrec _ _).bind ?_
      rintro v _ rfl
      refine ih.bind ?_
      rintro r _ rfl
      exact .ok rfl
    | none =>
      dsimp only
      cases hx : x.required with
      | true => intro v hv; exact nomatch hv
      | false =>
        cases hy : y.required with
        | true => rw [h4 hy] at hx; exact nomatch hx
        | false => simpa using ih

theorem layout_relax {l l' : Layout R} (hl : l.Relaxed l') (hr : c.reg ref = some l) (hreg : c.reg.Closed)
    (hno : c.reg.NoVariantIntro) (hds : c.ds.Nodup) (hsums : c.ToldApart) (n : Nat) (inputs : List R)
    (hi : ∀ k, l.inputCount = some k → inputs.length = k) :
    (layout c rec n g ref inputs l).Leads Eq (layout c rec' n g ref inputs l') := by
  have hlist : ∀ {m m' : List (TypedValue R)}, List.Forall₂ Eq m m' →
      Out.Leads (ε := HyError R) Eq (.ok (TypedValue.list m ref)) (.ok (TypedValue.list m' ref)) := by
    intro m m' h
    rw [forall₂_eq' h]
    exact .same _
  have hproduct : ∀ (input k : Nat) (dataset : List (QuadPat R)) (fs fs' : List (Value × Field R)),
      List.Forall₂ (fun a b => a.1 = b.1 ∧ a.2.Relaxed b.2) fs fs' →
      (layout c rec n g ref inputs (.product ⟨input, k, fs, dataset⟩)).Leads Eq
        (layout c rec' n g ref inputs (.product ⟨input, k, fs', dataset⟩)) := by
    intro input k dataset fs fs' h
    refine .bindSame fun σ => (fields_relax hrec h).bind ?_
    rintro m _ rfl
    exact .ok rfl
  cases hl with
  | product input _ dataset h => exact hproduct _ _ _ _ _ h
  | refl l =>
    cases l with
    | never => intro x hx; exact nomatch hx
    | always => exact .same _
    | unit l => exact .same _
    | boolean l => exact .same _
    | number l => exact .same _
    | byteString l => exact .same _
    | textString l => exact .same _
    | id l => exact .same _
    | sum s =>
      simp only [layout]
      intro v hv
      obtain ⟨σ, h1, h2⟩ := Out.bind_eq_ok.1 hv
      rw [h1, Out.bind_ok]
      have hin := hi _ rfl
      have hcl : (Layout.sum s).Closed := hreg _ _ hr
      have hd : Declared ((Subst.fromInputs inputs).intro s.intro) (withDefaultGraph s.dataset g) :=
        declared_of_below hcl.1 (by simp [length_intro, Subst.fromInputs, hin])
      have hu : UniqueMatch c.ds (inputs.map some ++ List.replicate s.intro none) (inGraph g s.dataset) σ :=
        (requiredMatch_eq_ok c hds _ _ _ g hd σ).1 h1
      have hlen : σ.length = s.input + s.intro := by
        rw [hu.1.length_eq]
        simp [hin]
      have h0 := hno ref s hr
      have hb : ∀ x ∈ s.variants, PatsBelow σ.length x.dataset := by
        intro x hx
        rw [hlen]
        have := (hcl.2 x hx).1
        rwa [h0 x hx] at this
      refine ⟨v, ?_, rfl⟩
      rw [variants_eq_ok c hds _ g ref σ s.variants h0 hb 0 none] at h2 ⊢
      rcases h2 with ⟨_, _, h, _⟩ | ⟨_, k, x, w, hk, ⟨σ', h4, h5⟩, _, rfl⟩
      · exact nomatch h
      · obtain ⟨w', hw, rfl⟩ := subValue_leads (g := g) hrec x.value σ' w ((subValue_eq_ok _ _ _ _ _).2 h5)
        refine .inr ⟨rfl, k, x, w, hk, ⟨σ', h4, (subValue_eq_ok _ _ _ _ _).1 hw⟩, fun j y hj hne => ?_, rfl⟩
        exact .inl fun τ hτ => hne (hsums ref s hr g σ ⟨_, hin, hu.1⟩ j k y x τ σ' hj hk hτ h4.1)
    | product l =>
      refine hproduct _ _ _ _ _ (List.forall₂_same.2 fun a _ => ⟨rfl, rfl, rfl, rfl, id⟩)
    | ordered l =>
      exact .bindSame fun σ => .bindSame fun head => .bindSame fun tail => (nodes_leads hrec _ _ _ _).bind fun m m' h => hlist h
    | sized l => exact .bindSame fun σ => (sizedItems_leads hrec _ _).bind fun m m' h => hlist h
    | unordered l =>
      refine .bindSame fun σ => (unorderedItems_leads hrec _ _ _).bind fun m m' h => ?_
      rw [forall₂_eq' h]
      exact .same _

omit hrec in
theorem hydrate_relax {reg' : Registry R} (hrel : c.reg.Relaxed reg') (hreg : c.reg.Closed) (hno : c.reg.NoVariantIntro)
    (hds : c.ds.Nodup) (hsums : c.ToldApart) (n : Nat) (g : Option R) (ref : R) (inputs : List R) :
    (hydrate c n g ref inputs).Leads Eq (hydrate { c with reg := reg' } n g ref inputs) := by
  induction n generalizing g ref inputs with
  | zero => intro x hx; exact nomatch hx
  | succ n ih =>
    unfold hydrate
    dsimp only
    cases h : c.reg ref with
    | none => intro x hx; exact nomatch hx
    | some l =>
      obtain ⟨l', h2, h3⟩ := hrel ref l h
      rw [h2]
      dsimp only
      rw [h3.inputCount_eq]
      split
      · intro x hx; exact nomatch hx
      · rename_i hk
        rw [layout_anyReg (c := c) reg']
        exact layout_relax ih h3 h hreg hno hds hsums n inputs (fun k hc => by
          have hk' := hk
          simp [hc] at hk'
          omega)

end Hydrate

namespace Derived

variable {R : Type} [DecidableEq R] {c : DsCtx R} {rec rec' : Rec R} {g : Option R} {ref : R} {σ : Subst R}

variable (hrec : ∀ g r i, (rec g r i).Leads Eq (rec' g r i))

include hrec

theorem readFields_relax {fs fs' : List (Value × Field R)} (h : List.Forall₂ (fun a b => a.1 = b.1 ∧ a.2.Relaxed b.2) fs fs') :
    (readFields c rec g σ fs).Leads Eq (readFields c rec' g σ fs') := by
  induction h with
  | nil => exact .ok rfl
  | @cons a b fs fs' hab _ ih =>
    obtain ⟨k, x⟩ := a
    obtain ⟨k', y⟩ := b
    obtain ⟨hk, h1, h2, h3, h4⟩ := hab
    dsimp only at hk h1 h2 h3 h4
    subst hk
    unfold readFields
    rw [h1, h2, h3]
    refine .bindSame fun o => ?_
    cases o with
    | some τ =>
      refine (subValue_leads hrec _ _).bind ?_
      rintro v _ rfl
      refine ih.bind ?_
      rintro r _ rfl
      exact .ok rfl
    | none =>
      refine ih.bind ?_
      rintro r _ rfl
      exact .ok rfl

omit hrec in
theorem unwrapFields_relax {fs fs' : List (Value × Field R)} (h : List.Forall₂ (fun a b => a.1 = b.1 ∧ a.2.Relaxed b.2) fs fs')
    (vs : List (Option (TypedValue R))) : (unwrapFields fs vs).Leads Eq (unwrapFields fs' vs) := by
  induction h generalizing vs with
  | nil => cases vs <;> exact .same _
  | @cons a b fs fs' hab _ ih =>
    obtain ⟨k, x⟩ := a
    obtain ⟨k', y⟩ := b
    obtain ⟨hk, -, -, -, h4⟩ := hab
    dsimp only at hk h4
    subst hk
    cases vs with
    | nil => exact .same _
    | cons o vs =>
      cases o with
      | some v =>
        refine (ih vs).bind ?_
        rintro r _ rfl
        exact .ok rfl
      | none =>
        simp only [unwrapFields]
        cases hx : x.required with
        | true => intro v hv; exact nomatch hv
        | false =>
          cases hy : y.required with
          | true => rw [h4 hy] at hx; exact nomatch hx
          | false => simpa using ih vs

theorem layout_relax {l l' : Layout R} (hl : l.Relaxed l') (n : Nat) (inputs : List R) :
    (layout c rec n g ref inputs l).Leads Eq (layout c rec' n g ref inputs l') := by
  have hlist : ∀ {m m' : List (TypedValue R)}, List.Forall₂ Eq m m' →
      Out.Leads (ε := DsError) Eq (.ok (TypedValue.list m ref)) (.ok (TypedValue.list m' ref)) := by
    intro m m' h
    rw [forall₂_eq' h]
    exact .same _
  have hproduct : ∀ (input k : Nat) (dataset : List (QuadPat R)) (fs fs' : List (Value × Field R)),
      List.Forall₂ (fun a b => a.1 = b.1 ∧ a.2.Relaxed b.2) fs fs' →
      (layout c rec n g ref inputs (.product ⟨input, k, fs, dataset⟩)).Leads Eq
        (layout c rec' n g ref inputs (.product ⟨input, k, fs', dataset⟩)) := by
    intro input k dataset fs fs' h
    refine .bindSame fun σ => (readFields_relax hrec h).bind ?_
    rintro d _ rfl
    refine (unwrapFields_relax h d).bind ?_
    rintro m _ rfl
    exact .ok rfl
  cases hl with
  | product input _ dataset h => exact hproduct _ _ _ _ _ h
  | refl l =>
    cases l with
    | never => intro x hx; exact nomatch hx
    | always => intro x hx; exact nomatch hx
    | unit l => exact .same _
    | boolean l => exact .same _
    | number l => exact .same _
    | byteString l => exact .same _
    | textString l => exact .same _
    | id l => exact .same _
    | sum l =>
      refine .bindSame fun σ => fun v hv => ⟨v, ?_, rfl⟩
      rcases variants_eq_ok.1 hv with ⟨h, -⟩ | ⟨-, i, x, w, hx, ⟨σ', hm, hs⟩, rfl, hother⟩
      · exact nomatch h
      · obtain ⟨w', hw, rfl⟩ := subValue_leads (c := c) (g := g) hrec x.value σ' w hs
        exact variants_eq_ok.2 (.inr ⟨rfl, i, x, w, hx, ⟨σ', hm, hw⟩, rfl, hother⟩)
    | product l => exact hproduct _ _ _ _ _ (List.forall₂_same.2 fun a _ => ⟨rfl, rfl, rfl, rfl, id⟩)
    | ordered l =>
      exact .bindSame fun σ => .bindSame fun head => .bindSame fun tail => (nodes_leads hrec _ _ _ _).bind fun m m' h => hlist h
    | sized l => exact .bindSame fun σ => (sizedItems_leads hrec _).bind fun m m' h => hlist h
    | unordered l =>
      exact .bindSame fun σ => .bindSame fun pats => (unorderedItems_leads hrec _ _ _).bind fun m m' h => hlist h

omit hrec in
theorem deserialize_relax {reg' : Registry R} (hrel : c.reg.Relaxed reg') (n : Nat) (g : Option R) (ref : R) (inputs : List R) :
    (deserialize c n g ref inputs).Leads Eq (deserialize { c with reg := reg' } n g ref inputs) := by
  induction n generalizing g ref inputs with
  | zero => intro x hx; exact nomatch hx
  | succ n ih =>
    unfold deserialize
    dsimp only
    cases c.prim ref with
    | some p => exact .same _
    | none =>
      dsimp only
      cases h : c.reg ref with
      | none => intro x hx; exact nomatch hx
      | some l =>
        obtain ⟨l', h2, h3⟩ := hrel ref l h
        rw [h2]
        dsimp only
        rw [layout_anyReg (c := c) reg']
        exact layout_relax ih h3 n inputs

end Derived

end Verif
