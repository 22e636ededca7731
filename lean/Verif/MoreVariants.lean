import Verif.MoreVariantsSpec
import Verif.Extend
import Verif.ExtendSer

/-!
# Reading and writing with more variants

Helper lemmas for C105. No further code is modelled.
-/

set_option linter.unusedSectionVars false
set_option linter.unusedSimpArgs false

namespace Verif

theorem Layout.MoreVariants.inputCount_eq {R : Type _} {P : Nat → Variant R → Prop} {l l' : Layout R} (h : l.MoreVariants P l') :
    l'.inputCount = l.inputCount := by
  cases h <;> rfl

namespace Hydrate

variable {R : Type _} [DecidableEq R]

variable {c : HyCtx R} {rec rec' : Rec R} {g : Option R} {ref : R} {σ : Subst R}

theorem variants_unmentioned (hds : c.ds.Nodup) {new : List (Variant R)} (hnew : ∀ x ∈ new, x.Unmentioned c.ds σ.length) (i : Nat)
    (sel : Option (Nat × TypedValue R)) : variants c rec g ref σ i new sel = variants c rec g ref σ i [] sel := by
  induction new generalizing i with
  | nil => rfl
  | cons x new ih =>
    rw [List.forall_mem_cons] at hnew
    have hn : uniqueMatch c (.variant ref x.name) σ x.dataset g = .ok none :=
      (uniqueMatch_eq_none c hds _ _ _ g (declared_of_below hnew.1.1 (Nat.le_refl _))).2
        fun τ => not_match_of_unmentioned hnew.1.2 _ τ g
    rw [variants, hn, Out.bind_ok]
    dsimp only
    rw [ih hnew.2]
    cases sel <;> rfl

theorem variants_more (hds : c.ds.Nodup) {vs new : List (Variant R)} (hnew : ∀ x ∈ new, x.Unmentioned c.ds σ.length)
    (hrec : ∀ x ∈ vs, ∀ g i, rec g x.value.layout i = rec' g x.value.layout i) (i : Nat) (sel : Option (Nat × TypedValue R)) :
    variants c rec' g ref σ i (vs ++ new) sel = variants c rec g ref σ i vs sel := by
  induction vs generalizing i sel with
  | nil =>
    rw [List.nil_append, variants_unmentioned hds hnew]
    cases sel <;> rfl
  | cons x vs ih =>
    rw [List.forall_mem_cons] at hrec
    rw [List.cons_append]
    simp only [variants, ih hrec.2, subValue_congr' (g := g) hrec.1]

theorem sum_more (hds : c.ds.Nodup) {input k : Nat} {dataset : List (QuadPat R)} {vs new : List (Variant R)}
    (hnew : ∀ x ∈ new, x.Unmentioned c.ds (input + k)) (hb : PatsBelow (input + k) dataset) (n : Nat)
    (inputs : List R) (hi : inputs.length = input)
    (hrec : ∀ x ∈ vs, ∀ g i, rec g x.value.layout i = rec' g x.value.layout i) :
    layout c rec' n g ref inputs (.sum ⟨input, k, vs ++ new, dataset⟩) = layout c rec n g ref inputs (.sum ⟨input, k, vs, dataset⟩) := by
  simp only [layout]
  cases hm : requiredMatch c (.discriminant ref) ((Subst.fromInputs inputs).intro k) dataset g with
  | ok σ =>
    have hd : Declared ((Subst.fromInputs inputs).intro k) (withDefaultGraph dataset g) :=
      declared_of_below hb (by simp [length_intro, Subst.fromInputs, hi])
    have hlen : σ.length = input + k := by
      rw [((requiredMatch_eq_ok c hds _ _ _ g hd σ).1 hm).1.length_eq]
      simp [length_intro, Subst.fromInputs, hi]
    rw [Out.bind_ok, Out.bind_ok, variants_more hds (hlen ▸ hnew) hrec]
  | err e => rfl
  | panic => rfl
  | fuel => rfl

theorem hydrate_more {reg' : Registry R} (hrel : c.reg.MoreVariants (fun k x => x.Unmentioned c.ds k) reg') (hreg : c.reg.Closed)
    (hcomp : c.reg.Complete) (hds : c.ds.Nodup) (n : Nat) (g : Option R) (ref : R) (hr : (c.reg ref).isSome = true) (inputs : List R) :
    hydrate { c with reg := reg' } n g ref inputs = hydrate c n g ref inputs := by
  induction n generalizing g ref inputs with
  | zero => rfl
  | succ n ih =>
    obtain ⟨l, h⟩ := Option.isSome_iff_exists.1 hr
    obtain ⟨l', h2, h3⟩ := hrel ref l h
    unfold hydrate
    dsimp only
    rw [h, h2]
    dsimp only
    rw [h3.inputCount_eq]
    split
    · rfl
    · rename_i hk
      have hi : ∀ k, l.inputCount = some k → inputs.length = k := fun k hc => by
        have hk' := hk
        simp [hc] at hk'
        omega
      have hrec : ∀ f ∈ l.formats, ∀ g i, hydrate c n g f.layout i = hydrate { c with reg := reg' } n g f.layout i :=
        fun f hf g i => (ih g f.layout (hcomp ref l h f hf) i).symm
      rw [layout_anyReg (c := c) reg']
      have hcl := hreg ref l h
      cases h3 with
      | sum input k dataset vs new hf =>
        exact sum_more hds hf hcl.1 n inputs (hi _ rfl) fun x hx => hrec x.value (List.mem_map.2 ⟨x, hx, rfl⟩)
      | refl l =>
        by_cases hp : ∃ p, l = .product p
        · obtain ⟨p, rfl⟩ := hp
          exact product_extend hds (fieldsExtended_refl _) hcl.1 n inputs (hi _ rfl)
            fun e he => hrec e.2.value (List.mem_map.2 ⟨e, he, rfl⟩)
        · exact layout_congr' hrec n inputs fun p e => hp ⟨p, e⟩

end Hydrate

namespace Derived

section

variable {R : Type} [DecidableEq R]

variable {c : DsCtx R} {rec rec' : Rec R} {g : Option R} {ref : R} {σ : Subst R}

theorem variants_unmentioned (hds : c.ds.Nodup) {new : List (Variant R)}
    (hnew : ∀ x ∈ new, x.Unmentioned c.ds σ.length ∧ x.Known c) (i : Nat)
    (sel : Option (TypedValue R)) : variants c rec g ref σ i new sel = variants c rec g ref σ i [] sel := by
  induction new generalizing i with
  | nil => rfl
  | cons x new ih =>
    rw [List.forall_mem_cons] at hnew
    have hn : uniqueMatch c (σ.intro x.intro) x.dataset g = .ok none :=
      (uniqueMatch_eq_none c hds _ _ g (declared_of_below hnew.1.1.1 (by simp [Hydrate.length_intro]))).2
        ⟨knowsQuad_of hnew.1.2, fun τ => not_match_of_unmentioned hnew.1.1.2 _ τ g⟩
    rw [variants, hn, Out.bind_ok]
    dsimp only
    rw [ih hnew.2]
    cases sel <;> rfl

theorem variants_more (hds : c.ds.Nodup) {vs new : List (Variant R)}
    (hnew : ∀ x ∈ new, x.Unmentioned c.ds σ.length ∧ x.Known c)
    (hrec : ∀ x ∈ vs, ∀ g i, i.length = x.value.input.length → rec g x.value.layout i = rec' g x.value.layout i) (i : Nat)
    (sel : Option (TypedValue R)) : variants c rec' g ref σ i (vs ++ new) sel = variants c rec g ref σ i vs sel := by
  induction vs generalizing i sel with
  | nil =>
    rw [List.nil_append, variants_unmentioned hds hnew]
    cases sel <;> rfl
  | cons x vs ih =>
    rw [List.forall_mem_cons] at hrec
    rw [List.cons_append]
    simp only [variants, ih hrec.2, subValue_congr' (c := c) (g := g) hrec.1]

theorem sum_more (hds : c.ds.Nodup) {input k : Nat} {dataset : List (QuadPat R)} {vs new : List (Variant R)}
    (hnew : ∀ x ∈ new, x.Unmentioned c.ds (input + k) ∧ x.Known c) (hb : PatsBelow (input + k) dataset) (n : Nat)
    (inputs : List R) (hi : inputs.length = input)
    (hrec : ∀ x ∈ vs, ∀ g i, i.length = x.value.input.length → rec g x.value.layout i = rec' g x.value.layout i) :
    layout c rec' n g ref inputs (.sum ⟨input, k, vs ++ new, dataset⟩) = layout c rec n g ref inputs (.sum ⟨input, k, vs, dataset⟩) := by
  simp only [layout]
  cases hm : requiredMatch c ((Subst.fromInputs inputs).intro k) dataset g with
  | ok σ =>
    have hd : Declared ((Subst.fromInputs inputs).intro k) (withDefaultGraph dataset g) :=
      declared_of_below hb (by simp [Hydrate.length_intro, Subst.fromInputs, hi])
    have hlen : σ.length = input + k := by
      rw [((requiredMatch_eq_ok c hds _ _ g hd σ).1 hm).2.1.length_eq]
      simp [Hydrate.length_intro, Subst.fromInputs, hi]
    rw [Out.bind_ok, Out.bind_ok, variants_more hds (hlen ▸ hnew) hrec]
  | err e => rfl
  | panic => rfl
  | fuel => rfl

theorem deserialize_more {reg' : Registry R}
    (hrel : c.reg.MoreVariants (fun k x => x.Unmentioned c.ds k ∧ x.Known c) reg')
    (hreg : c.reg.Closed) (hty : c.reg.WellTyped) (hds : c.ds.Nodup) (n : Nat) (g : Option R) (ref : R) (inputs : List R)
    (hr : ∃ l, c.reg ref = some l ∧ ∀ k, l.inputCount = some k → inputs.length = k) :
    deserialize { c with reg := reg' } n g ref inputs = deserialize c n g ref inputs := by
  induction n generalizing g ref inputs with
  | zero => rfl
  | succ n ih =>
    obtain ⟨l, h, hi⟩ := hr
    obtain ⟨l', h2, h3⟩ := hrel ref l h
    unfold deserialize
    dsimp only
    cases c.prim ref with
    | some p => rfl
    | none =>
      dsimp only
      rw [h, h2]
      dsimp only
      have hrec : ∀ f ∈ l.formats, ∀ g i, i.length = f.input.length →
          deserialize c n g f.layout i = deserialize { c with reg := reg' } n g f.layout i := by
        intro f hf g i hil
        obtain ⟨l₁, h4, h5⟩ := hty ref l h f hf
        exact (ih g f.layout i ⟨l₁, h4, fun k hk => hil.trans (h5 k hk)⟩).symm
      rw [layout_anyReg (c := c) reg']
      have hcl := hreg ref l h
      cases h3 with
      | sum input k dataset vs new hf =>
        exact sum_more hds hf hcl.1 n inputs (hi _ rfl) fun x hx => hrec x.value (List.mem_map.2 ⟨x, hx, rfl⟩)
      | refl l =>
        by_cases hp : ∃ p, l = .product p
        · obtain ⟨p, rfl⟩ := hp
          exact product_extend hds (Hydrate.fieldsExtended_refl _) hcl.1 n inputs (hi _ rfl)
            fun e he => hrec e.2.value (List.mem_map.2 ⟨e, he, rfl⟩)
        · exact layout_congr' hrec n inputs fun p e => hp ⟨p, e⟩

end

/-! ## Derived serialization -/

variable {c : SeCtx} {rec rec' : SRec} {g : Option IRes}

theorem writeLayout_more {P : Nat → Variant Term → Prop} (v : TypedValue Term) (inputs : List IRes) {l l' : Layout Term}
    (hl : l.MoreVariants P l') (hrec : ∀ w g r i, DeM.Leads (rec w g r i) (rec' w g r i)) :
    DeM.Leads (writeLayout c rec v g inputs l) (writeLayout c rec' v g inputs l') := by
  cases hl with
  | refl l => exact writeLayout_relax hrec v inputs (.refl l)
  | sum input k dataset vs new _ =>
    simp only [writeLayout]
    split
    · rename_i w r i
      refine .bindSame fun _ => .bindSame fun _ => ?_
      cases hx : vs[i]? with
      | none => intro s a s' hs; exact nomatch hs
      | some x =>
        obtain ⟨hi, -⟩ := List.getElem?_eq_some_iff.1 hx
        rw [List.getElem?_append_left hi, hx]
        exact writeItem_leads hrec _ _ _ _
    · exact .same _

theorem serialize_more {P : Nat → Variant Term → Prop} {reg' : Registry Term} (hrel : c.reg.MoreVariants P reg') (n : Nat)
    (v : TypedValue Term) (g : Option IRes) (ref : Term) (inputs : List IRes) :
    DeM.Leads (serialize c n v g ref inputs) (serialize { c with reg := reg' } n v g ref inputs) := by
  induction n generalizing v g ref inputs with
  | zero => exact fun _ _ _ h => nomatch h
  | succ n ih =>
    unfold serialize
    dsimp only
    cases c.prim ref with
    | some p =>
      dsimp only
      simp only [writePrim_otherReg]
      exact .same _
    | none =>
      dsimp only
      cases h : c.reg ref with
      | none => exact fun _ _ _ h => nomatch h
      | some l =>
        obtain ⟨l', h2, h3⟩ := hrel ref l h
        rw [h2]
        dsimp only
        rw [writeLayout_otherReg]
        exact writeLayout_more v inputs h3 ih

end Derived

end Verif
