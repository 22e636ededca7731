import Verif.VariantOrderDerived
import Verif.HydrateOrder

/-!
# Hydration with variants in another order, if they are told apart

Helper lemmas for C101. No further code is modelled.
-/

set_option linter.unusedSectionVars false
set_option linter.unusedSimpArgs false

namespace Verif

variable {R : Type _} [DecidableEq R]

namespace Hydrate

variable {c : HyCtx R} {rec rec' : Rec R} {P : TypedValue R → TypedValue R → Prop} {g : Option R} {ref : R} {σ : Subst R}

variable (hrec : ∀ g r i, (rec g r i).Leads P (rec' g r i))

include hrec

theorem subValue_leads (fmt : ValueFormat R) (τ : Subst R) : (subValue rec g fmt τ).Leads P (subValue rec' g fmt τ) :=
  .bindSame fun _ => .bindSame fun _ => hrec _ _ _

theorem variants_leads (hds : c.ds.Nodup) {vs vs' : List (Variant R)}
    (hp : (vs.map Variant.nameless).Perm (vs'.map Variant.nameless)) (h0 : ∀ v ∈ vs, v.intro = 0)
    (hb : ∀ v ∈ vs, PatsBelow σ.length v.dataset)
    (hapart : ∀ (i j : Nat) x y τ τ', vs[i]? = some x → vs[j]? = some y → IsMatch c.ds σ (inGraph g x.dataset) τ →
      IsMatch c.ds σ (inGraph g y.dataset) τ' → i = j) :
    (variants c rec g ref σ 0 vs none).Leads (fun v v' => ∃ w w' i j, v = .variant w ref i ∧ v' = .variant w' ref j ∧ P w w')
      (variants c rec' g ref σ 0 vs' none) := by
  intro v hv
  obtain ⟨f, k, h1, h2, h3, h4⟩ := nameless_index hp
  have back : ∀ y ∈ vs', ∃ x ∈ vs, x.intro = y.intro ∧ x.dataset = y.dataset := by
    intro y hy
    obtain ⟨j, hj⟩ := List.mem_iff_getElem?.1 hy
    obtain ⟨x, hx, he⟩ := h4 j y hj
    simp only [Variant.nameless, Prod.mk.injEq] at he
    exact ⟨x, List.mem_of_getElem? hx, he.1, he.2.2⟩
  have h0' : ∀ y ∈ vs', y.intro = 0 := by
    intro y hy
    obtain ⟨x, hx, he, -⟩ := back y hy
    rw [← he, h0 x hx]
  have hb' : ∀ y ∈ vs', PatsBelow σ.length y.dataset := by
    intro y hy
    obtain ⟨x, hx, -, he⟩ := back y hy
    rw [← he]
    exact hb x hx
  rw [variants_eq_ok c hds rec g ref σ vs h0 hb 0 none] at hv
  rcases hv with ⟨_, _, h, _⟩ | ⟨_, i, x, w, hx, ⟨σ', hm, hs⟩, -, rfl⟩
  · exact nomatch h
  obtain ⟨y, hy, hxy⟩ := h3 i x hx
  simp only [Variant.nameless, Prod.mk.injEq] at hxy
  obtain ⟨w', hw', hP⟩ := subValue_leads (g := g) hrec x.value σ' w ((subValue_eq_ok _ _ _ _ _).2 hs)
  refine ⟨.variant w' ref (0 + f i), (variants_eq_ok c hds rec' g ref σ vs' h0' hb' 0 none _).2 (.inr ⟨rfl, f i, y, w', hy,
    ⟨σ', ?_, ?_⟩, fun j z hz hne => .inl fun τ hτ => hne ?_, rfl⟩), w, w', _, _, rfl, rfl, hP⟩
  · rw [hxy.1, hxy.2.2]; exact hm
  · rw [hxy.2.1]; exact (subValue_eq_ok _ _ _ _ _).1 hw'
  · obtain ⟨u, hu, hzu⟩ := h4 j z hz
    simp only [Variant.nameless, Prod.mk.injEq] at hzu
    have hx0 := h0 x (List.mem_of_getElem? hx)
    have hz0 := h0' z (List.mem_of_getElem? hz)
    rw [hx0] at hm
    rw [hz0] at hτ
    simp only [List.replicate_zero, List.append_nil] at hm hτ
    rw [← hapart (k j) i u x τ σ' hu hx (by rw [hzu.2.2]; exact hτ) hm.1, h2]

theorem fields_leads (fs : List (Value × Field R)) :
    (fields c rec g ref σ fs).Leads (List.Forall₂ fun a b => a.1 = b.1 ∧ P a.2 b.2) (fields c rec' g ref σ fs) := by
  induction fs with
  | nil => exact .ok .nil
  | cons e fs ih =>
    obtain ⟨key, field⟩ := e
    unfold fields
    refine .bindSame fun o => ?_
    cases o with
    | some τ => exact (subValue_leads hrec _ _).bind fun v v' hv => ih.bind fun r r' hr => .ok (.cons ⟨rfl, hv⟩ hr)
    | none =>
      dsimp only
      split
      · intro x hx; exact nomatch hx
      · exact ih

theorem nodes_leads (node : ItemLayout R) (tail : R) (n : Nat) (head : R) :
    (nodes c rec g ref node σ tail n head).Leads (List.Forall₂ P) (nodes c rec' g ref node σ tail n head) := by
  induction n generalizing head with
  | zero =>
    unfold nodes
    split
    · exact .ok .nil
    · intro x hx; exact nomatch hx
  | succ n ih =>
    unfold nodes
    split
    · exact .ok .nil
    · exact .bindSame fun τ => (subValue_leads hrec _ _).bind fun v v' hv => .bindSame fun h => (ih h).bind fun r r' hr =>
        .ok (.cons hv hr)

theorem sizedItems_leads (is : List (ItemLayout R)) (k : Nat) :
    (sizedItems c rec g ref σ k is).Leads (List.Forall₂ P) (sizedItems c rec' g ref σ k is) := by
  induction is generalizing k with
  | nil => exact .ok .nil
  | cons item is ih =>
    unfold sizedItems
    exact .bindSame fun τ => (subValue_leads hrec _ _).bind fun v v' hv => (ih _).bind fun r r' hr => .ok (.cons hv hr)

theorem unorderedItems_leads (fmt : ValueFormat R) (n : Nat) (st : Matching.Stack R) :
    (unorderedItems c rec g fmt n st).Leads (List.Forall₂ P) (unorderedItems c rec' g fmt n st) := by
  induction n generalizing st with
  | zero => intro x hx; exact nomatch hx
  | succ n ih =>
    unfold unorderedItems
    refine .bindSame fun o => ?_
    cases o with
    | none => exact .ok .nil
    | some p =>
      obtain ⟨τ, st'⟩ := p
      exact (subValue_leads hrec _ _).bind fun v v' hv => (ih _).bind fun r r' hr => .ok (.cons hv hr)

omit hrec in
theorem literal_leads {reg : Registry R} (o : Out (HyError R) (TypedLiteral R)) :
    (o.map TypedValue.literal).Leads (TypedValue.Alike reg) (o.map TypedValue.literal) := by
  intro x hx
  cases o with
  | ok a => cases hx; exact ⟨_, rfl, .literal _⟩
  | _ => exact nomatch hx

omit hrec in
theorem layout_leads (hrec : ∀ g r i, (rec g r i).Leads (TypedValue.Alike c.reg) (rec' g r i)) {l l' : Layout R}
    (hl : l.SameVariants l') (hr : c.reg ref = some l) (hreg : c.reg.Closed) (hno : c.reg.NoVariantIntro) (hds : c.ds.Nodup)
    (hsums : c.ToldApart) (n : Nat) (inputs : List R) (hi : ∀ k, l.inputCount = some k → inputs.length = k) :
    (layout c rec n g ref inputs l).Leads (TypedValue.Alike c.reg) (layout c rec' n g ref inputs l') := by
  have hsum : ∀ (s : SumLayout R) (vs' : List (Variant R)), c.reg ref = some (.sum s) → inputs.length = s.input →
      (s.variants.map Variant.nameless).Perm (vs'.map Variant.nameless) →
      (layout c rec n g ref inputs (.sum s)).Leads (TypedValue.Alike c.reg)
        (layout c rec' n g ref inputs (.sum { s with variants := vs' })) := by
    intro s vs' hs hin hp
    simp only [layout]
    intro v hv
    obtain ⟨σ, h1, h2⟩ := Out.bind_eq_ok.1 hv
    rw [h1, Out.bind_ok]
    have hcl : (Layout.sum s).Closed := hreg _ _ hs
    have hd : Declared ((Subst.fromInputs inputs).intro s.intro) (withDefaultGraph s.dataset g) :=
      declared_of_below hcl.1 (by simp [length_intro, Subst.fromInputs, hin])
    have hu : UniqueMatch c.ds (inputs.map some ++ List.replicate s.intro none) (inGraph g s.dataset) σ :=
      (requiredMatch_eq_ok c hds _ _ _ g hd σ).1 h1
    have hlen : σ.length = s.input + s.intro := by
      rw [hu.1.length_eq]
      simp [hin]
    have h0 := hno ref s hs
    refine (variants_leads hrec hds hp h0 (fun x hx => ?_) fun i j x y τ τ' hx hy hm hm' => ?_).mono ?_ v h2
    · rw [hlen]
      have := (hcl.2 x hx).1
      rwa [h0 x hx] at this
    · refine hsums ref s hs g σ ⟨_, hin, hu.1⟩ i j x y τ τ' hx hy ?_ ?_
      · rw [h0 x (List.mem_of_getElem? hx)]; simpa using hm
      · rw [h0 y (List.mem_of_getElem? hy)]; simpa using hm'
    · rintro v v' ⟨w, w', i, j, rfl, rfl, h3⟩
      exact .variant ref i j h3
  cases hl with
  | sum input _ dataset hp => exact hsum _ _ hr (hi _ rfl) hp
  | refl l =>
    cases l with
    | never => intro x hx; exact nomatch hx
    | always => exact .ok (.always _)
    | unit l => exact .bindSame fun _ => .ok (.literal _)
    | boolean l => exact literal_leads _
    | number l => exact literal_leads _
    | byteString l => exact literal_leads _
    | textString l => exact literal_leads _
    | id l => exact literal_leads _
    | sum l => exact hsum l _ hr (hi _ rfl) (List.Perm.refl _)
    | product l =>
      exact .bindSame fun σ => (fields_leads hrec _).bind fun m m' h =>
        .ok (.map ref (forall₂_keys h) fun i a b ha hb => (forall₂_getElem? h ha hb).2)
    | ordered l =>
      exact .bindSame fun σ => .bindSame fun head => .bindSame fun tail => (nodes_leads hrec _ _ _ _).bind fun m m' h =>
        .ok (.list ref h.length_eq fun i a b ha hb => forall₂_getElem? h ha hb)
    | sized l =>
      exact .bindSame fun σ => (sizedItems_leads hrec _ _).bind fun m m' h =>
        .ok (.list ref h.length_eq fun i a b ha hb => forall₂_getElem? h ha hb)
    | unordered l =>
      exact .bindSame fun σ => (unorderedItems_leads hrec _ _ _).bind fun m m' h =>
        .ok (.set ref l m m' hr (sortBy_perm _ _) (sortBy_perm _ _).symm h.length_eq fun i a b ha hb => forall₂_getElem? h ha hb)

omit hrec in
theorem hydrate_leads {reg' : Registry R} (hsame : c.reg.SameVariants reg') (hreg : c.reg.Closed) (hno : c.reg.NoVariantIntro)
    (hds : c.ds.Nodup) (hsums : c.ToldApart) (n : Nat) (g : Option R) (ref : R) (inputs : List R) :
    (hydrate c n g ref inputs).Leads (TypedValue.Alike c.reg) (hydrate { c with reg := reg' } n g ref inputs) := by
  induction n generalizing g ref inputs with
  | zero => intro x hx; exact nomatch hx
  | succ n ih =>
    unfold hydrate
    rcases hsame ref with ⟨h1, h2⟩ | ⟨l, l', h1, h2, h3⟩
    · dsimp only
      rw [h1, h2]
      intro x hx
      exact nomatch hx
    · dsimp only
      rw [h1, h2]
      dsimp only
      have hc : l.inputCount = l'.inputCount := by cases h3 <;> rfl
      rw [← hc]
      split
      · intro x hx; exact nomatch hx
      · rename_i hk
        rw [layout_anyReg (c := c) reg']
        exact layout_leads ih h3 h1 hreg hno hds hsums n inputs (fun k hc => by
          have hk' := hk
          simp [hc] at hk'
          omega)

end Hydrate

end Verif
