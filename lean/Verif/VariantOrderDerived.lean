import Verif.VariantOrder
import Verif.VariantOrderDe
import Verif.Derive

/-!
# Derived deserialization with variants in another order

Helper lemmas for C101. No further code is modelled.
-/

set_option linter.unusedSectionVars false
set_option linter.unusedSimpArgs false

namespace Verif

variable {R : Type} [DecidableEq R]

/-- If the first outcome is a value, so is the second, and the values are related. -/
def Out.Leads {ε α β : Type _} (P : α → β → Prop) (a : Out ε α) (b : Out ε β) : Prop := ∀ x, a = .ok x → ∃ y, b = .ok y ∧ P x y

namespace Out.Leads

variable {ε α β γ δ : Type _} {P : α → β → Prop} {Q : γ → δ → Prop}

theorem bind {a : Out ε α} {b : Out ε β} {f : α → Out ε γ} {g : β → Out ε δ} (h : Leads P a b)
    (hf : ∀ x y, P x y → Leads Q (f x) (g y)) : Leads Q (a.bind f) (b.bind g) := by
  intro z hz
  obtain ⟨x, h1, h2⟩ := Out.bind_eq_ok.1 hz
  obtain ⟨y, h3, h4⟩ := h x h1
  rw [h3]
  exact hf x y h4 z h2

theorem bindSame {a : Out ε α} {f : α → Out ε γ} {g : α → Out ε δ} (hf : ∀ x, Leads Q (f x) (g x)) :
    Leads Q (a.bind f) (a.bind g) := bind (P := fun x y => x = y) (fun x h => ⟨x, h, rfl⟩) fun x _ h => h ▸ hf x

theorem ok {a : α} {b : β} (h : P a b) : Leads (ε := ε) P (.ok a) (.ok b) := by
  intro x hx
  cases hx
  exact ⟨b, rfl, h⟩

theorem mono {P' : α → β → Prop} {a : Out ε α} {b : Out ε β} (h : Leads P a b) (hp : ∀ x y, P x y → P' x y) : Leads P' a b := by
  intro x hx
  obtain ⟨y, h1, h2⟩ := h x hx
  exact ⟨y, h1, hp x y h2⟩

end Out.Leads

/-- The variants that correspond to each other. -/
theorem nameless_index {R : Type _} {vs vs' : List (Variant R)} (h : (vs.map Variant.nameless).Perm (vs'.map Variant.nameless)) :
    ∃ f k : Nat → Nat, (∀ i, k (f i) = i) ∧ (∀ i, f (k i) = i) ∧
      (∀ i x, vs[i]? = some x → ∃ y, vs'[f i]? = some y ∧ y.nameless = x.nameless) ∧
      ∀ j y, vs'[j]? = some y → ∃ x, vs[k j]? = some x ∧ x.nameless = y.nameless := by
  obtain ⟨f, k, h1, h2, h3⟩ := perm_index h
  refine ⟨f, k, h1, h2, fun i x hx => ?_, fun j y hy => ?_⟩
  · have := h3 i
    rw [List.getElem?_map, List.getElem?_map, hx] at this
    cases hy : vs'[f i]? with
    | none => rw [hy] at this; exact nomatch this
    | some y =>
      rw [hy] at this
      exact ⟨y, rfl, Option.some.inj this⟩
  · have := h3 (k j)
    rw [h2, List.getElem?_map, List.getElem?_map, hy] at this
    cases hx : vs[k j]? with
    | none => rw [hx] at this; exact nomatch this
    | some x =>
      rw [hx] at this
      exact ⟨x, rfl, (Option.some.inj this).symm⟩

namespace Derived

variable {c : DsCtx R} {rec rec' : Rec R} {P : TypedValue R → TypedValue R → Prop} {g : Option R} {ref : R} {σ : Subst R}

/-- The variant does not apply. -/
def Skips (c : DsCtx R) (g : Option R) (σ : Subst R) (x : Variant R) : Prop :=
  uniqueMatch c (σ.intro x.intro) x.dataset g = .ok none

/-- The variant applies, and gives this value. -/
def Gives (c : DsCtx R) (rec : Rec R) (g : Option R) (σ : Subst R) (x : Variant R) (w : TypedValue R) : Prop :=
  ∃ σ', uniqueMatch c (σ.intro x.intro) x.dataset g = .ok (some σ') ∧ subValue c rec g x.value σ' = .ok w

theorem variants_eq_ok {vs : List (Variant R)} {i : Nat} {result : Option (TypedValue R)} {v : TypedValue R} :
    variants c rec g ref σ i vs result = .ok v ↔
    (result = some v ∧ ∀ x ∈ vs, Skips c g σ x) ∨
    (result = none ∧ ∃ k x w, vs[k]? = some x ∧ Gives c rec g σ x w ∧ v = .variant w ref (i + k) ∧
      ∀ j y, vs[j]? = some y → j ≠ k → Skips c g σ y) := by
  induction vs generalizing i result with
  | nil => cases result <;> simp [variants]
  | cons x vs ih =>
    have hshift : ∀ (result : Option (TypedValue R)), Skips c g σ x →
        ((result = some v ∧ ∀ x ∈ vs, Skips c g σ x) ∨
          (result = none ∧ ∃ k y w, vs[k]? = some y ∧ Gives c rec g σ y w ∧ v = .variant w ref (i + 1 + k) ∧
            ∀ j z, vs[j]? = some z → j ≠ k → Skips c g σ z) ↔
         (result = some v ∧ ∀ y ∈ x :: vs, Skips c g σ y) ∨
          (result = none ∧ ∃ k y w, (x :: vs)[k]? = some y ∧ Gives c rec g σ y w ∧ v = .variant w ref (i + k) ∧
            ∀ j z, (x :: vs)[j]? = some z → j ≠ k → Skips c g σ z)) := by
      intro result hx
      constructor
      · rintro (⟨h1, h2⟩ | ⟨h1, k, y, w, h2, h3, h4, h5⟩)
        · refine .inl ⟨h1, fun y hy => ?_⟩
          rcases List.mem_cons.1 hy with rfl | hy
          · exact hx
          · exact h2 y hy
        · refine .inr ⟨h1, k + 1, y, w, by simpa using h2, h3, by rw [h4, Nat.add_assoc, Nat.add_comm 1], fun j z hj hne => ?_⟩
          cases j with
          | zero =>
            simp only [List.getElem?_cons_zero, Option.some.injEq] at hj
            exact hj ▸ hx
          | succ j => exact h5 j z (by simpa using hj) (by omega)
      · rintro (⟨h1, h2⟩ | ⟨h1, k, y, w, h2, h3, h4, h5⟩)
        · exact .inl ⟨h1, fun y hy => h2 y (List.mem_cons_of_mem _ hy)⟩
        · cases k with
          | zero =>
            simp only [List.getElem?_cons_zero, Option.some.injEq] at h2
            subst h2
            obtain ⟨σ', h6, -⟩ := h3
            rw [Skips, h6] at hx
            exact nomatch hx
          | succ k =>
            refine .inr ⟨h1, k, y, w, by simpa using h2, h3, by rw [h4, Nat.add_assoc, Nat.add_comm 1], fun j z hj hne => ?_⟩
            exact h5 (j + 1) z (by simpa using hj) (by omega)
    have hnot : ∀ {e : Out DsError (Option (Subst R))}, uniqueMatch c (σ.intro x.intro) x.dataset g = e → (∀ o, e ≠ .ok o) →
        ¬ ((result = some v ∧ ∀ y ∈ x :: vs, Skips c g σ y) ∨
          (result = none ∧ ∃ k y w, (x :: vs)[k]? = some y ∧ Gives c rec g σ y w ∧ v = .variant w ref (i + k) ∧
            ∀ j z, (x :: vs)[j]? = some z → j ≠ k → Skips c g σ z)) := by
      rintro e he hne (⟨h1, h2⟩ | ⟨h1, k, y, w, h2, ⟨σ', h3, -⟩, h4, h5⟩)
      · exact hne _ (he.symm.trans (h2 x (by simp)))
      · cases k with
        | zero =>
          simp only [List.getElem?_cons_zero, Option.some.injEq] at h2
          subst h2
          exact hne _ (he.symm.trans h3)
        | succ k => exact hne _ (he.symm.trans (h5 0 x rfl (by omega)))
    unfold variants
    cases hu : uniqueMatch c (σ.intro x.intro) x.dataset g with
    | err e => exact ⟨fun h => (nomatch h), fun h => absurd h (hnot hu nofun)⟩
    | panic => exact ⟨fun h => (nomatch h), fun h => absurd h (hnot hu nofun)⟩
    | fuel => exact ⟨fun h => (nomatch h), fun h => absurd h (hnot hu nofun)⟩
    | ok o =>
      cases o with
      | none =>
        rw [Out.bind_ok]
        dsimp only
        rw [ih]
        exact hshift result hu
      | some σ' =>
        rw [Out.bind_ok]
        dsimp only
        have hx : ¬ Skips c g σ x := fun h => by rw [Skips, hu] at h; exact nomatch h
        rw [Out.bind_eq_ok]
        constructor
        · rintro ⟨w, h1, h2⟩
          cases result with
          | some r => exact nomatch h2
          | none =>
            simp only [Option.isSome_none, Bool.false_eq_true, if_false] at h2
            rcases ih.1 h2 with ⟨h3, h4⟩ | ⟨h3, -⟩
            · cases h3
              refine .inr ⟨rfl, 0, x, w, rfl, ⟨σ', hu, h1⟩, rfl, fun j z hj hne => ?_⟩
              cases j with
              | zero => exact absurd rfl hne
              | succ j => exact h4 z (List.mem_of_getElem? (by simpa using hj))
            · exact nomatch h3
        · rintro (⟨h1, h2⟩ | ⟨rfl, k, y, w, h2, h3, rfl, h5⟩)
          · exact absurd (h2 x (by simp)) hx
          · cases k with
            | zero =>
              simp only [List.getElem?_cons_zero, Option.some.injEq] at h2
              subst h2
              obtain ⟨τ, h6, h7⟩ := h3
              rw [hu] at h6
              cases h6
              refine ⟨w, h7, ?_⟩
              simp only [Option.isSome_none, Bool.false_eq_true, if_false]
              refine ih.2 (.inl ⟨rfl, fun y hy => ?_⟩)
              obtain ⟨j, hj⟩ := List.mem_iff_getElem?.1 hy
              exact h5 (j + 1) y (by simpa using hj) (by omega)
            | succ k => exact absurd (h5 0 x rfl (by omega)) hx

variable (hrec : ∀ g r i, (rec g r i).Leads P (rec' g r i))

include hrec

theorem subValue_leads (fmt : ValueFormat R) (τ : Subst R) : (subValue c rec g fmt τ).Leads P (subValue c rec' g fmt τ) :=
  .bindSame fun _ => .bindSame fun _ => hrec _ _ _

theorem variants_leads {vs vs' : List (Variant R)} (hp : (vs.map Variant.nameless).Perm (vs'.map Variant.nameless)) :
    (variants c rec g ref σ 0 vs none).Leads (fun v v' => ∃ w w' i j, v = .variant w ref i ∧ v' = .variant w' ref j ∧ P w w')
      (variants c rec' g ref σ 0 vs' none) := by
  intro v hv
  obtain ⟨f, k, h1, h2, h3, h4⟩ := nameless_index hp
  rcases variants_eq_ok.1 hv with ⟨h, -⟩ | ⟨-, i, x, w, hx, ⟨σ', hm, hs⟩, rfl, hother⟩
  · exact nomatch h
  obtain ⟨y, hy, hxy⟩ := h3 i x hx
  simp only [Variant.nameless, Prod.mk.injEq] at hxy
  obtain ⟨w', hw', hP⟩ := subValue_leads (c := c) (g := g) hrec x.value σ' w hs
  refine ⟨.variant w' ref (0 + f i), variants_eq_ok.2 (.inr ⟨rfl, f i, y, w', hy, ⟨σ', ?_, ?_⟩, rfl, fun j z hz hne => ?_⟩),
    w, w', _, _, rfl, rfl, hP⟩
  · rw [hxy.1, hxy.2.2]; exact hm
  · rw [hxy.2.1]; exact hw'
  · obtain ⟨u, hu, hzu⟩ := h4 j z hz
    simp only [Variant.nameless, Prod.mk.injEq] at hzu
    have := hother (k j) u hu fun e => hne (by rw [← e, h2])
    unfold Skips at this ⊢
    rw [← hzu.1, ← hzu.2.2]
    exact this

theorem readFields_leads (fs : List (Value × Field R)) :
    (readFields c rec g σ fs).Leads (List.Forall₂ (Option.Rel P)) (readFields c rec' g σ fs) := by
  induction fs with
  | nil => exact .ok .nil
  | cons e fs ih =>
    obtain ⟨key, field⟩ := e
    unfold readFields
    refine .bindSame fun o => ?_
    cases o with
    | some τ => exact (subValue_leads hrec _ _).bind fun v v' hv => ih.bind fun r r' hr => .ok (.cons (.some hv) hr)
    | none => exact ih.bind fun r r' hr => .ok (.cons .none hr)

omit hrec in
theorem unwrapFields_leads (fs : List (Value × Field R)) {vs vs' : List (Option (TypedValue R))}
    (h : List.Forall₂ (Option.Rel P) vs vs') :
    (unwrapFields fs vs).Leads (List.Forall₂ fun a b => a.1 = b.1 ∧ P a.2 b.2) (unwrapFields fs vs') := by
  induction h generalizing fs with
  | nil => cases fs <;> exact .ok .nil
  | cons ho _ ih =>
    cases fs with
    | nil => exact .ok .nil
    | cons e fs =>
      obtain ⟨key, field⟩ := e
      cases ho with
      | some hv => exact (ih fs).bind fun r r' hr => .ok (.cons ⟨rfl, hv⟩ hr)
      | none =>
        simp only [unwrapFields]
        split
        · intro x hx; exact nomatch hx
        · exact ih fs

theorem nodes_leads (node : ItemLayout R) (tail : R) (n : Nat) (head : R) :
    (nodes c rec g node σ tail n head).Leads (List.Forall₂ P) (nodes c rec' g node σ tail n head) := by
  induction n generalizing head with
  | zero =>
    unfold nodes
    split
    · exact .ok .nil
    · intro x hx; exact nomatch hx
  | succ n ih =>
    unfold nodes
    split
    · exact .ok .nil
    · exact .bindSame fun τ => (subValue_leads hrec _ _).bind fun v v' hv => .bindSame fun h => (ih h).bind fun r r' hr =>
        .ok (.cons hv hr)

theorem sizedItems_leads (is : List (ItemLayout R)) :
    (sizedItems c rec g σ is).Leads (List.Forall₂ P) (sizedItems c rec' g σ is) := by
  induction is with
  | nil => exact .ok .nil
  | cons item is ih =>
    unfold sizedItems
    exact .bindSame fun τ => (subValue_leads hrec _ _).bind fun v v' hv => ih.bind fun r r' hr => .ok (.cons hv hr)

theorem unorderedItems_leads (fmt : ValueFormat R) (n : Nat) (st : Matching.Stack R) :
    (unorderedItems c rec g fmt n st).Leads (List.Forall₂ P) (unorderedItems c rec' g fmt n st) := by
  induction n generalizing st with
  | zero => intro x hx; exact nomatch hx
  | succ n ih =>
    unfold unorderedItems
    refine .bindSame fun o => ?_
    cases o with
    | none => exact .ok .nil
    | some p =>
      obtain ⟨τ, st'⟩ := p
      exact (subValue_leads hrec _ _).bind fun v v' hv => (ih _).bind fun r r' hr => .ok (.cons hv hr)

omit hrec in
theorem literal_leads {reg : Registry R} {α : Type _} (o : Out DsError α) (f : α → TypedLiteral R) :
    (o.map fun a => TypedValue.literal (f a)).Leads (TypedValue.Alike reg) (o.map fun a => TypedValue.literal (f a)) := by
  intro x hx
  cases o with
  | ok a => cases hx; exact ⟨_, rfl, .literal _⟩
  | _ => exact nomatch hx

omit hrec in
theorem data_leads {reg : Registry R} (l : DataLayout R) (inputs : List R) :
    (data c g ref l inputs).Leads (TypedValue.Alike reg) (data c g ref l inputs) :=
  .bindSame fun _ => .bindSame fun _ => .bindSame fun _ => literal_leads _ id

omit hrec in
theorem layout_leads {r₀ : Registry R} (hrec : ∀ g r i, (rec g r i).Leads (TypedValue.Alike r₀) (rec' g r i)) {l l' : Layout R}
    (hl : l.SameVariants l') (n : Nat) (inputs : List R) :
    (layout c rec n g ref inputs l).Leads (TypedValue.Alike r₀) (layout c rec' n g ref inputs l') := by
  have hsum : ∀ (σ : Subst R) (vs vs' : List (Variant R)), (vs.map Variant.nameless).Perm (vs'.map Variant.nameless) →
      (variants c rec g ref σ 0 vs none).Leads (TypedValue.Alike r₀) (variants c rec' g ref σ 0 vs' none) := by
    intro σ vs vs' hp
    refine (variants_leads hrec hp).mono ?_
    rintro v v' ⟨w, w', i, j, rfl, rfl, h3⟩
    exact .variant ref i j h3
  have hlist : ∀ {m m' : List (TypedValue R)}, List.Forall₂ (TypedValue.Alike r₀) m m' →
      TypedValue.Alike r₀ (.list m ref) (.list m' ref) :=
    fun h => .list ref h.length_eq fun i a b ha hb => Hydrate.forall₂_getElem? h ha hb
  cases hl with
  | sum input _ dataset hp => exact .bindSame fun σ => hsum σ _ _ hp
  | refl l =>
    cases l with
    | never => intro x hx; exact nomatch hx
    | always => intro x hx; exact nomatch hx
    | unit l => exact .bindSame fun _ => .ok (.literal _)
    | boolean l => exact data_leads _ _
    | number l => exact data_leads _ _
    | byteString l => exact data_leads _ _
    | textString l => exact data_leads _ _
    | id l => exact .bindSame fun _ => .bindSame fun _ => literal_leads _ _
    | sum l => exact .bindSame fun σ => hsum σ _ _ (List.Perm.refl _)
    | product l =>
      exact .bindSame fun σ => (readFields_leads hrec _).bind fun d d' hd => (unwrapFields_leads _ hd).bind fun m m' h =>
        .ok (.map ref (Hydrate.forall₂_keys h) fun i a b ha hb => (Hydrate.forall₂_getElem? h ha hb).2)
    | ordered l =>
      exact .bindSame fun σ => .bindSame fun head => .bindSame fun tail => (nodes_leads hrec _ _ _ _).bind fun m m' h => .ok (hlist h)
    | sized l => exact .bindSame fun σ => (sizedItems_leads hrec _).bind fun m m' h => .ok (hlist h)
    | unordered l =>
      exact .bindSame fun σ => .bindSame fun pats => (unorderedItems_leads hrec _ _ _).bind fun m m' h => .ok (hlist h)

omit hrec in
theorem variants_anyReg (reg' : Registry R) (vs : List (Variant R)) (i : Nat) (result : Option (TypedValue R)) :
    variants { c with reg := reg' } rec g ref σ i vs result = variants c rec g ref σ i vs result := by
  induction vs generalizing i result with
  | nil => cases result <;> rfl
  | cons x vs ih =>
    unfold variants
    simp only [ih]
    rfl

omit hrec in
theorem readFields_anyReg (reg' : Registry R) (fs : List (Value × Field R)) :
    readFields { c with reg := reg' } rec g σ fs = readFields c rec g σ fs := by
  induction fs with
  | nil => rfl
  | cons x fs ih =>
    unfold readFields
    simp only [ih]
    rfl

omit hrec in
theorem nodes_anyReg (reg' : Registry R) (node : ItemLayout R) (tail : R) (n : Nat) (head : R) :
    nodes { c with reg := reg' } rec g node σ tail n head = nodes c rec g node σ tail n head := by
  induction n generalizing head with
  | zero => unfold nodes; rfl
  | succ n ih =>
    unfold nodes
    simp only [ih]
    rfl

omit hrec in
theorem sizedItems_anyReg (reg' : Registry R) (is : List (ItemLayout R)) :
    sizedItems { c with reg := reg' } rec g σ is = sizedItems c rec g σ is := by
  induction is with
  | nil => rfl
  | cons x is ih =>
    unfold sizedItems
    simp only [ih]
    rfl

omit hrec in
theorem unorderedItems_anyReg (reg' : Registry R) (fmt : ValueFormat R) (n : Nat) (st : Matching.Stack R) :
    unorderedItems { c with reg := reg' } rec g fmt n st = unorderedItems c rec g fmt n st := by
  induction n generalizing st with
  | zero => rfl
  | succ n ih =>
    unfold unorderedItems
    simp only [ih]
    rfl

omit hrec in
theorem layout_anyReg (reg' : Registry R) (n : Nat) (inputs : List R) (l : Layout R) :
    layout { c with reg := reg' } rec n g ref inputs l = layout c rec n g ref inputs l := by
  cases l <;> simp only [layout, variants_anyReg, readFields_anyReg, nodes_anyReg, sizedItems_anyReg, unorderedItems_anyReg] <;> rfl

omit hrec in
theorem deserialize_leads {r₀ reg' : Registry R} (hreg : c.reg.SameVariants reg') (n : Nat) (g : Option R) (ref : R) (inputs : List R) :
    (deserialize c n g ref inputs).Leads (TypedValue.Alike r₀) (deserialize { c with reg := reg' } n g ref inputs) := by
  induction n generalizing g ref inputs with
  | zero => intro x hx; exact nomatch hx
  | succ n ih =>
    unfold deserialize
    dsimp only
    cases c.prim ref with
    | some p => exact .bindSame fun r => literal_leads _ id
    | none =>
      dsimp only
      rcases hreg ref with ⟨h1, h2⟩ | ⟨l, l', h1, h2, h3⟩
      · rw [h1, h2]
        intro x hx
        exact nomatch hx
      · rw [h1, h2]
        dsimp only
        rw [layout_anyReg (c := c) reg']
        exact layout_leads ih h3 n inputs

end Derived

end Verif
