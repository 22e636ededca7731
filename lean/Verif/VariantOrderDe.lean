import Verif.VariantOrderSpec
import Verif.DeErrorSites

/-!
# Dehydration with variants in another order

Helper lemmas for C101. No further code is modelled.
-/

set_option linter.unusedSectionVars false
set_option linter.unusedSimpArgs false

namespace Verif

theorem perm_index {α : Type _} {l l' : List α} (h : l.Perm l') :
    ∃ f k : Nat → Nat, (∀ i, k (f i) = i) ∧ (∀ i, f (k i) = i) ∧ ∀ i, l'[f i]? = l[i]? := by
  induction h with
  | nil => exact ⟨id, id, fun _ => rfl, fun _ => rfl, fun _ => rfl⟩
  | cons x _ ih =>
    obtain ⟨f, k, h1, h2, h3⟩ := ih
    refine ⟨fun | 0 => 0 | i + 1 => f i + 1, fun | 0 => 0 | i + 1 => k i + 1, fun i => ?_, fun i => ?_, fun i => ?_⟩
    · cases i <;> simp [h1]
    · cases i <;> simp [h2]
    · cases i <;> simp [h3]
  | swap x y l =>
    refine ⟨fun | 0 => 1 | 1 => 0 | i + 2 => i + 2, fun | 0 => 1 | 1 => 0 | i + 2 => i + 2, fun i => ?_, fun i => ?_, fun i => ?_⟩
    · rcases i with _ | _ | i <;> rfl
    · rcases i with _ | _ | i <;> rfl
    · rcases i with _ | _ | i <;> simp
  | trans _ _ ih ih' =>
    obtain ⟨f, k, h1, h2, h3⟩ := ih
    obtain ⟨f', k', h1', h2', h3'⟩ := ih'
    exact ⟨f' ∘ f, k ∘ k', fun i => by simp [h1, h1'], fun i => by simp [h2, h2'], fun i => by simp [h3, h3']⟩

/-- The variants that correspond to each other. -/
theorem variant_index {vs vs' : List (Variant Term)} (h : (vs.map Variant.nameless).Perm (vs'.map Variant.nameless)) :
    ∃ f k : Nat → Nat, (∀ i, k (f i) = i) ∧ (∀ i, f (k i) = i) ∧
      (∀ i x, vs[i]? = some x → ∃ y, vs'[f i]? = some y ∧ y.value = x.value) ∧
      ∀ j y, vs'[j]? = some y → ∃ x, vs[k j]? = some x ∧ x.value = y.value := by
  obtain ⟨f, k, h1, h2, h3⟩ := perm_index h
  refine ⟨f, k, h1, h2, fun i x hx => ?_, fun j y hy => ?_⟩
  · have := h3 i
    rw [List.getElem?_map, List.getElem?_map, hx] at this
    cases hy : vs'[f i]? with
    | none => rw [hy] at this; exact nomatch this
    | some y =>
      rw [hy] at this
      simp only [Option.map_some, Option.some.injEq, Variant.nameless, Prod.mk.injEq] at this
      exact ⟨y, rfl, this.2.1⟩
  · have := h3 (k j)
    rw [h2, List.getElem?_map, List.getElem?_map, hy] at this
    cases hx : vs[k j]? with
    | none => rw [hx] at this; exact nomatch this
    | some x =>
      rw [hx] at this
      simp only [Option.map_some, Option.some.injEq, Variant.nameless, Prod.mk.injEq] at this
      exact ⟨x, rfl, this.2.1.symm⟩

section

variable {c : DeCtx} {reg' : Registry Term} (hreg : c.reg.SameVariants reg')

theorem Layout.SameVariants.inputCount_eq {R : Type _} {l l' : Layout R} (h : l.SameVariants l') : l'.inputCount = l.inputCount := by
  cases h <;> rfl

include hreg

/-- The corresponding layout. -/
theorem has_plain {p : DePlace} {l : Layout Term} (h : p.Has c l) (hs : ∀ l', l ≠ .sum l') :
    p.Has { c with reg := reg' } l := by
  rcases hreg p.layout with ⟨h1, -⟩ | ⟨m, m', h1, h2, h3⟩
  · rw [h.1] at h1; exact nomatch h1
  · rw [h.1] at h1
    cases h1
    cases h3 with
    | refl => exact ⟨h2, h.2⟩
    | sum => exact absurd rfl (hs _)

theorem has_sum {p : DePlace} {l : SumLayout Term} (h : p.Has c (.sum l)) :
    ∃ l', p.Has { c with reg := reg' } (.sum l') ∧ (l.variants.map Variant.nameless).Perm (l'.variants.map Variant.nameless) := by
  rcases hreg p.layout with ⟨h1, -⟩ | ⟨m, m', h1, h2, h3⟩
  · rw [h.1] at h1; exact nomatch h1
  · rw [h.1] at h1
    cases h1
    cases h3 with
    | refl => exact ⟨l, ⟨h2, h.2⟩, .refl _⟩
    | sum input _ dataset hp => exact ⟨_, ⟨h2, h.2⟩, hp⟩

mutual

theorem DeAccepts.reorder {p : DePlace} : DeAccepts c p → DeAccepts { c with reg := reg' } p
  | .plain h hs hm hk hsub => .plain (has_plain hreg h hs) hs hm hk fun fmt v h => (hsub fmt v h).reorder
  | .sum i err h hx ha hf => by
    obtain ⟨l', hl', hp⟩ := has_sum hreg h
    obtain ⟨f, k, h1, h2, h3, h4⟩ := variant_index hp
    obtain ⟨y, hy, hv⟩ := h3 i _ hx
    refine .sum (f i) (err ∘ k) hl' hy (hv ▸ ha.reorder) fun j z hz hne => ?_
    obtain ⟨w, hw, hv'⟩ := h4 j z hz
    exact hv' ▸ (hf (k j) w hw (fun e => hne (by rw [← e, h2]))).reorder

theorem DeFails.reorder {p : DePlace} {e : DeError} : DeFails c p e → DeFails { c with reg := reg' } p e
  | .notFound h => by
    rcases hreg p.layout with ⟨-, h2⟩ | ⟨m, m', h1, -⟩
    · exact .notFound h2
    · rw [h] at h1; exact nomatch h1
  | .inputs h hi hn => by
    rcases hreg p.layout with ⟨h1, -⟩ | ⟨m, m', h1, h2, h3⟩
    · rw [h] at h1; exact nomatch h1
    · rw [h] at h1
      cases h1
      exact .inputs h2 (h3.inputCount_eq ▸ hi) hn
  | @DeFails.misfit _ _ l h hm => by
    refine .misfit (has_plain hreg h fun l' e => ?_) hm
    subst e
    cases hm with
    | kind hm => exact hm
  | .required h hk => .required (has_plain hreg h fun l' e => by subst e; cases hk) hk
  | @DeFails.noVariant _ _ l err h hn => by
    obtain ⟨l', hl', hp⟩ := has_sum hreg h
    obtain ⟨f, k, h1, h2, h3, h4⟩ := variant_index hp
    have hall : ∀ x ∈ l.variants, DeFails { c with reg := reg' } (.via x.value p.value) (err x) := fun x hx => (hn x hx).reorder
    have hex : ∀ y ∈ l'.variants, ∃ e, DeFails { c with reg := reg' } (.via y.value p.value) e := by
      intro y hy
      obtain ⟨j, hj⟩ := List.mem_iff_getElem?.1 hy
      obtain ⟨x, hx, hv⟩ := h4 j y hj
      exact ⟨err x, hv ▸ hall x (List.mem_of_getElem? hx)⟩
    classical
    refine .noVariant (fun y => if hy : y ∈ l'.variants then (hex y hy).choose else .dataAmbiguity) hl' fun y hy => ?_
    rw [dif_pos hy]
    exact (hex y hy).choose_spec
  | @DeFails.ambiguous _ _ l i j x y h hij hi hj hax hay => by
    obtain ⟨l', hl', hp⟩ := has_sum hreg h
    obtain ⟨f, k, h1, h2, h3, h4⟩ := variant_index hp
    obtain ⟨x', hx', hvx⟩ := h3 i x hi
    obtain ⟨y', hy', hvy⟩ := h3 j y hj
    exact .ambiguous hl' (fun e => hij (by rw [← h1 i, e, h1])) hx' hy' (hvx ▸ hax.reorder) (hvy ▸ hay.reorder)
  | .component h hs hsub hf => .component (has_plain hreg h hs) hs hsub hf.reorder

end

end

end Verif
