import Verif.RenameMatching

/-! # Hydration in a renamed and enriched dataset -/

set_option linter.unusedSectionVars false
set_option linter.unusedSimpArgs false

namespace Verif

variable {R : Type _} [DecidableEq R]

namespace Matching

/-- Where the substitutions of the stack come from: they extend `σ₀` with resources of `Q`, and they bind, or are going to bind,
the variables of `X`. -/
def Origin (Q : R → Prop) (X : List Nat) (σ₀ : Subst R) (s : State R) : Prop :=
  ∃ Y, Grows Q Y σ₀ s.subst ∧ ∀ x ∈ X, x ∈ Y ∨ x ∈ patsVars s.rest ∨ ∃ pat ms, s.quadState = some (pat, ms) ∧ x ∈ pat.vars

theorem nextFuel_origin {ε} {ds : List (Quad R)} {Q : R → Prop} {X : List Nat} {σ₀ : Subst R}
    (hQ : ∀ q ∈ ds, ∀ r, q.Has r → Q r) (n : Nat) (st : Stack R)
    (hm : ∀ s ∈ st, ∀ pat ms, s.quadState = some (pat, ms) → ∀ q ∈ ms, q ∈ ds)
    (hst : ∀ s ∈ st, Origin Q X σ₀ s) (σ : Subst R) (st' : Stack R)
    (h : (nextFuel ds n st : Out ε _) = .ok (some (σ, st'))) : Grows Q X σ₀ σ := by
  induction n generalizing st with
  | zero => simp [nextFuel] at h
  | succ n ih =>
    match st with
    | [] => simp [nextFuel, step] at h
    | ⟨σ₁, none, []⟩ :: st =>
      simp only [nextFuel, step, Out.ok.injEq, Option.some.injEq, Prod.mk.injEq] at h
      obtain ⟨rfl, -⟩ := h
      obtain ⟨Y, hY, hX⟩ := hst _ (List.mem_cons_self)
      refine ⟨hY.len, hY.values, hY.keeps, fun i hi => ?_⟩
      rcases hX i hi with h | h | ⟨pat, ms, h, -⟩
      · exact hY.binds i h
      · simp [patsVars] at h
      · simp at h
    | ⟨σ₁, none, pat :: rest⟩ :: st =>
      simp only [nextFuel, step] at h
      refine ih _ ?_ ?_ h
      · intro s hs p ms e
        rcases List.mem_cons.1 hs with rfl | hs
        · simp only [Option.some.injEq, Prod.mk.injEq] at e
          obtain ⟨-, rfl⟩ := e
          exact fun q hq => (List.mem_filter.1 hq).1
        · exact hm s (by simp [hs]) p ms e
      · intro s hs
        rcases List.mem_cons.1 hs with rfl | hs
        · obtain ⟨Y, hY, hX⟩ := hst _ (List.mem_cons_self)
          refine ⟨Y, hY, fun x hx => ?_⟩
          rcases hX x hx with h | h | ⟨_, _, h, -⟩
          · exact .inl h
          · simp only [patsVars, List.flatMap_cons, List.mem_append] at h
            rcases h with h | h
            · exact .inr (.inr ⟨pat, _, rfl, h⟩)
            · exact .inr (.inl h)
          · simp at h
        · exact hst s (by simp [hs])
    | ⟨σ₁, some (pat, []), rest⟩ :: st =>
      simp only [nextFuel, step] at h
      exact ih st (fun s hs => hm s (by simp [hs])) (fun s hs => hst s (by simp [hs])) h
    | ⟨σ₁, some (pat, q :: ms), rest⟩ :: st =>
      have hm' : ∀ s ∈ (⟨σ₁, some (pat, ms), rest⟩ : State R) :: st, ∀ pat ms, s.quadState = some (pat, ms) → ∀ q ∈ ms, q ∈ ds := by
        intro s hs p ms' e
        rcases List.mem_cons.1 hs with rfl | hs
        · simp only [Option.some.injEq, Prod.mk.injEq] at e
          obtain ⟨rfl, rfl⟩ := e
          exact fun q' hq' => hm _ (List.mem_cons_self) pat _ rfl q' (by simp [hq'])
        · exact hm s (by simp [hs]) p ms' e
      have hst' : ∀ s ∈ (⟨σ₁, some (pat, ms), rest⟩ : State R) :: st, Origin Q X σ₀ s := by
        intro s hs
        rcases List.mem_cons.1 hs with rfl | hs
        · obtain ⟨Y, hY, hX⟩ := hst _ (List.mem_cons_self)
          refine ⟨Y, hY, fun x hx => ?_⟩
          rcases hX x hx with h | h | ⟨p, ms', h, h'⟩
          · exact .inl h
          · exact .inr (.inl h)
          · simp only [Option.some.injEq, Prod.mk.injEq] at h
            obtain ⟨rfl, -⟩ := h
            exact .inr (.inr ⟨pat, ms, rfl, h'⟩)
        · exact hst s (by simp [hs])
      simp only [nextFuel, step] at h
      match hr : (σ₁.withQuad pat q : Out Empty _) with
      | .ok (some σ₂) =>
        simp only [hr] at h
        refine ih _ ?_ ?_ h
        · intro s hs
          rcases List.mem_cons.1 hs with rfl | hs
          · simp
          · exact hm' s hs
        · intro s hs
          rcases List.mem_cons.1 hs with rfl | hs
          · obtain ⟨Y, hY, hX⟩ := hst _ (List.mem_cons_self)
            have hg := withQuad_grows hr
            have hqd : q ∈ ds := hm _ (List.mem_cons_self) pat _ rfl q (by simp)
            refine ⟨Y ++ pat.vars, hY.trans ⟨hg.len, fun i r e => (hg.values i r e).imp id (hQ q hqd r), hg.keeps, hg.binds⟩,
              fun x hx => ?_⟩
            rcases hX x hx with h | h | ⟨p, ms', h, h'⟩
            · exact .inl (by simp [h])
            · exact .inr (.inl h)
            · simp only [Option.some.injEq, Prod.mk.injEq] at h
              obtain ⟨rfl, -⟩ := h
              exact .inl (by simp [h'])
          · exact hst' s hs
      | .ok none =>
        simp only [hr] at h
        exact ih _ hm' hst' h
      | .panic => simp [hr] at h
      | .fuel => simp [hr] at h
      | .err e => exact e.elim

theorem intoUnique_grows {ds : List (Quad R)} {σ τ : Subst R} {pats : List (QuadPat R)}
    (h : intoUnique ds (new σ pats) = .ok (some τ)) : Grows (fun r => ∃ q ∈ ds, q.Has r) (patsVars pats) σ τ := by
  unfold intoUnique at h
  obtain ⟨a, ha, h⟩ := Out.bind_eq_ok.1 h
  match a, ha, h with
  | some (σ₁, st), ha, h =>
    obtain ⟨b, hb, h⟩ := Out.bind_eq_ok.1 h
    match b, h with
    | none, h =>
      simp only [Out.ok.injEq, Option.some.injEq] at h
      subst h
      refine nextFuel_origin (fun q hq r hr => ⟨q, hq, hr⟩) _ _ ?_ ?_ _ _ ha
      · simp [new]
      · simp only [new, List.mem_singleton, forall_eq]
        exact ⟨[], Grows.refl σ, fun x hx => .inr (.inl hx)⟩

end Matching

namespace Hydrate

open Matching

variable {f : R → R} {P : R → Prop} {D : Quad R → Prop} {c c' : HyCtx R}

theorem bind_mapErr {ε ε' α β} {e : ε → ε'} {x : Out ε α} {k : α → Out ε β} {k' : α → Out ε' β}
    (h : ∀ a, x = .ok a → k' a = (k a).mapErr e) : (x.mapErr e).bind k' = (x.bind k).mapErr e := by
  cases x with
  | ok a => exact h a rfl
  | err _ => rfl
  | panic => rfl
  | fuel => rfl

theorem bind_map_mapErr {ε ε' α α' β} {e : ε → ε'} {g : α → α'} {x : Out ε α} {k : α → Out ε β} {k' : α' → Out ε' β}
    (h : ∀ a, x = .ok a → k' (g a) = (k a).mapErr e) : ((x.map g).mapErr e).bind k' = (x.bind k).mapErr e := by
  cases x with
  | ok a => exact h a rfl
  | err _ => rfl
  | panic => rfl
  | fuel => rfl

theorem map_mapErr {ε ε' α β} {e : ε → ε'} {g : α → β} {x : Out ε α} : (x.mapErr e).map g = (x.map g).mapErr e := by
  cases x <;> rfl

/-- The patterns only have constants of `P` that are not renamed. -/
def Fixed (f : R → R) (P : R → Prop) (pats : List (QuadPat R)) : Prop := ∀ r, PatsHaveConstant pats r → P r ∧ f r = r

/-- The pattern only has a constant of `P` that is not renamed. -/
def FixedPat (f : R → R) (P : R → Prop) (p : Pattern R) : Prop := ∀ r, p = .res r → P r ∧ f r = r

/-- The value format only has constants of `P` that are not renamed. -/
def FixedFormat (f : R → R) (P : R → Prop) (fmt : ValueFormat R) : Prop := ∀ r, fmt.HasConstant r → P r ∧ f r = r

theorem FixedPat.rename {p : Pattern R} (h : FixedPat f P p) : p.rename f = p := by
  cases p with
  | res r => simp [Pattern.rename, (h r rfl).2]
  | var x => rfl

theorem Fixed.pats {pats : List (QuadPat R)} (h : Fixed f P pats) {q : QuadPat R} (hq : q ∈ pats) :
    FixedPat f P q.s ∧ FixedPat f P q.p ∧ FixedPat f P q.o ∧ ∀ p, q.g = some p → FixedPat f P p :=
  ⟨fun r e => h r ⟨q, hq, .inl e⟩, fun r e => h r ⟨q, hq, .inr (.inl e)⟩, fun r e => h r ⟨q, hq, .inr (.inr (.inl e))⟩,
    fun p e r e' => h r ⟨q, hq, .inr (.inr (.inr (e'  ▸ e)))⟩⟩

theorem withDefaultGraph_rename {pats : List (QuadPat R)} (h : Fixed f P pats) (g : Option R) :
    withDefaultGraph pats (g.map f) = (withDefaultGraph pats g).map (QuadPat.rename f) := by
  simp only [withDefaultGraph, List.map_map]
  refine List.map_congr_left fun q hq => ?_
  obtain ⟨h1, h2, h3, h4⟩ := h.pats hq
  simp only [Function.comp, QuadPat.rename, Quad.map, h1.rename, h2.rename, h3.rename, Quad.mk.injEq, true_and]
  match hg : q.g with
  | none => cases g <;> simp [Pattern.rename]
  | some p => simp [(h4 p hg).rename]

theorem within_default {pats : List (QuadPat R)} (h : Fixed f P pats) {g : Option R} (hg : ∀ r, g = some r → P r) :
    ∀ q ∈ withDefaultGraph pats g, q.Within P := by
  intro q' hq'
  obtain ⟨q, hq, rfl⟩ := List.mem_map.1 hq'
  clear hq'
  obtain ⟨h1, h2, h3, h4⟩ := h.pats hq
  refine ⟨fun r e => (h1 r e).1, fun r e => (h2 r e).1, fun r e => (h3 r e).1, fun p e r e' => ?_⟩
  subst e'
  match hq' : q.g, e with
  | some p, e =>
    simp only [hq', Option.some_or, Option.some.injEq] at e
    exact (h4 p hq' r e).1
  | none, e =>
    simp only [hq', Option.none_or, Option.map_eq_some_iff, Pattern.res.injEq, exists_eq_right] at e
    exact hg r e

theorem useless_of_ignored {ds : List (Quad R)} {pats : List (QuadPat R)} (hfix : Fixed f P pats) (g : Option R)
    (hds : ∀ q ∈ ds, ∀ r, q.Has r → P r) {b : Nat → Prop} {σ : Subst R} (hσ : σ.Within P)
    (hb : ∀ x, b x → σ.get x ≠ none) (h : ∀ e, D e → Ignored e (∀ r, P r → f r ≠ e.s) b pats) :
    Useless f D ds σ (withDefaultGraph pats g) := by
  induction pats generalizing b σ with
  | nil => trivial
  | cons q rest ih =>
    obtain ⟨h1, h2, h3, h4⟩ := hfix.pats (List.mem_cons_self)
    refine ⟨fun e he => ?_, fun m hm σ' hs => ?_⟩
    · rcases (h e he).1 with hx | ⟨hfor, x, hx, hbx⟩
      · left
        have key : ∀ {p : Pattern R} {r r' : R}, FixedPat f P p → p = .res r → r ≠ r' → (p.rename f).admits r' = false := by
          intro p r r' hp e hne
          rw [hp.rename, e]
          simpa [Pattern.admits] using hne
        unfold QuadPat.admits
        simp only [QuadPat.rename, Quad.map]
        rcases hx with ⟨r, hr, hne⟩ | ⟨r, hr, hne⟩ | ⟨r, hr, hne⟩ | ⟨r, hr, hne⟩
        · simp [key h1 hr hne]
        · simp [key h2 hr hne]
        · simp [key h3 hr hne]
        · simp only [hr, Option.some_or, Option.map_some]
          cases he : e.g with
          | none => simp
          | some r' =>
            have : r ≠ r' := fun h => hne (by rw [he, h])
            simp [key (h4 _ hr) rfl this]
      · right
        have : σ.get x ≠ none := hb x hbx
        obtain ⟨r, hr⟩ := Option.ne_none_iff_exists'.1 this
        have hne := hfor r (hσ x r hr)
        have hr' : (σ.rename f).get x = some (f r) := by rw [Subst.get_rename, hr]; rfl
        have hl : x < (σ.rename f).length := by
          by_contra hl
          rw [Subst.get_of_ge (Nat.le_of_not_lt hl)] at hr'
          cases hr'
        have hgx : (σ.rename f)[x] = some (f r) := by
          rw [Subst.get, List.getElem?_eq_getElem hl] at hr'
          exact hr'
        unfold Subst.withQuad
        have e0 : ((σ.rename f).bindComponent (Pattern.var x) e.s : Out Empty _) = .ok none := by
          simp only [Subst.bindComponent, Subst.set, List.getElem?_eq_getElem hl, hgx]
          simp [hne]
        simp only [QuadPat.rename, Quad.map, hx, Pattern.rename, e0, Subst.andThen]
    · have hg := withQuad_grows hs
      refine ih (fun r hr => hfix r ?_) (b := fun x => b x ∨ x ∈ q.vars) (hg.within hσ (hds m hm)) ?_ fun e he => (h e he).2
      · obtain ⟨q', hq', hr⟩ := hr
        exact ⟨q', by simp [hq'], hr⟩
      · rintro x (hx | hx)
        · exact hg.keeps x (hb x hx)
        · refine hg.binds x ?_
          simp only [QuadPat.vars, List.mem_append] at hx ⊢
          rcases hx with hx | hx | hx | hx
          · exact .inl hx
          · exact .inr (.inl hx)
          · exact .inr (.inr (.inl hx))
          · refine .inr (.inr (.inr ?_))
            cases hq : q.g with
            | none => simp [hq] at hx
            | some p => simpa [hq] using hx

/-- The invariant of the substitutions: values in use, and known variables bound. -/
structure Inv (P : R → Prop) (b : Nat → Prop) (σ : Subst R) : Prop where
  within : σ.Within P
  bound : ∀ x, b x → σ.get x ≠ none

theorem Inv.intro {b : Nat → Prop} {σ : Subst R} (h : Inv P b σ) (k : Nat) : Inv P b (σ.intro k) := by
  have key : ∀ x, (σ.intro k).get x = σ.get x := by
    intro x
    simp only [Subst.intro, Subst.get]
    by_cases hx : x < σ.length
    · rw [List.getElem?_append_left hx]
    · rw [List.getElem?_append_right (by omega), List.getElem?_eq_none (l := σ) (by omega)]
      rw [List.getElem?_replicate]
      split <;> rename_i h
      · split at h <;> simp at h; exact h.symm
      · rfl
  exact ⟨fun x r e => h.within x r (by rwa [key] at e), fun x hx => by rw [key]; exact h.bound x hx⟩

theorem inv_inputs {ins : List R} (h : ∀ r ∈ ins, P r) (k : Nat) :
    Inv P (· < ins.length) ((Subst.fromInputs ins).intro k) := by
  refine Inv.intro ⟨fun x r e => ?_, fun x hx => ?_⟩ k
  · simp only [Subst.get, Subst.fromInputs, List.getElem?_map] at e
    match hx : ins[x]?, e with
    | some r', e =>
      simp only [hx, Option.map_some, Option.some.injEq] at e
      exact e ▸ h r' (List.mem_of_getElem? hx)
    | none, e => simp [hx] at e
  · simp [Subst.get, Subst.fromInputs, hx]

theorem Inv.push {b : Nat → Prop} {σ : Subst R} (h : Inv P b σ) {r : R} (hr : P r) :
    Inv P (fun x => b x ∨ x = σ.length) (Subst.push σ (some r)) := by
  have key : ∀ x, x < σ.length → (Subst.push σ (some r)).get x = σ.get x := by
    intro x hx
    simp only [Subst.push, Subst.get, List.getElem?_append_left hx]
  have last : (Subst.push σ (some r)).get σ.length = some r := by simp [Subst.push, Subst.get]
  have over : ∀ x, σ.length < x → (Subst.push σ (some r)).get x = none := fun x hx =>
    Subst.get_of_ge (by simp [Subst.push]; omega)
  constructor
  · intro x r' e
    rcases Nat.lt_trichotomy x σ.length with hx | rfl | hx
    · rw [key x hx] at e; exact h.within x r' e
    · rw [last] at e; cases e; exact hr
    · rw [over x hx] at e; cases e
  · rintro x (hx | rfl)
    · have h' := h.bound x hx
      have hl : x < σ.length := by
        by_contra hl
        exact h' (Subst.get_of_ge (Nat.le_of_not_lt hl))
      rw [key x hl]; exact h'
    · rw [last]; simp

variable (E : Extension f P D c c')
include E

theorem unique_rename {frag frag' : DataFragment R} (hfr : ∀ e, HyError.ofMatching frag' e = (HyError.ofMatching frag e).rename f)
    {b : Nat → Prop} {σ : Subst R} (hσ : Inv P b σ)
    {pats : List (QuadPat R)} (hfix : Fixed f P pats) (hu : ∀ e, D e → Ignored e (∀ r, P r → f r ≠ e.s) b pats) {g : Option R}
    (hg : ∀ r, g = some r → P r) :
    uniqueMatch c' frag' (σ.rename f) pats (g.map f) =
      ((uniqueMatch c frag σ pats g).map (Option.map (Subst.rename f))).mapErr (HyError.rename f) := by
  unfold uniqueMatch
  rw [withDefaultGraph_rename hfix, intoUnique_rename E.injective E.dataset E.quads σ hσ.within _ (within_default hfix hg)
    (useless_of_ignored hfix g E.quads hσ.within hσ.bound hu)]
  cases intoUnique c.ds (new σ (withDefaultGraph pats g)) with
  | ok a => rfl
  | err e => simp [Out.map, Out.mapErr, hfr]
  | panic => rfl
  | fuel => rfl

theorem required_rename {frag frag' : DataFragment R} (hfr : ∀ e, HyError.ofMatching frag' e = (HyError.ofMatching frag e).rename f)
    {b : Nat → Prop} {σ : Subst R} (hσ : Inv P b σ)
    {pats : List (QuadPat R)} (hfix : Fixed f P pats) (hu : ∀ e, D e → Ignored e (∀ r, P r → f r ≠ e.s) b pats) {g : Option R}
    (hg : ∀ r, g = some r → P r) :
    requiredMatch c' frag' (σ.rename f) pats (g.map f) =
      ((requiredMatch c frag σ pats g).map (Subst.rename f)).mapErr (HyError.rename f) := by
  unfold requiredMatch intoRequiredUnique
  rw [withDefaultGraph_rename hfix, intoUnique_rename E.injective E.dataset E.quads σ hσ.within _ (within_default hfix hg)
    (useless_of_ignored hfix g E.quads hσ.within hσ.bound hu)]
  match intoUnique c.ds (new σ (withDefaultGraph pats g)) with
  | .ok (some a) => rfl
  | .ok none => simp [Out.map, Out.mapErr, hfr]
  | .err e => simp [Out.map, Out.mapErr, hfr]
  | .panic => rfl
  | .fuel => rfl

omit E in
theorem patsVars_default (pats : List (QuadPat R)) (g : Option R) {x : Nat} (hx : x ∈ patsVars pats) :
    x ∈ patsVars (withDefaultGraph pats g) := by
  simp only [patsVars, List.mem_flatMap, withDefaultGraph, List.mem_map] at hx ⊢
  obtain ⟨q, hq, hx⟩ := hx
  refine ⟨_, ⟨q, hq, rfl⟩, ?_⟩
  simp only [QuadPat.vars, List.mem_append] at hx ⊢
  rcases hx with hx | hx | hx | hx
  · exact .inl hx
  · exact .inr (.inl hx)
  · exact .inr (.inr (.inl hx))
  · refine .inr (.inr (.inr ?_))
    cases hq : q.g with
    | none => simp [hq] at hx
    | some p => simpa [hq] using hx

theorem unique_inv {frag : DataFragment R} {b : Nat → Prop} {σ τ : Subst R} (hσ : Inv P b σ) {pats : List (QuadPat R)} {g : Option R}
    (h : uniqueMatch c frag σ pats g = .ok (some τ)) : Inv P (fun x => b x ∨ x ∈ patsVars pats) τ ∧ τ.length = σ.length := by
  have hg := intoUnique_grows (Out.mapErr_eq_ok.1 h)
  refine ⟨⟨hg.within hσ.within fun r ⟨q, hq, hr⟩ => E.quads q hq r hr, ?_⟩, hg.len⟩
  rintro x (hx | hx)
  · exact hg.keeps x (hσ.bound x hx)
  · exact hg.binds x (patsVars_default _ _ hx)

theorem required_inv {frag : DataFragment R} {b : Nat → Prop} {σ τ : Subst R} (hσ : Inv P b σ) {pats : List (QuadPat R)} {g : Option R}
    (h : requiredMatch c frag σ pats g = .ok τ) : Inv P (fun x => b x ∨ x ∈ patsVars pats) τ ∧ τ.length = σ.length := by
  refine unique_inv E (frag := frag) hσ (pats := pats) (g := g) ?_
  unfold requiredMatch intoRequiredUnique at h
  unfold uniqueMatch
  match hm : intoUnique c.ds (new σ (withDefaultGraph pats g)), h with
  | .ok (some a), h =>
    simp only [hm, Out.bind_ok, Out.mapErr, Out.ok.injEq] at h
    rw [h]; rfl
  | .ok none, h => simp [hm, Out.mapErr] at h
  | .err e, h => simp [hm, Out.mapErr] at h
  | .panic, h => simp [hm, Out.mapErr] at h
  | .fuel, h => simp [hm, Out.mapErr] at h

omit E in
theorem value_rename {p : Pattern R} (hp : FixedPat f P p) (σ : Subst R) : p.value (σ.rename f) = (p.value σ).map f := by
  cases p with
  | res r => simp [Pattern.value, Pattern.apply, Pattern.intoResource, (hp r rfl).2]
  | var x =>
    simp only [Pattern.value, Pattern.apply, Subst.get_rename]
    cases σ.get x <;> rfl

omit E in
theorem value_within {p : Pattern R} (hp : FixedPat f P p) {σ : Subst R} (hσ : σ.Within P) {r : R} (h : p.value σ = some r) :
    P r := by
  cases p with
  | res r' =>
    simp only [Pattern.value, Pattern.apply, Pattern.intoResource, Option.some.injEq] at h
    exact h ▸ (hp r' rfl).1
  | var x =>
    simp only [Pattern.value, Pattern.apply] at h
    split at h
    · rename_i r' e
      simp only [Pattern.intoResource, Option.some.injEq] at h
      exact h ▸ hσ x r' e
    · simp [Pattern.intoResource] at h

omit E in
theorem resource_rename {p : Pattern R} (hp : FixedPat f P p) (σ : Subst R) :
    resource p (σ.rename f) = ((resource p σ).map f).mapErr (HyError.rename f) := by
  unfold resource
  rw [value_rename hp]
  cases p.value σ <;> rfl

omit E in
theorem resource_within {p : Pattern R} (hp : FixedPat f P p) {σ : Subst R} (hσ : σ.Within P) {r : R}
    (h : resource p σ = .ok r) : P r :=
  value_within hp hσ (Out.ofOption_eq_ok.1 h)

omit E in
theorem selectInputs_rename {ps : List (Pattern R)} (hp : ∀ p ∈ ps, FixedPat f P p) (σ : Subst R) :
    selectInputs ps (σ.rename f) = ((selectInputs ps σ).map (List.map f)).mapErr (HyError.rename f) := by
  unfold selectInputs
  induction ps with
  | nil => rfl
  | cons p ps ih =>
    have ih := ih fun p h => hp p (by simp [h])
    simp only [Out.mapM']
    rw [resource_rename (hp p (by simp)), ih]
    cases resource p σ with
    | ok r => cases Out.mapM' (fun p => resource p σ) ps <;> rfl
    | err e => rfl
    | panic => rfl
    | fuel => rfl

omit E in
theorem selectInputs_within {ps : List (Pattern R)} (hp : ∀ p ∈ ps, FixedPat f P p) {σ : Subst R} (hσ : σ.Within P)
    {rs : List R} (h : selectInputs ps σ = .ok rs) : ∀ r ∈ rs, P r := by
  unfold selectInputs at h
  rw [Out.mapM'_eq_ok] at h
  induction h with
  | nil => simp
  | cons h _ ih =>
    simp only [List.mem_cons, forall_eq_or_imp]
    exact ⟨resource_within (hp _ (by simp)) hσ h, ih fun p h => hp p (by simp [h])⟩

omit E in
theorem selectGraph_rename {fg : Option (Option (Pattern R))} (hp : ∀ p, fg = some (some p) → FixedPat f P p) (g : Option R)
    (σ : Subst R) :
    selectGraph (g.map f) fg (σ.rename f) = ((selectGraph g fg σ).map (Option.map f)).mapErr (HyError.rename f) := by
  match fg, hp with
  | none, _ => rfl
  | some none, _ => rfl
  | some (some p), hp =>
    simp only [selectGraph]
    rw [resource_rename (hp p rfl)]
    cases resource p σ <;> rfl

omit E in
theorem selectGraph_within {fg : Option (Option (Pattern R))} (hp : ∀ p, fg = some (some p) → FixedPat f P p) {g g' : Option R}
    (hg : ∀ r, g = some r → P r) {σ : Subst R} (hσ : σ.Within P) (h : selectGraph g fg σ = .ok g') :
    ∀ r, g' = some r → P r := by
  match fg, hp, h with
  | none, _, h => simp only [selectGraph, Out.ok.injEq] at h; exact h ▸ hg
  | some none, _, h => simp only [selectGraph, Out.ok.injEq] at h; subst h; simp
  | some (some p), hp, h =>
    simp only [selectGraph] at h
    cases e : resource p σ with
    | ok r =>
      rw [e] at h
      simp only [Out.map, Out.ok.injEq] at h
      subst h
      rintro r' ⟨⟩
      exact resource_within (hp p rfl) hσ e
    | err _ => simp [e, Out.map] at h
    | panic => simp [e, Out.map] at h
    | fuel => simp [e, Out.map] at h

/-- The recursive calls correspond. -/
def RecRel (f : R → R) (P : R → Prop) (rec rec' : Rec R) : Prop :=
  ∀ (g : Option R) (ref : R) (ins : List R), (∀ r, g = some r → P r) → (∀ r ∈ ins, P r) →
    rec' (g.map f) ref (ins.map f) = (rec g ref ins).mapErr (HyError.rename f)

omit E in
theorem subValue_rename {rec rec' : Rec R} (hrec : RecRel f P rec rec') {g : Option R} (hg : ∀ r, g = some r → P r)
    {fmt : ValueFormat R} (hfmt : FixedFormat f P fmt) {σ : Subst R} (hσ : σ.Within P) :
    subValue rec' (g.map f) fmt (σ.rename f) = (subValue rec g fmt σ).mapErr (HyError.rename f) := by
  have h1 : ∀ p ∈ fmt.input, FixedPat f P p := fun p hp r e => hfmt r (.inl (e ▸ hp))
  have h2 : ∀ p, fmt.graph = some (some p) → FixedPat f P p := fun p hp r e => hfmt r (.inr (e ▸ hp))
  unfold subValue
  rw [selectInputs_rename h1]
  refine bind_map_mapErr fun ins hins => ?_
  rw [selectGraph_rename h2]
  exact bind_map_mapErr fun g' hg' => hrec _ _ _ (selectGraph_within h2 hg hσ hg') (selectInputs_within h1 hσ hins)

omit E in
theorem scanLiterals_rename {α} {parse : String → String → Out (HyError R) α}
    (hparse : ∀ v i, (parse v i).mapErr (HyError.rename f) = parse v i) (dts : List String) (ls : List RdfLit) (o : Option α) :
    (scanLiterals parse dts ls o).mapErr (HyError.rename f) = scanLiterals parse dts ls o := by
  induction ls generalizing o with
  | nil => rfl
  | cons l ls ih =>
    simp only [scanLiterals]
    split
    · rfl
    · split
      · rename_i i _ _
        have := hparse l.value i
        cases hp : parse l.value i with
        | ok v =>
          simp only [Out.bind_ok]
          cases o with
          | none => exact ih _
          | some _ => rfl
        | err e =>
          rw [hp] at this
          simp only [Out.mapErr, Out.err.injEq] at this
          simp only [Out.bind, Out.mapErr, this]
        | panic => rfl
        | fuel => rfl
      · exact ih o

theorem hydrateData_rename {α} {g : Option R} (hg : ∀ r, g = some r → P r) (ref : R) {l : DataLayout R}
    (hl : ∀ r, PatsHaveConstant l.dataset r ∨ l.resource = .res r ∨ l.datatype = r → P r ∧ f r = r)
    (hu : ∀ e, D e → Ignored e (∀ r, P r → f r ≠ e.s) (· < 1) l.dataset) {ins : List R} (hi : ins.length = 1)
    (hins : ∀ r ∈ ins, P r) {parse : String → String → Out (HyError R) α}
    (hparse : ∀ v i, (parse v i).mapErr (HyError.rename f) = parse v i) (mk : α → TypedLiteral R) :
    hydrateData c' (g.map f) ref l (ins.map f) parse mk =
      (hydrateData c g ref l ins parse mk).mapErr (HyError.rename f) := by
  unfold hydrateData
  have hinv := inv_inputs (P := P) hins l.intro
  rw [hi] at hinv
  have hr : FixedPat f P l.resource := fun r e => hl r (.inr (.inl e))
  rw [← Subst.rename_fromInputs, ← Subst.rename_intro,
    required_rename E (frag := .discriminant ref) (by intro e; cases e <;> rfl) hinv (fun r h => hl r (.inl h)) hu hg]
  refine bind_map_mapErr fun σ hσ => ?_
  obtain ⟨hσ', -⟩ := required_inv E hinv hσ
  rw [resource_rename hr]
  refine bind_map_mapErr fun r hr' => ?_
  have hd := hl l.datatype (.inr (.inr rfl))
  have e1 : c'.irisOf l.datatype = c.irisOf l.datatype := by
    conv_lhs => rw [← hd.2]
    exact E.iris _ hd.1
  rw [e1, E.literals r (resource_within hr hσ'.within hr')]
  conv_lhs => rw [← scanLiterals_rename hparse]
  refine bind_mapErr fun v _ => ?_
  cases v <;> rfl

theorem hydrateId_rename {g : Option R} (hg : ∀ r, g = some r → P r) (ref : R) {l : IdLayout R}
    (hl : ∀ r, PatsHaveConstant l.dataset r ∨ l.resource = .res r → P r ∧ f r = r)
    (hu : ∀ e, D e → Ignored e (∀ r, P r → f r ≠ e.s) (· < 1) l.dataset) {ins : List R} (hi : ins.length = 1)
    (hins : ∀ r ∈ ins, P r) :
    hydrateId c' (g.map f) ref l (ins.map f) = (hydrateId c g ref l ins).mapErr (HyError.rename f) := by
  unfold hydrateId
  have hinv := inv_inputs (P := P) hins l.intro
  rw [hi] at hinv
  have hr : FixedPat f P l.resource := fun r e => hl r (.inr e)
  rw [← Subst.rename_fromInputs, ← Subst.rename_intro,
    required_rename E (frag := .discriminant ref) (by intro e; cases e <;> rfl) hinv (fun r h => hl r (.inl h)) hu hg]
  refine bind_map_mapErr fun σ hσ => ?_
  obtain ⟨hσ', -⟩ := required_inv E hinv hσ
  rw [resource_rename hr]
  refine bind_map_mapErr fun r hr' => ?_
  rw [E.iris r (resource_within hr hσ'.within hr')]
  split <;> rfl

theorem variants_rename {rec rec' : Rec R} (hrec : RecRel f P rec rec') {g : Option R} (hg : ∀ r, g = some r → P r) (ref : R)
    {b : Nat → Prop} {σ : Subst R} (hσ : Inv P b σ) (vs : List (Variant R))
    (hfix : ∀ v ∈ vs, Fixed f P v.dataset ∧ FixedFormat f P v.value)
    (hu : ∀ e, D e → ∀ v ∈ vs, Ignored e (∀ r, P r → f r ≠ e.s) b v.dataset) (i : Nat) (sel : Option (Nat × TypedValue R)) :
    variants c' rec' (g.map f) ref (σ.rename f) i vs sel = (variants c rec g ref σ i vs sel).mapErr (HyError.rename f) := by
  induction vs generalizing i sel with
  | nil => cases sel <;> rfl
  | cons v vs ih =>
    have ih := ih (fun v h => hfix v (by simp [h])) (fun e he v h => hu e he v (by simp [h]))
    obtain ⟨h1, h2⟩ := hfix v (by simp)
    simp only [variants]
    rw [unique_rename E (frag := .variant ref v.name) (by intro e; cases e <;> rfl) hσ h1 (fun e he => hu e he v (by simp)) hg]
    refine bind_map_mapErr fun o ho => ?_
    cases o with
    | none => exact ih _ _
    | some σ' =>
      obtain ⟨hσ', -⟩ := unique_inv E hσ ho
      simp only [Option.map_some]
      rw [subValue_rename hrec hg h2 hσ'.within]
      cases subValue rec g v.value σ' with
      | ok w =>
        cases sel with
        | none => exact ih _ _
        | some _ => rfl
      | err _ => exact ih _ _
      | panic => rfl
      | fuel => rfl

theorem fields_rename {rec rec' : Rec R} (hrec : RecRel f P rec rec') {g : Option R} (hg : ∀ r, g = some r → P r) (ref : R)
    {b : Nat → Prop} {σ : Subst R} (hσ : Inv P b σ) (fs : List (Value × Field R))
    (hfix : ∀ v ∈ fs, Fixed f P v.2.dataset ∧ FixedFormat f P v.2.value)
    (hu : ∀ e, D e → ∀ v ∈ fs, Ignored e (∀ r, P r → f r ≠ e.s) b v.2.dataset) :
    fields c' rec' (g.map f) ref (σ.rename f) fs = (fields c rec g ref σ fs).mapErr (HyError.rename f) := by
  induction fs with
  | nil => rfl
  | cons e fs ih =>
    obtain ⟨k, fd⟩ := e
    have ih := ih (fun v h => hfix v (by simp [h])) (fun e he v h => hu e he v (by simp [h]))
    obtain ⟨h1, h2⟩ := hfix (k, fd) (by simp)
    simp only [fields]
    rw [← Subst.rename_intro, unique_rename E (frag := .key ref k) (by intro e; cases e <;> rfl) (hσ.intro fd.intro) h1
      (fun e he => hu e he _ (List.mem_cons_self)) hg]
    refine bind_map_mapErr fun o ho => ?_
    cases o with
    | none =>
      simp only [Option.map_none]
      split
      · rfl
      · exact ih
    | some σ' =>
      obtain ⟨hσ', -⟩ := unique_inv E (hσ.intro fd.intro) ho
      simp only [Option.map_some]
      rw [subValue_rename hrec hg h2 hσ'.within]
      refine bind_mapErr fun v _ => ?_
      rw [ih]
      exact bind_mapErr fun _ _ => rfl

theorem nodes_rename {rec rec' : Rec R} (hrec : RecRel f P rec rec') {g : Option R} (hg : ∀ r, g = some r → P r) (ref : R)
    {b : Nat → Prop} {σ : Subst R} (hσ : Inv P b σ) (node : ItemLayout R)
    (hfix : Fixed f P node.dataset ∧ FixedFormat f P node.value)
    (hu : ∀ e, D e → Ignored e (∀ r, P r → f r ≠ e.s) (fun x => b x ∨ x = σ.length) node.dataset) {tail : R} (ht : P tail) (n : Nat)
    {head : R} (hh : P head) :
    nodes c' rec' (g.map f) ref node (σ.rename f) (f tail) n (f head) =
      (nodes c rec g ref node σ tail n head).mapErr (HyError.rename f) := by
  induction n generalizing head with
  | zero =>
    unfold nodes
    by_cases h : head = tail
    · simp [h, Out.mapErr]
    · have : f head ≠ f tail := fun e => h (E.injective _ _ hh ht e)
      simp [h, this, Out.mapErr]
  | succ n ih =>
    rw [nodes, nodes]
    by_cases h : head = tail
    · simp [h, Out.mapErr]
    · have hne : f head ≠ f tail := fun e => h (E.injective _ _ hh ht e)
      have hinv := (hσ.push hh).intro (1 + node.intro)
      simp only [h, hne, if_false]
      rw [← Subst.rename_push, ← Subst.rename_intro,
        required_rename E (frag := .orderedListNode ref head tail) (by intro e; cases e <;> rfl) hinv hfix.1 hu hg]
      refine bind_map_mapErr fun σ' hs => ?_
      obtain ⟨hσ', -⟩ := required_inv E hinv hs
      rw [subValue_rename hrec hg hfix.2 hσ'.within]
      refine bind_mapErr fun v _ => ?_
      rw [Subst.get_rename, Subst.length_rename]
      cases hx : σ'.get (σ.length + 1) with
      | none => rfl
      | some r =>
        simp only [Option.map_some, Out.ofOption_some, Out.bind_ok]
        rw [ih (hσ'.within _ _ hx)]
        exact bind_mapErr fun _ _ => rfl

theorem sizedItems_rename {rec rec' : Rec R} (hrec : RecRel f P rec rec') {g : Option R} (hg : ∀ r, g = some r → P r) (ref : R)
    {b : Nat → Prop} {σ : Subst R} (hσ : Inv P b σ) (is : List (ItemLayout R))
    (hfix : ∀ v ∈ is, Fixed f P v.dataset ∧ FixedFormat f P v.value)
    (hu : ∀ e, D e → ∀ v ∈ is, Ignored e (∀ r, P r → f r ≠ e.s) b v.dataset) (i : Nat) :
    sizedItems c' rec' (g.map f) ref (σ.rename f) i is = (sizedItems c rec g ref σ i is).mapErr (HyError.rename f) := by
  induction is generalizing i with
  | nil => rfl
  | cons item is ih =>
    have ih := ih (fun v h => hfix v (by simp [h])) (fun e he v h => hu e he v (by simp [h]))
    obtain ⟨h1, h2⟩ := hfix item (by simp)
    simp only [sizedItems]
    rw [← Subst.rename_intro, required_rename E (frag := .sizedListItem ref i) (by intro e; cases e <;> rfl) (hσ.intro item.intro) h1
      (fun e he => hu e he item (by simp)) hg]
    refine bind_map_mapErr fun σ' hs => ?_
    obtain ⟨hσ', -⟩ := required_inv E (hσ.intro item.intro) hs
    rw [subValue_rename hrec hg h2 hσ'.within]
    refine bind_mapErr fun v _ => ?_
    rw [ih]
    exact bind_mapErr fun _ _ => rfl

theorem unorderedItems_rename {rec rec' : Rec R} (hrec : RecRel f P rec rec') {g : Option R} (hg : ∀ r, g = some r → P r)
    {fmt : ValueFormat R} (hfmt : FixedFormat f P fmt) (n n' : Nat) (st st' : Stack R)
    (hst : List.Forall₂ (StateRel f P D c.ds) st st') (hn : weight c.ds.length st < n) (hn' : weight c'.ds.length st' < n') :
    unorderedItems c' rec' (g.map f) fmt n' st' = (unorderedItems c rec g fmt n st).mapErr (HyError.rename f) := by
  induction n generalizing n' st st' with
  | zero => omega
  | succ n ih =>
    cases n' with
    | zero => omega
    | succ n' =>
      simp only [unorderedItems]
      have h := next_sim (ε := HyError R) E.injective E.dataset E.quads st st' hst
      have w : ∀ σ st₁, (next c.ds st : Out (HyError R) _) = .ok (some (σ, st₁)) → weight c.ds.length st₁ < weight c.ds.length st :=
        fun σ st₁ h => nextFuel_weight _ _ _ _ _ h
      have w' : ∀ σ st₁, (next c'.ds st' : Out (HyError R) _) = .ok (some (σ, st₁)) →
          weight c'.ds.length st₁ < weight c'.ds.length st' :=
        fun σ st₁ h => nextFuel_weight _ _ _ _ _ h
      generalize (next c.ds st : Out (HyError R) _) = a at h w
      generalize (next c'.ds st' : Out (HyError R) _) = a' at h w'
      cases h with
      | none => rfl
      | panic => rfl
      | @some σ st₁ st₁' hσ hst₁ =>
        have w := w _ _ rfl
        have w' := w' _ _ rfl
        simp only [Out.bind_ok]
        rw [subValue_rename hrec hg hfmt hσ]
        refine bind_mapErr fun v _ => ?_
        rw [ih n' st₁ st₁' hst₁ (by omega) (by omega)]
        exact bind_mapErr fun _ _ => rfl

theorem layout_rename {rec rec' : Rec R} (hrec : RecRel f P rec rec') (n : Nat) {g : Option R} (hg : ∀ r, g = some r → P r) (ref : R)
    {ins : List R} (hins : ∀ r ∈ ins, P r) {l : Layout R} (hl : c.reg ref = some l) (hi : ∀ k, l.inputCount = some k → ins.length = k) :
    layout c' rec' n (g.map f) ref (ins.map f) l = (layout c rec n g ref ins l).mapErr (HyError.rename f) := by
  have hc : ∀ r, l.HasConstant r → P r ∧ f r = r := fun r h => E.constants r ⟨ref, l, hl, h⟩
  have hu : ∀ e, D e → l.Ignores e (∀ r, P r → f r ≠ e.s) := fun e he => E.ignored e he ref l hl
  have hinv : ∀ k, Inv P (· < ins.length) ((Subst.fromInputs ins).intro k) := inv_inputs hins
  have hdisc : ∀ e, HyError.ofMatching (.discriminant ref : DataFragment R) e =
    (HyError.ofMatching (.discriminant ref : DataFragment R) e).rename f := by intro e; cases e <;> rfl
  cases l with
  | never => rfl
  | always => rfl
  | unit l =>
    have hi : ins.length = 1 := hi _ rfl
    have := hinv l.intro
    rw [hi] at this
    simp only [layout]
    rw [← Subst.rename_fromInputs, ← Subst.rename_intro, required_rename E hdisc this hc hu hg]
    exact bind_map_mapErr fun _ _ => rfl
  | boolean l =>
    have e : booleanValue c' = booleanValue c := by
      funext v i
      simp only [booleanValue, E.xsd]
    simp only [layout, e]
    rw [hydrateData_rename E hg ref hc hu (hi _ rfl) hins, map_mapErr]
    intro v i
    unfold booleanValue
    split
    · cases c.xsd.parseBoolean v <;> rfl
    · rfl
  | number l =>
    have e : numberValue c' = numberValue c := by
      funext v i
      simp only [numberValue, E.xsd]
    simp only [layout, e]
    rw [hydrateData_rename E hg ref hc hu (hi _ rfl) hins, map_mapErr]
    intro v i
    unfold numberValue
    split
    · cases c.xsd.parseDecimal v <;> rfl
    · rfl
  | byteString l =>
    simp only [layout]
    rw [hydrateData_rename E hg ref hc hu (hi _ rfl) hins, map_mapErr]
    intro v i
    rfl
  | textString l =>
    simp only [layout]
    rw [hydrateData_rename E hg ref hc hu (hi _ rfl) hins, map_mapErr]
    intro v i
    rfl
  | id l =>
    simp only [layout]
    rw [hydrateId_rename E hg ref hc hu (hi _ rfl) hins, map_mapErr]
  | sum l =>
    have hi : ins.length = l.input := hi _ rfl
    have := hinv l.intro
    rw [hi] at this
    simp only [layout]
    rw [← Subst.rename_fromInputs, ← Subst.rename_intro,
      required_rename E hdisc this (fun r h => hc r (.inl h)) (fun e he => (hu e he).1) hg]
    refine bind_map_mapErr fun σ hσ => ?_
    obtain ⟨hσ', -⟩ := required_inv E this hσ
    exact variants_rename E hrec hg ref hσ' l.variants
      (fun v hv => ⟨fun r h => hc r (.inr ⟨v, hv, .inl h⟩), fun r h => hc r (.inr ⟨v, hv, .inr h⟩)⟩)
      (fun e he => (hu e he).2) 0 none
  | product l =>
    have hi : ins.length = l.input := hi _ rfl
    have := hinv l.intro
    rw [hi] at this
    simp only [layout]
    rw [← Subst.rename_fromInputs, ← Subst.rename_intro,
      required_rename E hdisc this (fun r h => hc r (.inl h)) (fun e he => (hu e he).1) hg]
    refine bind_map_mapErr fun σ hσ => ?_
    obtain ⟨hσ', -⟩ := required_inv E this hσ
    rw [fields_rename E hrec hg ref hσ' l.fields
      (fun v hv => ⟨fun r h => hc r (.inr ⟨v, hv, .inl h⟩), fun r h => hc r (.inr ⟨v, hv, .inr h⟩)⟩)
      (fun e he => (hu e he).2)]
    exact bind_mapErr fun _ _ => rfl
  | sized l =>
    have hi : ins.length = l.input := hi _ rfl
    have := hinv l.intro
    rw [hi] at this
    simp only [layout]
    rw [← Subst.rename_fromInputs, ← Subst.rename_intro,
      required_rename E hdisc this (fun r h => hc r (.inl h)) (fun e he => (hu e he).1) hg]
    refine bind_map_mapErr fun σ hσ => ?_
    obtain ⟨hσ', -⟩ := required_inv E this hσ
    rw [sizedItems_rename E hrec hg ref hσ' l.items
      (fun v hv => ⟨fun r h => hc r (.inr ⟨v, hv, .inl h⟩), fun r h => hc r (.inr ⟨v, hv, .inr h⟩)⟩)
      (fun e he => (hu e he).2)]
    exact bind_mapErr fun _ _ => rfl
  | ordered l =>
    have hi : ins.length = l.input := hi _ rfl
    have := hinv l.intro
    rw [hi] at this
    simp only [layout]
    rw [← Subst.rename_fromInputs, ← Subst.rename_intro,
      required_rename E hdisc this (fun r h => hc r (.inl h)) (fun e he => (hu e he).1) hg]
    refine bind_map_mapErr fun σ hσ => ?_
    obtain ⟨hσ', hlen⟩ := required_inv E this hσ
    have hhead : FixedPat f P l.head := fun r e => hc r (.inr (.inl e))
    have htail : FixedPat f P l.tail := fun r e => hc r (.inr (.inr (.inl e)))
    rw [resource_rename hhead]
    refine bind_map_mapErr fun h hh => ?_
    rw [resource_rename htail]
    refine bind_map_mapErr fun t ht => ?_
    have hlen : σ.length = l.input + l.intro := by
      rw [hlen]; simp [Subst.intro, Subst.fromInputs, hi]
    rw [nodes_rename E hrec hg ref hσ' l.node
      ⟨fun r h => hc r (.inr (.inr (.inr (.inl h)))), fun r h => hc r (.inr (.inr (.inr (.inr h))))⟩
      (fun e he => by rw [hlen]; exact (hu e he).2) (resource_within htail hσ'.within ht) n
      (resource_within hhead hσ'.within hh)]
    exact bind_mapErr fun _ _ => rfl
  | unordered l =>
    have hi : ins.length = l.input := hi _ rfl
    have := hinv l.intro
    rw [hi] at this
    simp only [layout]
    rw [← Subst.rename_fromInputs, ← Subst.rename_intro,
      required_rename E hdisc this (fun r h => hc r (.inl h)) (fun e he => (hu e he).1) hg]
    refine bind_map_mapErr fun σ hσ => ?_
    obtain ⟨hσ', -⟩ := required_inv E this hσ
    have hfix : Fixed f P l.item.dataset := fun r h => hc r (.inr (.inl h))
    have hinv' := hσ'.intro l.item.intro
    have hnew := new_rel (f := f) (P := P) (D := D) (ds := c.ds) _ hinv'.within _ (within_default hfix hg)
      (useless_of_ignored hfix g E.quads hinv'.within hinv'.bound (fun e he => (hu e he).2))
    rw [Subst.rename_intro, ← withDefaultGraph_rename hfix] at hnew
    rw [unorderedItems_rename E hrec hg (fun r h => hc r (.inr (.inr h))) _ _ _ _ hnew (Nat.lt_succ_self _) (Nat.lt_succ_self _)]
    rw [E.le]
    exact bind_mapErr fun _ _ => rfl

/-- Hydration of the renamed and enriched dataset. -/
theorem hydrate_rename (n : Nat) : RecRel f P (hydrate c n) (hydrate c' n) := by
  induction n with
  | zero => intro g ref ins _ _; rfl
  | succ n ih =>
    intro g ref ins hg hins
    simp only [hydrate, E.reg, List.length_map]
    cases hl : c.reg ref with
    | none => rfl
    | some l =>
      simp only
      split
      · rfl
      · rename_i hcount
        refine layout_rename E ih n hg ref hins hl fun k hk => ?_
        simp only [hk, Option.any_some, decide_not, Bool.not_eq_true', decide_eq_false_iff_not, Decidable.not_not] at hcount
        exact hcount.symm

end Hydrate

end Verif
