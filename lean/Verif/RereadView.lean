import Verif.ReproduceLemmas
import Verif.RereadSpec

/-! # Reading again what was written: what is looked at -/

set_option linter.unusedSectionVars false
set_option linter.unusedSimpArgs false

namespace Verif.Reproduce

open Verif.Dehydrate

variable {x : Xsd} {P : Term → Prop} {ds : List (Quad Term)} {reg : Registry Term}

/-- The context `K` is a part of the one that was read, with another interpretation. `U` are the resources in use. -/
structure View (reg : Registry Term) (x : Xsd) (le : TypedValue Term → TypedValue Term → Bool) (ds : List (Quad Term))
    (K : HyCtx Term) (U : IRes → Prop) : Prop where
  part : (HyCtx.ofTerms reg x le ds).Part K
  iris : ∀ t, reg.HasConstant t → K.irisOf t = t.iris
  const : ∀ t, reg.HasConstant t → U (.term t)
  sums : K.Discriminated
  laws : XsdLaws x

/-- What was written so far is in the context `K`. -/
structure Fits (K : HyCtx Term) (U : IRes → Prop) (h : IRes → Term) (s : DeState) : Prop where
  quads : ∀ q ∈ s.out, q.Uses (Old s.fresh) → q.map h ∈ K.ds
  used : ∀ q ∈ s.out, q.Uses U
  terms : ∀ e ∈ s.terms, Old s.fresh e.1 → U e.1 → K.irisOf (h e.1) = e.2.iris ∧ K.literalsOf (h e.1) = e.2.ownLiterals

theorem Fits.back {K : HyCtx Term} {U : IRes → Prop} {h h' : IRes → Term} {s s' : DeState} (st : Step x P ds h s h' s')
    (hf : Fits K U h' s') : Fits K U h s := by
  refine ⟨fun q hq hu => ?_, fun q hq => hf.used q (st.out q hq), fun e he ho hU => ?_⟩
  · rw [← map_congr hu st.agree]
    exact hf.quads q (st.out q hq) (Uses.mono hu fun r hr => hr.mono st.fresh)
  · rw [← st.agree _ ho]
    exact hf.terms e (st.kept e he) (ho.mono st.fresh) hU

/-- The resources of the variables that are bound are in use. -/
def Covers (U : IRes → Prop) (ρ : List IRes) (σ : Subst Term) : Prop :=
  ∀ y t, σ.get y = some t → U (ρ.getD y (.input 0))

theorem isMatch_sub {ds' : List (Quad Term)} (hsub : ∀ q ∈ ds', q ∈ ds) {σ₀ σ : Subst Term} {pats : List (QuadPat Term)}
    (hm : IsMatch ds' σ₀ pats σ) : IsMatch ds σ₀ pats σ :=
  ⟨hm.length_eq, hm.keeps, fun p hp => let ⟨q, hq, hd⟩ := hm.sat p hp; ⟨q, hsub q hq, hd⟩, hm.minimal⟩

/-- The match that was read is in what was written. -/
theorem Fits.isMatch {K : HyCtx Term} {U : IRes → Prop} {h : IRes → Term} {s : DeState} (hf : Fits K U h s) {ρ : List IRes}
    (hρ : ∀ r ∈ ρ, Old s.fresh r) (hterm : ∀ t, h (.term t) = t) {σ₀ σ : Subst Term} (hst : Stands P h ρ σ)
    {pats : List (QuadPat Term)} (hm : IsMatch ds σ₀ pats σ) (hout : ∀ p ∈ pats, quadInst ρ p ∈ s.out) :
    IsMatch K.ds σ₀ pats σ := by
  refine ⟨hm.length_eq, hm.keeps, fun p hp => ?_, hm.minimal⟩
  obtain ⟨q, _, hd⟩ := hm.sat p hp
  refine ⟨q, ?_, hd⟩
  rw [← hst.quad hterm hd]
  exact hf.quads _ (hout p hp) (old_quad hρ p)

theorem quadInst_uses {U : IRes → Prop} {ρ : List IRes} {p : QuadPat Term} (hu : (quadInst ρ p).Uses U) {y : Nat}
    (hy : y ∈ p.vars) : U (ρ.getD y (.input 0)) := by
  obtain ⟨s, p', o, g⟩ := p
  obtain ⟨h1, h2, h3, h4⟩ := hu
  have aux : ∀ {p : Pattern Term}, y ∈ p.vars → U (patInst ρ p) → U (ρ.getD y (.input 0)) := by
    intro p hy hp
    cases p with
    | res _ => simp [Pattern.vars] at hy
    | var z =>
      simp only [Pattern.vars, List.mem_singleton] at hy
      subst hy
      exact hp
  simp only [QuadPat.vars, List.mem_append] at hy
  rcases hy with hy | hy | hy | hy
  · exact aux hy h1
  · exact aux hy h2
  · exact aux hy h3
  · cases g with
    | none => simp at hy
    | some g => exact aux hy (h4 _ rfl)

theorem Fits.covers {K : HyCtx Term} {U : IRes → Prop} {h : IRes → Term} {s : DeState} (hf : Fits K U h s) {ρ : List IRes}
    {σ₀ σ : Subst Term} {pats : List (QuadPat Term)} (hm : IsMatch ds σ₀ pats σ)
    (hout : ∀ p ∈ pats, quadInst ρ p ∈ s.out) (hc : Covers U ρ σ₀) : Covers U ρ σ := by
  intro y t hy
  rcases hm.minimal y t hy with h | h
  · exact hc y t h
  · simp only [patsVars, List.mem_flatMap] at h
    obtain ⟨p, hp, hy⟩ := h
    exact quadInst_uses (hf.used _ (hout p hp)) hy

theorem covers_scope {U : IRes → Prop} {ρ : List IRes} {σ : Subst Term} (hlen : σ.length = ρ.length) (hc : Covers U ρ σ)
    (k : Nat) (s : DeState) : Covers U (scope ρ k s) (σ ++ List.replicate k none) := by
  intro y t hy
  have hy := get_append_none hy
  rw [scope_getD_old (by rw [← hlen]; exact get_lt hy)]
  exact hc y t hy

theorem covers_inputs {U : IRes → Prop} {dins : List IRes} {ins : List Term} {h : IRes → Term} (hmap : dins.map h = ins)
    (hU : ∀ r ∈ dins, U r) : Covers U dins (ins.map some) := by
  intro y t hy
  rw [get_inputs, ← hmap, List.getElem?_map, Option.map_eq_some_iff] at hy
  obtain ⟨r, hr, _⟩ := hy
  rw [List.getD_eq_getElem?_getD, hr]
  exact hU r (List.mem_of_getElem? hr)

theorem Covers.inst {U : IRes → Prop} {ρ : List IRes} {σ : Subst Term} (hc : Covers U ρ σ) {p : Pattern Term} {t : Term}
    (hd : p.Denotes σ.get t) (hconst : ∀ t, p = .res t → U (.term t)) : U (patInst ρ p) := by
  cases p with
  | res u => exact hconst u rfl
  | var y => exact hc y t hd

/-- The part entered: its match, among what was written, and the resources in use. -/
theorem Fits.entered {K : HyCtx Term} {U : IRes → Prop} {h : IRes → Term} {s : DeState} {ρ : List IRes} {k : Nat}
    {pats : List (QuadPat Term)} (hf : Fits K U h (emit (scope ρ k s) pats (alloc k s))) (hρ : ∀ r ∈ ρ, Old s.fresh r)
    (hterm : ∀ t, h (.term t) = t) {σ₀ σ : Subst Term} (hst : Stands P h (scope ρ k s) σ) (hm : IsMatch ds σ₀ pats σ) :
    IsMatch K.ds σ₀ pats σ ∧ (Covers U (scope ρ k s) σ₀ → Covers U (scope ρ k s) σ) := by
  have hout : ∀ p ∈ pats, quadInst (scope ρ k s) p ∈ (emit (scope ρ k s) pats (alloc k s)).out :=
    fun p hp => mem_emit.2 (.inr ⟨p, hp, rfl⟩)
  exact ⟨hf.isMatch (old_scope hρ) hterm hst hm hout, hf.covers hm hout⟩

end Verif.Reproduce
