import Verif.ReproduceNames

/-! # Reading again what was written: names -/

set_option linter.unusedSectionVars false
set_option linter.unusedSimpArgs false

namespace Verif.Reproduce

open Verif.Dehydrate

/-- Resources with the same name stand for the same term. -/
theorem same_name {x : Xsd} {P : Term → Prop} {o : DeOptions} {s : DeState} {used : IRes → Prop} {f h : IRes → Term}
    {inputs : List Term} (hn : IsNaming o s used f) (hdis : DistinctNames o) (hterm : ∀ t, h (.term t) = t)
    (hw : ∀ e ∈ s.terms, WrittenAs x (h e.1) e.2) (hin : ∀ i, used (.input i) → inputs[i]? = some (h (.input i)))
    (hap : WrittenApart x P) (hnew : NewNames x P o inputs) {U : IRes → Prop}
    (hU : ∀ r, U r → P (h r) ∧ (used r ∨ ∃ t, r = .term t)) {r r' : IRes} (hr : U r) (hr' : U r') (he : f r = f r') :
    h r = h r' := by
  obtain ⟨pos, hg1, hg2⟩ := hn.generated
  have kinds : ∀ r, U r → WrittenAs x (h r) (f r) ∨ (∃ i, r = .input i ∧ f r = o.inputTerm i ∧ inputs[i]? = some (h r)) ∨
      ∃ i, r = .anon i ∧ used r ∧ (∀ t, (IRes.anon i, t) ∉ s.terms) ∧ f r = o.generator (pos i) := by
    intro r hr
    by_cases hass : ∃ t, (r, t) ∈ s.terms
    · obtain ⟨t, ht⟩ := hass
      left
      rw [hn.assigned r t ht]
      exact hw _ ht
    have hfree : ∀ t, (r, t) ∉ s.terms := fun t ht => hass ⟨t, ht⟩
    cases r with
    | term t => left; rw [hn.term, hterm]; exact .same t
    | input i =>
      have hu : used (.input i) := by
        rcases (hU _ hr).2 with h | ⟨t, h⟩
        · exact h
        · exact nomatch h
      exact .inr (.inl ⟨i, rfl, hn.input i hu hfree, hin i hu⟩)
    | anon i =>
      have hu : used (.anon i) := by
        rcases (hU _ hr).2 with h | ⟨t, h⟩
        · exact h
        · exact nomatch h
      exact .inr (.inr ⟨i, rfl, hu, hfree, hg1 i hu hfree⟩)
  have hPr := (hU r hr).1
  have hPr' := (hU r' hr').1
  rcases kinds r hr with h1 | ⟨i, rfl, h1, h2⟩ | ⟨i, rfl, hu, hf, h1⟩ <;>
    rcases kinds r' hr' with h1' | ⟨i', rfl, h1', h2'⟩ | ⟨i', rfl, hu', hf', h1'⟩
  · exact hap _ _ _ hPr hPr' h1 (he ▸ h1')
  · rw [he, h1'] at h1
    rw [hnew.input _ _ hPr h1] at h2'
    exact Option.some.inj h2'
  · rw [he, h1'] at h1
    exact absurd h1 (hnew.generator _ _ hPr)
  · rw [← he, h1] at h1'
    rw [hnew.input _ _ hPr' h1'] at h2
    exact (Option.some.inj h2).symm
  · rw [h1, h1'] at he
    rw [hdis.input _ _ he]
  · rw [h1, h1'] at he
    exact absurd he.symm (hdis.ne _ _)
  · rw [← he, h1] at h1'
    exact absurd h1' (hnew.generator _ _ hPr')
  · rw [h1, h1'] at he
    exact absurd he (hdis.ne _ _)
  · rw [h1, h1'] at he
    rw [hg2 _ _ hu hf hu' hf' (hdis.generator _ _ he)]

theorem map_map (q : Quad IRes) (f : IRes → Term) (b : Term → Term) : (q.map f).map b = q.map fun r => b (f r) := by
  obtain ⟨s, p, o, _ | g⟩ := q <;> rfl

theorem map_injective {b : Term → Term} {P : Term → Prop} (hb : ∀ t t', P t → P t' → b t = b t' → t = t') {q q' : Quad Term}
    (hq : ∀ t, q.Has t → P t) (hq' : ∀ t, q'.Has t → P t) (h : q.map b = q'.map b) : q = q' := by
  obtain ⟨s, p, o, g⟩ := q
  obtain ⟨s', p', o', g'⟩ := q'
  simp only [Quad.map, Quad.mk.injEq] at h
  obtain ⟨h1, h2, h3, h4⟩ := h
  simp only [Quad.mk.injEq]
  refine ⟨hb _ _ (hq _ (.inl rfl)) (hq' _ (.inl rfl)) h1, hb _ _ (hq _ (.inr (.inl rfl))) (hq' _ (.inr (.inl rfl))) h2,
    hb _ _ (hq _ (.inr (.inr (.inl rfl)))) (hq' _ (.inr (.inr (.inl rfl)))) h3, ?_⟩
  cases g <;> cases g' <;> simp only [Option.map_none, Option.map_some, reduceCtorEq, Option.some.injEq] at h4
  · rfl
  · rw [hb _ _ (hq _ (.inr (.inr (.inr rfl)))) (hq' _ (.inr (.inr (.inr rfl)))) h4]

end Verif.Reproduce
