import Verif.ReadBack

/-! # Properties with one value make nothing ambiguous -/

set_option linter.unusedSectionVars false
set_option linter.unusedSimpArgs false

namespace Verif.Keeping

variable {R : Type} [DecidableEq R] {c : HyCtx R} {ds : List (Quad R)}

theorem denotes_known {known : Nat → Prop} {p : Pattern R} {σ τ : Subst R} (hp : p.BoundIn known)
    (h : ∀ x, known x → σ.get x = τ.get x) {r r' : R} (h1 : p.Denotes σ.get r) (h2 : p.Denotes τ.get r') : r = r' := by
  cases p with
  | res t =>
    have e1 : r = t := h1
    have e2 : r' = t := h2
    rw [e1, e2]
  | var x =>
    have e1 : σ.get x = some r := h1
    have e2 : τ.get x = some r' := h2
    rw [h x (hp x (by simp [Pattern.vars])), e2] at e1
    injection e1 with e1
    exact e1.symm

theorem agree_follows {pats : List (QuadPat R)} {known : Nat → Prop} {σ τ : Subst R}
    (hf : Follows (SingleValued ds) known pats) (h : ∀ x, known x → σ.get x = τ.get x)
    (h1 : ∀ p ∈ pats, ∃ q ∈ ds, p.Denotes σ.get q) (h2 : ∀ p ∈ pats, ∃ q ∈ ds, p.Denotes τ.get q) {x : Nat}
    (hx : x ∈ patsVars pats) : σ.get x = τ.get x := by
  induction pats generalizing known with
  | nil => simp [patsVars] at hx
  | cons p pats ih =>
    obtain ⟨hs, hg, hpo, hrest⟩ := hf
    obtain ⟨q, hq, d1⟩ := h1 p (by simp)
    obtain ⟨q', hq', d2⟩ := h2 p (by simp)
    obtain ⟨ps, pp, po, pg⟩ := p
    obtain ⟨s, pr, o, g⟩ := q
    obtain ⟨s', pr', o', g'⟩ := q'
    obtain ⟨a1, a2, a3, a4⟩ := d1
    obtain ⟨b1, b2, b3, b4⟩ := d2
    have es : s = s' := denotes_known hs h a1 b1
    have eg : g = g' := by
      cases pg with
      | none =>
        cases g with
        | some g => exact a4.elim
        | none => cases g' with
          | some g' => exact b4.elim
          | none => rfl
      | some pg =>
        cases g with
        | none => exact a4.elim
        | some g => cases g' with
          | none => exact b4.elim
          | some g' => rw [denotes_known (hg pg rfl) h a4 b4]
    have eo : o = o' := by
      rcases hpo with ⟨-, ho⟩ | ⟨t, hp, hS⟩
      · exact denotes_known ho h a3 b3
      · simp only at hp
        subst hp
        exact hS _ hq _ hq' a2 b2 es eg
    have hnew : ∀ x, known x ∨ x ∈ po.vars → σ.get x = τ.get x := by
      rintro x (hk | hk)
      · exact h x hk
      · cases po with
        | res t => simp [Pattern.vars] at hk
        | var y =>
          simp only [Pattern.vars, List.mem_singleton] at hk
          subst hk
          have e1 : σ.get x = some o := a3
          have e2 : τ.get x = some o' := b3
          rw [e1, e2, eo]
    simp only [patsVars, List.flatMap_cons, List.mem_append, QuadPat.vars] at hx
    rcases hx with (hx | hx | hx | hx) | hx
    · exact h x (hs x hx)
    · rcases hpo with ⟨hp, -⟩ | ⟨t, hp, -⟩
      · exact h x (hp x hx)
      · simp only at hp
        subst hp
        simp [Pattern.vars] at hx
    · exact hnew x (.inr hx)
    · cases pg with
      | none => simp at hx
      | some pg => exact h x (hg pg rfl x hx)
    · exact ih hrest hnew (fun p hp => h1 p (by simp [hp])) (fun p hp => h2 p (by simp [hp])) hx

theorem Follows.mono {S : R → Prop} {pats : List (QuadPat R)} {K K' : Nat → Prop} (h : ∀ x, K x → K' x) (hf : Follows S K pats) :
    Follows S K' pats := by
  induction pats generalizing K K' with
  | nil => trivial
  | cons p pats ih =>
    obtain ⟨h1, h2, h3, h4⟩ := hf
    refine ⟨fun x hx => h x (h1 x hx), fun g hg x hx => h x (h2 g hg x hx), ?_, ih (fun x hx => hx.imp (h x) id) h4⟩
    rcases h3 with ⟨h3, h3'⟩ | h3
    · exact .inl ⟨fun x hx => h x (h3 x hx), fun x hx => h x (h3' x hx)⟩
    · exact .inr h3

theorem Follows.inGraph {S : R → Prop} {pats : List (QuadPat R)} {K : Nat → Prop} (hf : Follows S K pats) (g : Option R) :
    Follows S K (inGraph g pats) := by
  induction pats generalizing K with
  | nil => trivial
  | cons p pats ih =>
    obtain ⟨h1, h2, h3, h4⟩ := hf
    obtain ⟨ps, pp, po, pg⟩ := p
    cases pg with
    | some pg => exact ⟨h1, h2, h3, ih h4⟩
    | none =>
      cases g with
      | none => exact ⟨h1, h2, h3, ih h4⟩
      | some g =>
        refine ⟨h1, fun g' hg' x hx => ?_, h3, ih h4⟩
        simp only [Option.some.injEq] at hg'
        subst hg'
        simp [Pattern.vars] at hx

/-- Patterns that can be followed have one match at most. -/
theorem unique_follows {pats : List (QuadPat R)} {K : Nat → Prop} {g : Option R} {σ₀ σ τ : Subst R}
    (hf : Follows (SingleValued ds) K pats) (hK : ∀ x, K x → ∃ r, σ₀.get x = some r)
    (h1 : IsMatch ds σ₀ (inGraph g pats) σ) (h2 : IsMatch ds σ₀ (inGraph g pats) τ) : σ = τ := by
  have hk : ∀ x, K x → σ.get x = τ.get x := by
    intro x hx
    obtain ⟨r, hr⟩ := hK x hx
    rw [h1.keeps x r hr, h2.keeps x r hr]
  have hall : ∀ x, σ.get x = τ.get x := by
    intro x
    by_cases hx : x ∈ patsVars (inGraph g pats)
    · exact agree_follows (Follows.inGraph hf g) hk h1.sat h2.sat hx
    · cases e : σ₀.get x with
      | some r => rw [h1.keeps x r e, h2.keeps x r e]
      | none =>
        have hn : ∀ σ', IsMatch ds σ₀ (Verif.inGraph g pats) σ' → σ'.get x = none := by
          intro σ' h'
          cases e' : σ'.get x with
          | none => rfl
          | some r =>
            rcases h'.minimal x r e' with h'' | h''
            · rw [e] at h''; exact nomatch h''
            · exact absurd h'' hx
        rw [hn σ h1, hn τ h2]
  refine List.ext_getElem (h1.length_eq.trans h2.length_eq.symm) fun i hi hi' => ?_
  have := hall i
  unfold Subst.get at this
  rw [List.getElem?_eq_getElem hi, List.getElem?_eq_getElem hi'] at this
  exact this

theorem get_append_left {σ τ : Subst R} {x : Nat} {r : R} (h : σ.get x = some r) : (σ ++ τ).get x = some r := by
  unfold Subst.get at h ⊢
  cases e : σ[x]? with
  | none => rw [e] at h; exact nomatch h
  | some u => rw [List.getElem?_append_left (List.getElem?_eq_some_iff.1 e).1, e]; rw [e] at h; exact h

theorem get_inputs {inputs : List R} {k x : Nat} (hx : x < inputs.length) :
    ∃ r, Subst.get (inputs.map some ++ List.replicate k none) x = some r := by
  refine ⟨inputs[x], get_append_left ?_⟩
  unfold Subst.get
  simp [hx]

theorem own_bound {l : Layout R} {g : Option R} {inputs : List R} {σ : Subst R} (h : l.OwnMatch ds g inputs σ) {k : Nat}
    (hk : inputs.length = k) {x : Nat} (hx : boundVars k l.own.2 x) : ∃ r, σ.get x = some r := by
  refine Hydrate.IsMatch.bound h (hx.imp (fun hx => ?_) id)
  exact get_inputs (by rw [hk]; exact hx)

theorem part_formats {l : Layout R} {σ σ₀ : Subst R} {pats : List (QuadPat R)} {fmt : ValueFormat R}
    (h : l.Part σ σ₀ pats fmt) : fmt ∈ l.formats := by
  cases h with
  | field h => exact List.mem_map.2 ⟨_, h, rfl⟩
  | element => simp [Layout.formats]
  | node => simp [Layout.formats]
  | item h => exact List.mem_map.2 ⟨_, h, rfl⟩
  | variant h => exact List.mem_map.2 ⟨_, h, rfl⟩

/-- Layouts that can be followed along properties with one value are not ambiguous. -/
theorem unambiguous_follows (hwt : c.reg.WellTyped) (hf : ∀ ref l, c.reg ref = some l → l.Follows (SingleValued c.ds))
    {g : Option R} {ref : R} {inputs : List R}
    (hin : ∀ l k, c.reg ref = some l → l.inputCount = some k → inputs.length = k) : Unambiguous c g ref inputs := by
  intro g' ref' inputs' hv l hl
  have hcount : ∀ k, l.inputCount = some k → inputs'.length = k := by
    cases hv with
    | here => exact fun k => hin l k hl
    | part _ h1 _ h3 _ h5 _ =>
      intro k hk
      obtain ⟨l', hl', h⟩ := hwt _ _ h1 _ (part_formats h3)
      rw [hl] at hl'
      injection hl' with hl'
      subst hl'
      rw [← h k hk]
      exact h5.length_eq.symm
  obtain ⟨h1, h2⟩ := hf ref' l hl
  refine ⟨fun σ σ' hσ hσ' => ?_, fun σ σ₀ pats fmt τ τ' hset hσ hp hτ hτ' => ?_⟩
  · refine unique_follows h1 ?_ hσ hσ'
    rintro x ⟨k, hk, hx⟩
    exact get_inputs (by rw [hcount k hk]; exact hx)
  · cases hp with
    | field hm => exact unique_follows (h2 _ hm) (fun x hx =>
        (own_bound hσ (hcount _ rfl) hx).imp fun r hr => get_append_left hr) hτ hτ'
    | item hm => exact unique_follows (h2 _ hm) (fun x hx =>
        (own_bound hσ (hcount _ rfl) hx).imp fun r hr => get_append_left hr) hτ hτ'
    | variant hm => exact unique_follows (h2 _ hm) (fun x hx =>
        (own_bound hσ (hcount _ rfl) hx).imp fun r hr => get_append_left hr) hτ hτ'
    | element => exact absurd rfl (hset _)
    | node head =>
      refine unique_follows h2 (fun x hx => ?_) hτ hτ'
      rcases hx with hx | rfl
      · rw [List.append_assoc]
        exact (own_bound hσ (hcount _ rfl) hx).imp fun r hr => get_append_left hr
      · refine ⟨head, get_append_left ?_⟩
        have hlen := hσ.length_eq
        simp only [List.length_append, List.length_map, List.length_replicate, hcount _ rfl, Layout.own] at hlen
        unfold Subst.get
        rw [List.getElem?_append_right (by omega), hlen]
        simp

end Verif.Keeping
